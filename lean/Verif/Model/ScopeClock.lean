import Verif.Model.ScopeNode
/-!
# The clock of the scope with `f32` arithmetic, `src/dsp/node_scope.rs`

`rn` rounds to `f32`. Only what decides when a point ends: `frame_time` and `idx`, while a recording goes on and a point takes a sample or more.
-/

namespace HexoDSP.ScopeClock

/-- `src/dsp/node_scope.rs:158`; `time` is the setting in milliseconds, after `denorm`. -/
def clamped (rn : ℚ → ℚ) (time : ℚ) : ℚ := max (rn (1 / 10)) (min time 300000)

/-- `src/dsp/node_scope.rs:113-115` `set_sample_rate`. -/
def srateMs (rn : ℚ → ℚ) (srate : ℚ) : ℚ := rn (srate / 1000)

/-- `src/dsp/node_scope.rs:160` `time_per_block`. -/
def timePerBlock (rn : ℚ → ℚ) (time : ℚ) : ℚ := rn (clamped rn time / 512)

/-- `src/dsp/node_scope.rs:161` `sample_time`. -/
def sampleTime (rn : ℚ → ℚ) (srate : ℚ) : ℚ := rn (1 / srateMs rn srate)

/-- The number of points finished, and `frame_time`. -/
structure Clock where
  idx : ℕ
  frameTime : ℚ

/-- One frame, `src/dsp/node_scope.rs:204-213`; `tpb` is `time_per_block`, `st` is `sample_time`. -/
def Clock.tick (rn : ℚ → ℚ) (tpb st : ℚ) (c : Clock) : Clock :=
  if tpb ≤ c.frameTime then ⟨c.idx + 1, rn (rn (c.frameTime - tpb) + st)⟩ else ⟨c.idx, rn (c.frameTime + st)⟩

/-- The clock after some frames of a recording that was started by a trigger (`src/dsp/node_scope.rs:219-220`). -/
def after (rn : ℚ → ℚ) (tpb st : ℚ) : ℕ → Clock
  | 0 => ⟨0, 0⟩
  | k + 1 => (after rn tpb st k).tick rn tpb st

end HexoDSP.ScopeClock
