import Verif.Model.Tracker
/-!
# Model of `src/dsp/node_sin.rs`

Numbers are rationals; the results of `f32` additions and multiplications go through a rounding `rn`. The function `fast_sin` of the crate
`synfx_dsp` is arbitrary. The frequency input is given after `denorm_offs` (`src/dsp/mod.rs:2405-2411`, `d_pit` at `src/dsp/mod.rs:1050-1055`: a positive number).
-/

namespace HexoDSP.SinNode
open HexoDSP.Tracker (fract)

/-- `src/dsp/node_sin.rs:102-104`: the loop `while phase < 0.0 { phase += 1.0 }` with at most `fuel` rounds; `none` if it has not ended. -/
def wrap (rn : ℚ → ℚ) : Nat → ℚ → Option ℚ
  | 0, x => if x < 0 then none else some x
  | fuel + 1, x => if x < 0 then wrap rn fuel (rn (x + 1)) else some x

/-- `src/dsp/node_sin.rs:98-110`: one frame: the phase handed to `fast_sin` (as a part of the full circle) and the next phase of the oscillator;
`isr` is `1.0 / self.srate`. -/
def frame (rn : ℚ → ℚ) (fuel : Nat) (isr phase freq pm : ℚ) : Option (ℚ × ℚ) :=
  match wrap rn fuel (rn (phase + pm)) with
  | none => none
  | some p => some (fract p, fract (rn (phase + rn (freq * isr))))

/-- The loop over the frames (`src/dsp/node_sin.rs:98-110`), also over several blocks, with the inputs `freq` and `pm`. -/
def run (rn : ℚ → ℚ) (fuel : Nat) (isr : ℚ) : ℚ → List (ℚ × ℚ) → Option (List ℚ × ℚ)
  | phase, [] => some ([], phase)
  | phase, (freq, pm) :: rest =>
    match frame rn fuel isr phase freq pm with
    | none => none
    | some (p, phase) => (run rn fuel isr phase rest).map (fun r => (p :: r.1, r.2))

/-- `src/dsp/node_sin.rs:105-106`: the output signal: `sine` is `fast_sin` after the multiplication with `TWOPI`. -/
def signal (sine : ℚ → ℚ) (ps : List ℚ) : List ℚ := ps.map sine

end HexoDSP.SinNode
