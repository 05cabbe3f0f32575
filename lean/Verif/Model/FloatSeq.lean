import Verif.Model.FloatNodes
/-!
# The columns of the tracker with `f32` arithmetic (`src/dsp/tracker/sequencer.rs`)

`rn` rounds after each operation. `f32::fract` is `x - x.trunc()`, which needs no rounding (`fract_f32` in `Verif/Lemmas/FloatSeq.lean`).
-/

namespace HexoDSP.FloatSeq
open HexoDSP.FloatNodes

/-- `src/dsp/tracker/sequencer.rs:85-100`: one sample of a value column with the values `val` of its rows. -/
def interpolateAt (rn : ℚ → ℚ) (rows : Nat) (val : Nat → ℚ) (phase : ℚ) : ℚ :=
  let frac := Tracker.fract (rn (phase * lastRowIdx rn rows))
  let line := lineOf rn rows phase
  let prevLine := if line = 0 then rows - 1 else line - 1
  rn (rn (val prevLine * rn (1 - frac)) + rn (val line * frac))

/-- `src/dsp/tracker/sequencer.rs:140-161`, before `fract`: the position in a row that is divided into `div` gates (a whole number from 1 to 16). Phases from
0 to 1 are not changed by the clamping in line 140. -/
def gatePos (rn : ℚ → ℚ) (rows : Nat) (div : Nat) (phase : ℚ) : ℚ :=
  rn (Tracker.fract (rn (phase * lastRowIdx rn rows)) * div)

end HexoDSP.FloatSeq
