import Mathlib.Data.Rat.Defs
import Mathlib.Algebra.Order.Field.Rat
/-!
# The pitch of a note of the tracker with `f32` arithmetic, `src/dsp/tracker/pattern.rs`
-/

namespace HexoDSP.NoteFloat

/-- `src/dsp/tracker/pattern.rs:193` and the clamping in line 198; `rn` rounds to `f32`. The literals are rounded as well. -/
def trackerPitch (rn : ℚ → ℚ) (v : ℕ) : ℚ :=
  max (-1) (min (rn (rn (rn (((v : ℤ) - 69 : ℤ) : ℚ) * rn (1 / 10)) / 12)) 1)

end HexoDSP.NoteFloat
