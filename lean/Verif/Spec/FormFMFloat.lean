import Mathlib.Data.Rat.Floor
import Mathlib.Algebra.Order.Field.Basic
/-!
# The shape of one period of the formant oscillator (C142)
-/

namespace HexoDSP.FormFMSpec

/-- A line from 0 at the beginning of the period up to 1 at the place `side`, and from there down to 0 at the end of the period. -/
def line (side p : ℚ) : ℚ := if p ≤ side then p / side else (1 - p) / (1 - side)

/-- The loudness over the period: 1 at both ends, `peak` at the place `side`, with smooth turns. -/
def loudness (side peak p : ℚ) : ℚ := 1 - (1 - peak) * (line side p ^ 2 * (3 - 2 * line side p))

end HexoDSP.FormFMSpec
