import Mathlib.Algebra.Order.Floor.Semiring
import Mathlib.Algebra.Order.Field.Rat
import Mathlib.Data.Rat.Floor
/-!
# The line a value column plays (C132)

The position is counted in rows. Inside of a row the line runs straight from the value of the row before (that of the first row is the last) to its own.
-/

namespace HexoDSP.FloatSeqSpec

/-- The line through the values of the rows. -/
def curve (rows : Nat) (val : Nat → ℚ) (pos : ℚ) : ℚ :=
  let k := ⌊pos⌋₊
  val ((k + rows - 1) % rows) * (1 - (pos - k)) + val (k % rows) * (pos - k)

end HexoDSP.FloatSeqSpec
