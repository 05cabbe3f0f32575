import Mathlib.Data.Rat.Floor
import Mathlib.Algebra.Order.Field.Basic
/-!
# Numbers of type `f32`, and cycles (C89)

The finite numbers of IEEE 754 binary32, and what it means to round to the nearest of them.
-/

namespace HexoDSP.SinSpec

/-- A finite `f32`. -/
def F32 (x : ℚ) : Prop := ∃ m e : ℤ, |m| < 2 ^ 24 ∧ -149 ≤ e ∧ e ≤ 104 ∧ x = m * (2 : ℚ) ^ e

/-- A rounding to a nearest `f32`, in whatever way ties are decided. (Overflow is left out: the numbers of interest are far below.) -/
def Nearest (rn : ℚ → ℚ) : Prop := ∀ x, F32 (rn x) ∧ ∀ y, F32 y → |rn x - x| ≤ |y - x|

/-- Two positions on the circle of circumference 1 are the same. -/
def SamePhase (a b : ℚ) : Prop := ∃ k : ℤ, a = b + k

end HexoDSP.SinSpec
