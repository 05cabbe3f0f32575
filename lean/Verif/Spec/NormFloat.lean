import Verif.Spec.SinNode
import Mathlib.Analysis.SpecialFunctions.Pow.Real
/-!
# The square root of `f32` numbers, and which numbers are neither tiny nor huge (C139)
-/

namespace HexoDSP.NormFloatSpec
open HexoDSP.SinSpec

/-- A square root that is rounded to a nearest `f32`, as IEEE 754 demands. -/
def RoundedSqrt (sq : ℚ → ℚ) : Prop := ∀ x, 0 ≤ x → F32 (sq x) ∧ ∀ y, F32 y → |(sq x : ℝ) - √(x : ℝ)| ≤ |(y : ℝ) - √(x : ℝ)|

/-- Zero, or a number between `2^-60` and `2^50` without its sign. -/
def Ordinary (x : ℚ) : Prop := x = 0 ∨ ((2 : ℚ) ^ (-60 : ℤ) ≤ |x| ∧ |x| ≤ (2 : ℚ) ^ (50 : ℤ))

end HexoDSP.NormFloatSpec
