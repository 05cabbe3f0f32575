import Verif.Spec.SinNode
/-!
# `f64` numbers, and where the play head of the sample player belongs (C144)
-/

namespace HexoDSP.SamplFloatSpec

/-- A finite `f64`. -/
def F64 (x : ℚ) : Prop := ∃ m e : ℤ, |m| < 2 ^ 53 ∧ -1074 ≤ e ∧ e ≤ 971 ∧ x = m * (2 : ℚ) ^ e

/-- A rounding to a nearest `f64`, in whatever way ties are decided. (Overflow is left out: the numbers of interest are far below.) -/
def Nearest64 (rn : ℚ → ℚ) : Prop := ∀ x, F64 (rn x) ∧ ∀ y, F64 y → |rn x - x| ≤ |y - x|

/-- `x` is at most `d` away from `y` on a circle of `n` samples. -/
def Near (n : ℕ) (x y d : ℚ) : Prop := ∃ t : ℤ, |x - (y - t * n)| ≤ d

/-- The setting of the theorems: a part of at most `2^j` samples, of a recording that has at most `2^r` times the sample rate of the engine (`ratio`). -/
structure Part (n : ℕ) (ratio : ℚ) (j r : ℤ) : Prop where
  some : 0 < n
  short : (n : ℚ) ≤ (2 : ℚ) ^ j
  jr : 0 ≤ r ∧ r ≤ j ∧ j ≤ 50
  pos : 0 < ratio
  small : ratio ≤ (2 : ℚ) ^ r

/-- A speed at which no frame goes on by more than `2^j` samples. -/
def Speed (j r : ℤ) (s : ℚ) : Prop := 0 ≤ s ∧ s ≤ (2 : ℚ) ^ (j - r)

end HexoDSP.SamplFloatSpec
