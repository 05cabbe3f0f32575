import Mathlib.Data.Rat.Floor
import Mathlib.Algebra.Order.Field.Basic
/-!
# Places on a circle, frequencies and sample rates (C138)
-/

namespace HexoDSP.SinSpec

/-- On the circle of circumference 1, the places `a` and `b` are at most `d` apart. -/
def Near (d a b : ℚ) : Prop := ∃ k : ℤ, |a - b + k| ≤ d

/-- A frequency for which the sample rate is high enough. -/
structure Fair (sr f : ℚ) : Prop where
  nonneg : 0 ≤ f
  half : f ≤ sr / 2

/-- Sample rates: from 1 Hz up to 2^100 Hz. -/
structure Rate (sr : ℚ) : Prop where
  low : 1 ≤ sr
  high : sr < 2 ^ 100

end HexoDSP.SinSpec
