import Verif.Spec.SinNode
import Verif.Model.Smoother
/-!
# Arithmetic of type `f32` (C125)

A number of type `f32` together with the rounding `rn` after each operation; `F32` and `Nearest` (`Verif/Spec/SinNode.lean`) say which rationals are
finite `f32` numbers and what rounding to a nearest of them is. Infinities and NaN are left out: the theorems bound the numbers or exclude division by zero.
-/

namespace HexoDSP.FloatSpec
open HexoDSP.SinSpec

/-- A number that is rounded by `rn` after each operation. -/
structure Fl (rn : ℚ → ℚ) where
  val : ℚ

variable {rn : ℚ → ℚ}

instance : Add (Fl rn) := ⟨fun a b => ⟨rn (a.val + b.val)⟩⟩
instance : Sub (Fl rn) := ⟨fun a b => ⟨rn (a.val - b.val)⟩⟩
instance : Mul (Fl rn) := ⟨fun a b => ⟨rn (a.val * b.val)⟩⟩
instance : Div (Fl rn) := ⟨fun a b => ⟨rn (a.val / b.val)⟩⟩
instance : NatCast (Fl rn) := ⟨fun n => ⟨rn n⟩⟩

/-- The straight line from `v` to `t` in `n` steps: its value after step `k` (counting from zero). -/
def line (v t : ℚ) (n k : Nat) : ℚ := v + (k + 1) * ((t - v) / n)

end HexoDSP.FloatSpec
