import Verif.Model.FreeOutput
/-! Free outputs of a block area. -/

namespace HexoDSP.FreeOutputSpec
open HexoDSP.Block

/-- In the slot `(x, y)` is an output with this name, and to the right of it is no input. -/
def Free (a : Area) (x y : Int) (name : String) : Prop :=
  ∃ p b, (p, b) ∈ a.blocks ∧ ∃ row, row < b.rows ∧ b.outputs.getD row none = some name ∧ p.1 = x ∧ p.2 + (row : Int) = y ∧ a.findPortAt (x + 1, y) false = none

/-- `(x, y)` comes after `(x', y')`: further down, or as far down and further to the right. -/
def Later (x y x' y' : Int) : Prop := y' < y ∨ (y' = y ∧ x' < x)

/-- As far or further. -/
def NotBefore (x y x' y' : Int) : Prop := y' < y ∨ (y' = y ∧ x' ≤ x)

end HexoDSP.FreeOutputSpec
