import Verif.Model.Label
import Verif.Spec.Matrix
/-! What the labels of cells and edges should say. -/

namespace HexoDSP.LabelSpec
open HexoDSP.Matrix HexoDSP.Table HexoDSP.Label

/-- The name of the port with the number `i` that an edge in the direction `d` has: an output to the right and below, an input otherwise. -/
def portName (n : Nd) (d : CellDir) (i : Nat) : Option String :=
  if d ∈ outDirs then n.id.outNameByIdx i else n.id.inpNameByIdx i

/-- The port assigned to the edge is one of the node (inputs that are settings cannot be connected). -/
def PortOk (c : Cell Nd) (d : CellDir) : Prop :=
  ∀ n i, c.nodeId = some n → c.localPortIdx d = some i → d ∉ outDirs → i < (row n.1).params.length

/-- Empty cells have no inputs assigned. -/
def EmptyHaveNone (m : Matrix Nd) : Prop :=
  ∀ x y c, m.get x y = some c → c.nodeId = none → c.in1 = none ∧ c.in2 = none ∧ c.in3 = none

end HexoDSP.LabelSpec
