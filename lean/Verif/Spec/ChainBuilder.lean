import Verif.Model.ChainBuilder
import Verif.Spec.CellDir
import Verif.Spec.Matrix
/-!
# What the chain builder is expected to do (C36, C73)
-/

set_option linter.dupNamespace false

namespace HexoDSP.Chain
open HexoDSP.Matrix HexoDSP.Table
open CellDir (Pos walk)

variable {V : Type}

/-- The edge a cell of a chain in direction `d` sends its signal through. -/
def outSide (d : CellDir) : CellDir := if d ∈ outDirs then d else d.flip

/-- The edge a cell of a chain in direction `d` takes its signal from. -/
def inSide (d : CellDir) : CellDir := if d ∈ outDirs then d.flip else d

/-- The call adds a cell to the chain. -/
def BuildOp.addsCell : BuildOp V → Bool
  | .node _ _ _ => true
  | .link _ => true
  | _ => false

/-- The name of the node asked for. -/
def BuildOp.nodeName : BuildOp V → String
  | .node n _ _ => n
  | .link c => (ofOpt c.nodeId).name
  | _ => ""

/-- The cells asked for, in order. -/
def cellOps (ops : List (BuildOp V)) : List (BuildOp V) := ops.filter BuildOp.addsCell

/-- The name is a node, and the ports named exist. -/
def NamesKnown (name : String) (inp out : Option String) : Prop :=
  (NodeId.fromStr name = .nop → name = "nop") ∧
  (∀ i, inp = some i → ∃ k, (NodeId.fromStr name).inp i = some k) ∧
  (∀ o, out = some o → ∃ k, (NodeId.fromStr name).out o = some k)

/-- The ports of a cell are: the named input at the input side, the named output at the output side, and nothing else. -/
def PortsAre (d : CellDir) (name : String) (inp out : Option String) (c : Cell TNode) : Prop :=
  c.localPortIdx (inSide d) = inp.bind (NodeId.fromStr name).inp ∧
  c.localPortIdx (outSide d) = out.bind (NodeId.fromStr name).out ∧
  ∀ e, e ≠ inSide d → e ≠ outSide d → c.localPortIdx e = none

/-- The call asks for this cell, up to the instance of the node and the position. -/
def BuildOp.Asks (d : CellDir) (op : BuildOp V) (c : Cell TNode) : Prop :=
  match op with
  | .node name inp out => (NodeId.fromStr name).eqVariant (ofOpt c.nodeId) = true ∧ PortsAre d name inp out c
  | .link c0 => (ofOpt c0.nodeId).eqVariant (ofOpt c.nodeId) = true ∧ ∀ e, c.localPortIdx e = c0.localPortIdx e
  | _ => False

/-- The `k`-th cell of a chain at `(x, y)` belongs to `p`. -/
def PlaceOf (d : CellDir) (x y k : Nat) (p : Pos) : Prop := walk (x, y) (List.replicate k d) = some p

/-- An unused node of the same type is given out. -/
def SameType (unused : NodeId → Option NodeId) : Prop := ∀ id id', unused id = some id' → id.eqVariant id' = true

end HexoDSP.Chain
