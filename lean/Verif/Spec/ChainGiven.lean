import Verif.Model.ChainBuilder
/-!
# Which parameters a chain is given (C73)

Read off the calls alone: each call that gives a value is for the cell added last, unless another one was chosen since.
-/

set_option linter.dupNamespace false

namespace HexoDSP.Chain
open HexoDSP.Table

variable {V : Type}

/-- A cell asked for: the node named, and the values given for its parameters, in order. -/
structure Noted (V : Type) where
  id : NodeId
  given : List (String × (ParamId → V))

/-- The cells asked for, and which one values are given for. -/
structure Notes (V : Type) where
  cells : List (Noted V)
  cur : Nat

/-- What a call adds to the notes. A number beyond the cells chooses none. -/
def Notes.after (n : Notes V) : BuildOp V → Notes V
  | .node name _ _ => ⟨n.cells ++ [⟨NodeId.fromStr name, []⟩], n.cells.length⟩
  | .link c => ⟨n.cells ++ [⟨ofOpt c.nodeId, []⟩], n.cells.length⟩
  | .set s v => match n.cells[n.cur]? with
    | none => n
    | some c => ⟨n.cells.set n.cur ⟨c.id, c.given ++ [(s, v)]⟩, n.cur⟩
  | .paramsForIdx i => ⟨n.cells, min i n.cells.length⟩

def notes (ops : List (BuildOp V)) : Notes V := ops.foldl Notes.after ⟨[], 0⟩

/-- The parameters of the named node with the values given. -/
def Noted.wanted (c : Noted V) : List (ParamId × V) := c.given.filterMap (fun g => (c.id.inpParam g.1).map (fun p => (p, g.2 p)))

/-- The last value for a parameter. -/
def lastFor (pid : ParamId) (l : List (ParamId × V)) : Option V := (l.reverse.find? (fun e => e.1 == pid)).map (·.2)

end HexoDSP.Chain
