import Verif.Model.Engine
/-!
# Status values of the nodes

Each node shows two values to the user: the value of its status LED and its phase. The audio thread stores them in a table of 512 cells the
configurator reads.
-/

namespace HexoDSP.Engine

variable {N V A : Type} [DecidableEq N] [OfNat V 0]

/-- `src/nodes/node_conf.rs:22`, `285-288`: the table, as `NodeConfigurator::new` makes it. -/
def statusNew : List V := List.replicate 512 0

/-- `src/nodes/node_conf.rs:592-598` `led_value_for`. `none` is a panic. -/
def Conf.ledValueFor (c : Conf N V A) (vals : List V) (n : N) : Option V :=
  match c.uniqueIndexFor n with
  | some idx => vals[idx * 2]?
  | none => some 0

/-- `src/nodes/node_conf.rs:579-585` `phase_value_for`. `none` is a panic. -/
def Conf.phaseValueFor (c : Conf N V A) (vals : List V) (n : N) : Option V :=
  match c.uniqueIndexFor n with
  | some idx => vals[(idx * 2) + 1]?
  | none => some 0

/-- What one call of a node stores in the two cells it is given, `ctx_vals[0].set(..)` and `ctx_vals[1].set(..)`; `none` if it leaves the cell
alone. -/
structure Shown (V : Type) where
  led : Option V
  phase : Option V

/-- A cell is stored to, or left alone. -/
def store (vals : List V) (i : Nat) : Option V → List V
  | none => vals
  | some v => vals.set i v

/-- `src/nodes/node_exec.rs:457`, `478`: the node of the operation gets the cells `idx * 2` and `idx * 2 + 1`. `none` is a panic (the slice is out of
range). -/
def showOp (vals : List V) (x : NodeOp N × Shown V) : Option (List V) :=
  let ctxIdx := x.1.idx * 2
  if ctxIdx + 2 ≤ vals.length then some (store (store vals ctxIdx x.2.led) (ctxIdx + 1) x.2.phase) else none

/-- `src/nodes/node_exec.rs:446-485`, the table only: the operations of the program in order. `shown` is what the calls of the nodes store, one entry
for each. Which values a node stores is left open. -/
def showBlock (vals : List V) (prog : List (NodeOp N)) (shown : List (Shown V)) : Option (List V) :=
  (prog.zip shown).foldlM showOp vals

end HexoDSP.Engine
