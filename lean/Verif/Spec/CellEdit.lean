import Verif.Model.CellEdit
import Verif.Spec.Matrix
/-!
# What editing a cell and placing several cells means (C140)

A cell on paper: a node (or none), a place and what is written on each of its six edges.
-/

namespace HexoDSP.Matrix
open CellDir (Pos)

variable {N : Type}

/-- A cell on paper. -/
structure Sheet (N : Type) where
  node : Option N
  place : Nat × Nat
  edge : CellDir → Option Nat

/-- What the calls of the API show of a cell. -/
def Cell.sheet (c : Cell N) : Sheet N := ⟨c.nodeId, c.pos, c.localPortIdx⟩

/-- The three edges signals come in through, in the order of the arguments of `Cell::input`. -/
def inEdges : List CellDir := [.T, .TL, .BL]

/-- The three edges signals leave through, in the order of the arguments of `Cell::out`. -/
def outEdges : List CellDir := [.TR, .BR, .B]

/-- The values are written on the listed edges, one each; nothing else changes. -/
def Sheet.write (s : Sheet N) (es : List CellDir) (vs : List (Option Nat)) : Sheet N :=
  { s with edge := fun d => ((es.zip vs).lookup d).getD (s.edge d) }

/-- What each call is for. -/
def Sheet.edit (s : Sheet N) : CellOp N → Sheet N
  | .setNodeId n => { s with node := n, edge := fun _ => none }
  | .setNodeIdKeepIos n => { s with node := n }
  | .clearIoDir d => { s with edge := fun e => if d = e ∨ d = .C then none else s.edge e }
  | .setIoDir d idx => { s with edge := fun e => if d = e ∧ d ≠ .C then some idx else s.edge e }
  | .input i1 i2 i3 => s.write inEdges [i1, i2, i3]
  | .out o1 o2 o3 => s.write outEdges [o1, o2, o3]
  | .withPosOf other => { s with place := other.pos }

/-- The port numbers fit into a `u8`, as those of all nodes do. -/
def CellOp.Fits : CellOp N → Prop
  | .setIoDir _ idx => idx < 256
  | _ => True

/-- The cell could exist in the program: its coordinates are `u8`. -/
def Cell.InBytes (c : Cell N) : Prop := c.x < 256 ∧ c.y < 256

/-- The grid `f` with the cells written over it, one after the other. -/
def overlay (f : Array2 N) (cs : List (Cell N)) : Array2 N := cs.foldl (fun f c => f.write c.x c.y c) f

/-- A place of the grid a cell can go to: it exists and no node is there. -/
def Array2.Free (f : Array2 N) (c : Cell N) : Prop := ∃ old, f c.x c.y = some old ∧ old.nodeId = none

/-- All the cells fit into the grid: each place exists and is free, and no two of the cells want the same place
(unless the earlier one carries no node, so that the place is still free). -/
def Fit (f : Array2 N) (cs : List (Cell N)) : Prop :=
  (∀ c ∈ cs, f.Free c) ∧ cs.Pairwise (fun a b => a.pos = b.pos → a.nodeId = none)

/-- The first cell that cannot be placed: those before it are in the grid, and its place is taken or outside. -/
def Stuck (f : Array2 N) (cs : List (Cell N)) (g : Array2 N) (e : MatrixError N) : Prop :=
  ∃ pre c post, cs = pre ++ c :: post ∧ g = overlay f pre ∧
    ((e = .posOutOfRange ∧ g c.x c.y = none) ∨ ∃ k, e = .nonEmptyCell k ∧ g c.x c.y = some k ∧ k.nodeId ≠ none)

end HexoDSP.Matrix
