import Verif.Model.Matrix
/-!
# Specification vocabulary for the matrix (C07-C10, C49)

What a user sees on the grid: cells at positions, wires between facing ports, legality.
-/

namespace HexoDSP.Matrix
open CellDir (Pos)

variable {N : Type} [DecidableEq N]

/-- The position lies on the grid. -/
def Matrix.InGrid (m : Matrix N) (p : Pos) : Prop := p.1 < m.w ∧ p.2 < m.h

/-- The three edges a cell sends signals through. -/
def outDirs : List CellDir := [.TR, .BR, .B]

/-- A wire leaves the cell at `p` through its edge `d` and makes the connection `e`: both facing
cells carry a node, the port on edge `d` of the cell at `p` is assigned to the output `e.srcOut`,
and the port on the facing edge of the neighbour is assigned to the input `e.dstInput`. -/
def Matrix.Wire (m : Matrix N) (p : Pos) (d : CellDir) (e : Edge N) : Prop :=
  d ∈ outDirs ∧ ∃ q a b, d.offsPos p = some q ∧ m.get p.1 p.2 = some a ∧ m.get q.1 q.2 = some b ∧
    a.nodeId = some e.src ∧ a.localPortIdx d = some e.srcOut ∧
    b.nodeId = some e.dst ∧ b.localPortIdx d.flip = some e.dstInput

/-- Two different wires end in the same input of the same node. -/
def Matrix.InputFedTwice (m : Matrix N) : Prop :=
  ∃ p d e p' d' e', m.Wire p d e ∧ m.Wire p' d' e' ∧ (p, d) ≠ (p', d') ∧
    e.dst = e'.dst ∧ e.dstInput = e'.dstInput

/-- Some wire leads from node `a` to node `b`. -/
def Matrix.Leads (m : Matrix N) (a b : N) : Prop := ∃ p d e, m.Wire p d e ∧ e.src = a ∧ e.dst = b

/-- The wires close a loop. -/
def Matrix.HasLoop (m : Matrix N) : Prop := ∃ a, Relation.TransGen m.Leads a a

/-- No node leads to more than 64 different nodes (the capacity of the graph ordering). -/
def Matrix.WithinCapacity (m : Matrix N) : Prop :=
  ∀ a, ∀ l : List N, l.Nodup → (∀ b ∈ l, m.Leads a b) → l.length ≤ 64

/-- Every node sits in at most one cell (as the node id allocation of the frontend ensures). -/
def Matrix.NodesPlacedOnce (m : Matrix N) : Prop :=
  ∀ (p q : Pos) a b n, m.get p.1 p.2 = some a → m.get q.1 q.2 = some b → a.nodeId = some n → b.nodeId = some n →
    p = q

/-- A matrix that can be reached from a fresh one by calls of the API. -/
def Matrix.Reachable (m : Matrix N) : Prop :=
  ∃ w h ops, (Matrix.new w h).runAll ops = some m

/-- Calls that do not touch the backup that `change_matrix` rolls back to. -/
def MOp.KeepsBackup : MOp N → Prop
  | .clear => False
  | .save => False
  | .restore => False
  | _ => True

/-- The two matrices show the same cells. -/
def SameCells (m m' : Matrix N) : Prop := ∀ x y, m'.get x y = m.get x y

/-- A plain two dimensional array of cells. -/
abbrev Array2 (N : Type) := Nat → Nat → Option (Cell N)

/-- Writing into the array: only positions that exist can be written. -/
def Array2.write (f : Array2 N) (x y : Nat) (c : Cell N) : Array2 N :=
  fun i j => if i = x ∧ j = y ∧ (f x y).isSome then some c else f i j

/-- The kind of neighbour asked for: inputs, outputs or any. -/
def Wanted (kind d : CellDir) : Prop :=
  (kind = .C ∧ d ≠ .C) ∨ (kind ≠ .C ∧ kind ∉ outDirs ∧ d ∈ [CellDir.T, .TL, .BL]) ∨ (kind ∈ outDirs ∧ d ∈ outDirs)

/-- `pos` is a free place on the grid next to `c` in direction `d`. -/
def FreeNeighbour (m : Matrix N) (c : Cell N) (d : CellDir) (pos : Pos) : Prop :=
  d.offsPos (c.x, c.y) = some pos ∧ ∃ n, m.get pos.1 pos.2 = some n ∧ n.nodeId = none

end HexoDSP.Matrix
