import Verif.Spec.Matrix
/-!
# Specification vocabulary for a patch that is moved on the grid (C129)
-/

namespace HexoDSP.Matrix

variable {N : Type} [DecidableEq N]

/-- What is seen at a position of the grid: the node and what is set at the six edges. Nothing is seen in a place without a node and outside the grid. -/
def Matrix.seen (m : Matrix N) (x y : Nat) : Option (Cell N) :=
  (m.get x y).bind (fun c => if c.nodeId = none then none else some { c with x := 0, y := 0 })

/-- `m'` shows what `m` shows, `dx` columns further to the right and `dy` rows further down, and nothing else. (The grids may differ in size.) -/
def Moved (m m' : Matrix N) (dx dy : Nat) : Prop :=
  (∀ x y, m'.seen (x + dx) (y + dy) = m.seen x y) ∧ ∀ x y, x < dx ∨ y < dy → m'.seen x y = none

/-- What comes of `sync`: the connections and the order in which the nodes run, or the error; `none` for a panic. -/
def Matrix.syncOutcome (m : Matrix N) : Option (List (Edge N) × Except (MatrixError N) (List N)) := m.sync.map (fun r => (r.1.edges, r.2))

/-- What comes of `check`. -/
def Matrix.checkOutcome (m : Matrix N) : Option (List (Edge N) × Option (MatrixError N)) := m.check.map (fun r => (r.1.edges, r.2))

end HexoDSP.Matrix
