import Verif.Model.GraphOrdering
/-!
# Specification vocabulary for the graph ordering (C04, C05, C06)

The abstract directed graph that a history of API calls describes.
-/

namespace HexoDSP.GraphOrdering

/-- A directed graph: its nodes in order of first mention, and its edges. -/
structure Graph (N : Type) where
  nodes : List N
  edges : List (N × N)

variable {N : Type} [DecidableEq N]

/-- Add an element unless present. -/
def insertNew {α : Type} [DecidableEq α] (l : List α) (a : α) : List α := if a ∈ l then l else l ++ [a]

/-- What an API call means: `clear` forgets everything, `add_node` adds a node, `add_edge` adds its
target and, if the source is a known node, the edge; ordering does not change the graph. -/
def Graph.apply (g : Graph N) : Op N → Graph N
  | .clear => ⟨[], []⟩
  | .addNode a => ⟨insertNew g.nodes a, g.edges⟩
  | .addEdge a b =>
    let nodes := insertNew g.nodes b
    ⟨nodes, if a ∈ nodes then insertNew g.edges (a, b) else g.edges⟩
  | .calcOrder => g

/-- The graph described by a history of calls. -/
def graphOf (ops : List (Op N)) : Graph N := ops.foldl Graph.apply ⟨[], []⟩

/-- There is an edge. -/
def Graph.Edge (g : Graph N) (a b : N) : Prop := (a, b) ∈ g.edges

/-- A node on a directed cycle (a self loop is a cycle). -/
def Graph.Cyclic (g : Graph N) : Prop := ∃ a, Relation.TransGen g.Edge a a

/-- `b` can be reached from `a` along zero or more edges. -/
def Graph.Reachable (g : Graph N) (a b : N) : Prop := a = b ∨ Relation.TransGen g.Edge a b

/-- `a` stands somewhere before `b` in `l`. -/
def Before (l : List N) (a b : N) : Prop := ∃ p q r, l = p ++ a :: q ++ b :: r

/-- The distinct successors of a node. -/
def Graph.successors (g : Graph N) (a : N) : List N := (g.edges.filter (fun e => e.1 = a)).map (fun e => e.2)

/-- No node ever gets more than 64 distinct successors during the history (the fixed size
of the edge array in the code). -/
def Fits (ops : List (Op N)) : Prop :=
  ∀ pre post, ops = pre ++ post → ∀ a, ((graphOf pre).successors a).length ≤ maxNodeEdges

end HexoDSP.GraphOrdering
