/-!
# Model of `src/nodes/node_graph_ordering.rs`

The node id type is a parameter `N` (the code uses `dsp::NodeId`). `HashMap<NodeId, usize>` is an
association list (the code never inserts a key twice without looking it up first). The vectors
`nodes` and `in_degree` keep their stale contents beyond `node_count`, as in the code.
Panics (index out of bounds, `usize` underflow) are `none`.
-/

namespace HexoDSP.GraphOrdering

/-- `src/nodes/node_graph_ordering.rs:9` `MAX_NODE_EDGES`. -/
def maxNodeEdges : Nat := 64

/-- `src/nodes/node_graph_ordering.rs:13-20` `struct Node`. The array `edges` together with
`unused_idx` is modelled by the list of its used prefix (`edges.iter().take(unused_idx)`), the only
part the code reads. `none` as node id stands for `NodeId::Nop` of a cleared slot. -/
structure Node (N : Type) where
  nodeId : Option N
  edges : List Nat
  deriving Repr, DecidableEq

/-- `src/nodes/node_graph_ordering.rs:23-31` `Node::new` and `Node::clear`. -/
def Node.new {N : Type} : Node N := { nodeId := none, edges := [] }

/-- `src/nodes/node_graph_ordering.rs:33-42` `Node::add_edge`; `none` is the out of bounds panic of
`self.edges[self.unused_idx]` when all 64 slots are used. -/
def Node.addEdge {N : Type} (n : Node N) (nodeIndex : Nat) : Option (Node N) :=
  if nodeIndex ∈ n.edges then some n
  else if n.edges.length < maxNodeEdges then some { n with edges := n.edges ++ [nodeIndex] }
  else none

/-- `src/nodes/node_graph_ordering.rs:46-52` `struct NodeGraphOrdering`. -/
structure Ordering (N : Type) where
  node2idx : List (N × Nat)
  nodeCount : Nat
  nodes : List (Node N)
  inDegree : List Nat
  deriving Repr

variable {N : Type} [DecidableEq N]

/-- `src/nodes/node_graph_ordering.rs:55-62` `NodeGraphOrdering::new`. -/
def Ordering.new : Ordering N :=
  { node2idx := [], nodeCount := 0, nodes := List.replicate 256 Node.new,
    inDegree := List.replicate 256 0 }

/-- `src/nodes/node_graph_ordering.rs:64-67` `clear`. -/
def Ordering.clear (o : Ordering N) : Ordering N := { o with node2idx := [], nodeCount := 0 }

/-- `HashMap::get` on `node2idx`. -/
def Ordering.lookup (o : Ordering N) (a : N) : Option Nat := o.node2idx.lookup a

/-- `src/nodes/node_graph_ordering.rs:69-87` `add_node`. -/
def Ordering.addNode (o : Ordering N) (a : N) : Ordering N × Nat :=
  match o.lookup a with
  | some idx => (o, idx)
  | none =>
    let idx := o.nodeCount
    let nodeCount := o.nodeCount + 1
    -- `Vec::resize` when `nodes.len() < node_count`
    let grow := o.nodes.length < nodeCount
    let nodes := if grow then o.nodes ++ List.replicate (nodeCount - o.nodes.length) Node.new else o.nodes
    let inDegree :=
      if grow then o.inDegree ++ List.replicate (nodeCount - o.inDegree.length) 0 else o.inDegree
    ({ node2idx := (a, idx) :: o.node2idx, nodeCount := nodeCount,
       nodes := nodes.set idx { nodeId := some a, edges := [] }, inDegree := inDegree }, idx)

/-- `src/nodes/node_graph_ordering.rs:99-105` `add_edge` (with `get_node_mut`, lines 94-97). -/
def Ordering.addEdge (o : Ordering N) (fromId toId : N) : Option (Ordering N) :=
  let (o, toIdx) := o.addNode toId
  match o.lookup fromId with
  | none => some o
  | some fromIdx =>
    match o.nodes[fromIdx]? with
    | none => none
    | some node =>
      match node.addEdge toIdx with
      | none => none
      | some node' => some { o with nodes := o.nodes.set fromIdx node' }

/-- The successors' node ids of a node, `src/nodes/node_graph_ordering.rs:124-128`; `none` is an
out of bounds panic. -/
def Ordering.succIds (o : Ordering N) (a : N) : Option (List N) :=
  match o.lookup a with
  | none => some []
  | some idx =>
    match o.nodes[idx]? with
    | none => none
    | some node => node.edges.mapM (fun j => (o.nodes[j]?).bind (fun n => n.nodeId))

/-- The three possible answers of `has_path` (`Option<bool>` in the code). -/
inductive PathAnswer where
  | unknown   -- `None`
  | no        -- `Some(false)`
  | yes       -- `Some(true)`
  deriving DecidableEq, Repr

/-- The loop `src/nodes/node_graph_ordering.rs:113-131`. The head of `stack` is the top.
`none` stands for a panic or for running out of `fuel`. -/
def Ordering.hasPathLoop (o : Ordering N) (target : N) : Nat → List N → List N → Option PathAnswer
  | _, _, [] => some .no
  | 0, _, _ :: _ => none
  | fuel + 1, visited, a :: stack =>
    if a ∈ visited then some .unknown
    else if a = target then some .yes
    else
      match o.succIds a with
      | none => none
      | some succs => hasPathLoop o target fuel (a :: visited) (succs.reverse ++ stack)

/-- `src/nodes/node_graph_ordering.rs:107-132` `has_path`. The fuel is the length of the longest
possible run: each iteration but the last visits a new node. -/
def Ordering.hasPath (o : Ordering N) (fromId toId : N) : Option PathAnswer :=
  o.hasPathLoop toId (o.nodeCount + 2) [] [fromId]

/-- `src/nodes/node_graph_ordering.rs:147-151`: count the inputs of every node. -/
def countInputs (nodes : List (Node N)) (deg : List Nat) : Option (List Nat) :=
  nodes.foldlM (fun deg node =>
    node.edges.foldlM (fun deg j => (deg[j]?).map (fun d => deg.set j (d + 1))) deg) deg

/-- `src/nodes/node_graph_ordering.rs:172-181`: one neighbour of the inner loop. -/
def relaxOne (s : List Nat × List Nat) (j : Nat) : Option (List Nat × List Nat) :=
  match s.1[j]? with
  | some (d + 1) => some (s.1.set j d, if d = 0 then s.2 ++ [j] else s.2)
  | some 0 => none  -- `usize` underflow
  | none => none    -- out of bounds

/-- `src/nodes/node_graph_ordering.rs:164-182`: the main loop. Returns the final in-degrees,
`out` (as node slots) and `visited_count`. -/
def kahnLoop (nodes : List (Node N)) :
    Nat → List Nat → List Nat → List N → Nat → Option (List Nat × List N × Nat)
  | _, deg, [], out, visited => some (deg, out, visited)
  | 0, _, _ :: _, _, _ => none
  | fuel + 1, deg, i :: deq, out, visited =>
    match nodes[i]? with
    | none => none
    | some node =>
      match node.nodeId with
      | none => none
      | some a =>
        match node.edges.foldlM relaxOne (deg, deq) with
        | none => none
        | some (deg', deq') => kahnLoop nodes fuel deg' deq' (out ++ [a]) (visited + 1)

/-- `src/nodes/node_graph_ordering.rs:139-190` `calculate_order`. `out` is the vector passed in by
the caller. `none` is a panic (or fuel exhaustion, proved impossible). -/
def Ordering.calculateOrder (o : Ordering N) (out : List N) : Option (Ordering N × List N × Bool) :=
  let deg0 := o.inDegree.map (fun _ => 0)
  match countInputs (o.nodes.take o.nodeCount) deg0 with
  | none => none
  | some deg =>
    let deq := (List.range o.nodeCount).filter (fun idx => deg[idx]? = some 0)
    match kahnLoop o.nodes (o.nodeCount + 1) deg deq out 0 with
    | none => none
    | some (deg', out', visited) =>
      let o' := { o with inDegree := deg' }
      if visited ≠ o.nodeCount then some (o', [], false) else some (o', out', true)

/-- The API of `NodeGraphOrdering` as operations. -/
inductive Op (N : Type) where
  | clear
  | addNode (a : N)
  | addEdge (fromId toId : N)
  | calcOrder
  deriving Repr

/-- One API call. -/
def Ordering.step (o : Ordering N) : Op N → Option (Ordering N)
  | .clear => some o.clear
  | .addNode a => some (o.addNode a).1
  | .addEdge a b => o.addEdge a b
  | .calcOrder => (o.calculateOrder []).map (fun r => r.1)

/-- A history of API calls on a fresh ordering. -/
def run (ops : List (Op N)) : Option (Ordering N) :=
  ops.foldlM Ordering.step Ordering.new

end HexoDSP.GraphOrdering
