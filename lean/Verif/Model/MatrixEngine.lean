import Verif.Model.Matrix
import Verif.Model.Engine
/-!
# The matrix on top of the engine, `src/matrix.rs:1264-1294`, `1367-1388`, `1455-1475`

Node ids are a node type and an instance number (`NodeId::Sin(3)`).
-/

namespace HexoDSP.Engine

/-- `src/dsp/mod.rs:2133-2136` `enum NodeId`: a node type `K` and an instance number (`u8`). -/
structure NodeId (K : Type) where
  kind : K
  inst : Nat
  deriving DecidableEq, Repr

open HexoDSP.Matrix (Matrix positions)

variable {K V A M σ : Type} [DecidableEq K]

/-- `src/dsp/mod.rs:2148-2153` `to_instance`; the argument is truncated to `u8`. -/
def NodeId.toInstance (n : NodeId K) (i : Nat) : NodeId K := { n with inst := i % 256 }

/-- `src/nodes/node_conf.rs:752` `id.to_instance(id.instance() + 1)`. -/
def NodeId.nextInstance (n : NodeId K) : NodeId K := n.toInstance (n.inst + 1)

/-- `src/nodes/node_conf.rs:746-756` `unused_instance_node_id`, bounded by `fuel` iterations. -/
def Conf.unusedInstanceNodeId (c : Conf (NodeId K) V A) (fuel : Nat) (id : NodeId K) : Option (NodeId K) :=
  c.unusedInstance NodeId.nextInstance fuel id

/-- `src/matrix.rs:1281-1286`: create a node unless it exists. -/
def Conf.ensureNode (c : Conf (NodeId K) V A) (n : NodeId K) : Conf (NodeId K) V A :=
  if (c.uniqueIndexFor n).isNone then c.createNode n else c

/-- `src/matrix.rs:1277-1290`: create the node of a cell and the instances below it. -/
def Conf.createFor (c : Conf (NodeId K) V A) (n : NodeId K) : Conf (NodeId K) V A :=
  if (c.uniqueIndexFor n).isNone then
    ((List.range n.inst).foldl (fun c i => c.ensureNode (n.toInstance i)) c).createNode n
  else c

/-- The node ids of the cells in the order of the two nested loops (`src/matrix.rs:1267-1272`). -/
def cellNodes {N : Type} (m : Matrix N) : List N :=
  (positions m.w m.h).filterMap (fun p => (m.get p.1 p.2).bind (fun c => c.nodeId))

/-- `src/matrix.rs:1264-1294` `create_intermediate_nodes`. -/
def Conf.createIntermediate (c : Conf (NodeId K) V A) (m : Matrix (NodeId K)) : Conf (NodeId K) V A :=
  (cellNodes m).foldl Conf.createFor c

end HexoDSP.Engine
