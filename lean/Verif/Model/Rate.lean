import Verif.Model.Map
import Verif.Model.Engine
/-!
# Model of who is told the sample rate

The part of `src/nodes/node_conf.rs` and `src/nodes/node_exec.rs` that creates nodes, brings them into the program that is played, and tells them the
sample rate. A node (`Arc<SyncUnsafeCell<dyn DspNode>>` in the code) is a number here: the nodes are numbered in the order of their creation, so that
two nodes with the same id are different nodes.

The two sides of the engine run in two threads. `create_node` reads the sample rate and hands it to the node later; other calls of the audio thread may
come in between. `NodeExecutor::set_sample_rate` stores the sample rate first and then tells the nodes of its program; no other thread has a node of that
program in its hands in the sense of telling it a sample rate, so it is one step here.

Simplifications: the other contents of programs and messages are left out; a new program is made by `rebuild_node_ports`, `add_prog_node` for each node of
the order, and `upload_prog`, in one step of the user's thread, as `Matrix::build_prog` (`src/matrix.rs:1367-1389`) does it.
-/

namespace HexoDSP.Rate

variable {N R : Type} [DecidableEq N]

/-- A node: the how manieth that was created. -/
abbrev Handle := Nat

/-- `src/nodes/mod.rs:44-74` `enum GraphMessage`: messages with a program, and the others. -/
inductive Msg where
  | prog (nodes : List Handle)
  | other
  deriving DecidableEq, Repr

/-- Both sides of the engine. `creating` is set while `create_node` has read the sample rate and not yet handed it on. -/
structure World (N R : Type) where
  /-- `NodeConfigurator::nodes`, `src/nodes/node_conf.rs:169-260` -/
  nodes : List (N × Handle)
  /-- `NodeConfigurator::node2idx` -/
  node2idx : List (N × Nat)
  creating : Option (N × R)
  /-- how many nodes there have been -/
  count : Nat
  /-- the ring buffer of graph messages -/
  queue : List Msg
  /-- `NodeExecutor::prog` -/
  playing : List Handle
  /-- `sample_rate` of `SharedNodeConf`/`SharedNodeExec` -/
  rate : R
  /-- what each node was told last -/
  told : Handle → Option R

/-- `src/nodes/node_conf.rs:294`, `src/nodes/node_exec.rs:179-198`; the sample rate is `44100.0` at first. -/
def World.new (r : R) : World N R :=
  { nodes := [], node2idx := [], creating := none, count := 0, queue := [], playing := [], rate := r, told := fun _ => none }

/-- `let _ = graph_update_prod.push(..)`: a message is lost if there are 512 already (`src/nodes/node_conf.rs:22`, `273`). -/
def World.send (w : World N R) (m : Msg) : World N R :=
  if w.queue.length < Engine.queueCapacity then { w with queue := w.queue ++ [m] } else w

/-- `src/nodes/node_conf.rs:387-401` `node_by_id`: the place of the node and the node. -/
def World.nodeById (w : World N R) (n : N) : Option (Nat × Handle) :=
  (w.node2idx.lookup n).bind (fun i => (w.nodes[i]?).map (fun e => (i, e.2)))

/-- `src/nodes/node_conf.rs:874-880` `add_prog_node` with `src/nodes/node_prog.rs:296-306` `append_op`: nothing happens if the program has an operation of
this place (places are stored as `u8`, `src/nodes/node_conf.rs:77`). -/
def World.addProgNode (w : World N R) (prog : List (Nat × Handle)) (n : N) : List (Nat × Handle) :=
  match w.nodeById n with
  | none => prog
  | some (i, h) => if prog.any (fun o => o.1 == i % 256) then prog else prog ++ [(i % 256, h)]

/-- What the threads do. -/
inductive Op (N R : Type) where
  /-- `create_node` begins -/
  | beginCreate (n : N)
  /-- `create_node` ends -/
  | endCreate
  | deleteNodes
  /-- a new program, with the nodes of `order` -/
  | upload (order : List N)
  /-- any other call that sends a message -/
  | message
  /-- the audio thread looks at its messages (`process_graph_updates`) -/
  | poll
  | setSampleRate (r : R)

/-- `src/nodes/node_exec.rs:206-308` `process_graph_updates`: `mem::replace(&mut self.prog, prog)` for each message with a program. -/
def receive (playing : List Handle) : Msg → List Handle
  | .prog nodes => nodes
  | .other => playing

/-- One step. `none`: the user's thread is still in `create_node`, or is not. -/
def World.step (w : World N R) : Op N R → Option (World N R)
  -- `src/nodes/node_conf.rs:722-724`: the node is made by `node_factory`, the sample rate is read
  | .beginCreate n =>
    match w.creating with
    | none => some { w with creating := some (n, w.rate), count := w.count + 1 }
    | some _ => none
  -- `src/nodes/node_conf.rs:724-729`: the node is told the sample rate and stored
  | .endCreate =>
    match w.creating with
    | none => none
    | some (n, r) =>
      let h := w.count - 1
      some { w with creating := none, told := fun k => if k = h then some r else w.told k,
                    node2idx := Map.insert w.node2idx n w.nodes.length, nodes := w.nodes ++ [(n, h)] }
  -- `src/nodes/node_conf.rs:710-720`
  | .deleteNodes =>
    match w.creating with
    | none => some ({ w with nodes := [], node2idx := [] }.send (.prog []))
    | some _ => none
  -- `src/nodes/node_conf.rs:766-867`, `874-880`, `952-972`
  | .upload order =>
    match w.creating with
    | none => some (w.send (.prog ((order.foldl w.addProgNode []).map Prod.snd)))
    | some _ => none
  | .message =>
    match w.creating with
    | none => some (w.send .other)
    | some _ => none
  | .poll => some { w with queue := [], playing := w.queue.foldl receive w.playing }
  -- `src/nodes/node_exec.rs:315-327` `set_sample_rate`
  | .setSampleRate r => some { w with rate := r, told := fun k => if k ∈ w.playing then some r else w.told k }

/-- A history. -/
def World.run (w : World N R) (ops : List (Op N R)) : Option (World N R) := ops.foldlM World.step w

end HexoDSP.Rate
