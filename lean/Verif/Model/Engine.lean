import Verif.Model.NodeExec
/-!
# The two sides of the engine together

`new_node_engine` (`src/nodes/mod.rs`) gives a configurator for the user's thread, an executor for the
audio thread, a message queue of 512 entries between them (`src/nodes/node_conf.rs:273`), and a queue
back to the drop thread (`src/nodes/drop_thread.rs`). A history of the engine is a list of the calls
below in any order; the three threads interleave at the granularity of these calls. The queues
(crate `ringbuf`) are assumed to be FIFO and to refuse a push exactly when they are full.
-/

namespace HexoDSP.Engine

variable {N V A M σ : Type} [DecidableEq N]

/-- `src/nodes/node_conf.rs:22`, `273-275`: capacity of the queues. -/
def queueCapacity : Nat := 512

structure World (N V A M σ : Type) where
  conf : Conf N V A
  queue : List (Msg N V A M)
  exec : Exec N V A M
  shared : Shared N V A
  st : σ

/-- `src/nodes/node_conf.rs:268-372`, `src/nodes/mod.rs` `new_node_engine`. -/
def World.new [OfNat V 0] (st : σ) : World N V A M σ :=
  { conf := Conf.new, queue := [], exec := Exec.new,
    shared := { heap := { next := 0, data := fun _ _ => 0, freed := [] }, drops := [] }, st := st }

/-- The buffers owned by a message. -/
def Msg.owned : Msg N V A M → List BufId
  | .clear p => p.owned
  | .newProg p _ => p.owned
  | _ => []

/-- `let _ = graph_update_prod.push(msg)`: a message that does not fit is dropped, with the program
it carries. -/
def World.send (w : World N V A M σ) (m : Msg N V A M) : World N V A M σ :=
  if w.queue.length < queueCapacity then { w with queue := w.queue ++ [m] }
  else { w with shared := { w.shared with heap := w.shared.heap.free m.owned } }

def World.sendAll (w : World N V A M σ) (ms : List (Msg N V A M)) : World N V A M σ :=
  ms.foldl World.send w

/-- Calls of the engine API. `sync` is the sequence `rebuild_node_ports`, `add_prog_node` for each
node, `set_prog_node_exec_connection` for each connection, `upload_prog`, which is how `Matrix` uses
the configurator (`src/matrix.rs:1367-1388`, `1456`). `poll` is `process_graph_updates`, `dropOne` one
step of the drop thread, `setSlope` stands for `NodeExecutor::set_sample_rate`. -/
inductive EOp (N V A M : Type) where
  | createNode (n : N)
  | deleteNodes
  | setInput (n : N) (i : Nat) (v : V)
  | setAtom (n : N) (i : Nat) (a : A)
  | setModamt (p : ParamId N) (v : Option V)
  | sync (order : List N) (edges : List (Conn N)) (copyOld : Bool)
  | monitor (n : N) (ins outs : List (Option Nat))
  | injectMidi (ev : M)
  | poll
  | process (nframes : Nat)
  | dropOne
  | setSlope (n : Nat)

section
variable [Add V] [Mul V] [Sub V] [Div V] [NatCast V] [OfNat V 0]

/-- One call. `none` is a panic. The last component is what `process` made visible. -/
def World.step (T : NodeTable N V A) (a0 : A) (run : σ → CallIn N V A → σ × (Nat → Block V))
    (w : World N V A M σ) : EOp N V A M → Option (World N V A M σ × Option (BlockResult N V A))
  | .createNode n => some ({ w with conf := w.conf.createNode n }, none)
  | .deleteNodes =>
    let (c, ms) := w.conf.deleteNodes
    some ({ w with conf := c }.sendAll ms, none)
  | .setInput n i v =>
    let (c, ms) := w.conf.setInput n i v
    some ({ w with conf := c }.sendAll ms, none)
  | .setAtom n i a =>
    let (c, ms) := w.conf.setAtom n i a
    some ({ w with conf := c }.sendAll ms, none)
  | .setModamt p v =>
    let (c, ms, _) := w.conf.setModamt p v
    some ({ w with conf := c }.sendAll ms, none)
  | .sync order edges copyOld =>
    (w.conf.buildProg T a0 w.shared.heap order edges).map (fun r =>
      ({ w with conf := r.1, shared := { w.shared with heap := r.2.2 } }.send
        (.newProg (r.1.fillProg r.2.1) copyOld), none))
  | .monitor n ins outs => some (w.sendAll (w.conf.monitor n ins outs), none)
  | .injectMidi ev => some (w.send (.injectMidi ev), none)
  | .poll =>
    (w.exec.applyAll w.shared w.queue).map (fun r =>
      ({ w with queue := [], exec := r.1, shared := r.2 }, none))
  | .process nframes =>
    (w.exec.process run w.shared.heap w.st nframes).map (fun r =>
      ({ w with exec := r.1, shared := { w.shared with heap := r.2.1 }, st := r.2.2.1 },
       some r.2.2.2))
  | .dropOne =>
    match w.shared.drops with
    | [] => some (w, none)
    | p :: ps => some ({ w with shared := { heap := p.drop w.shared.heap, drops := ps } }, none)
  | .setSlope n => some ({ w with exec := w.exec.setSlope n }, none)

/-- A history of calls. -/
def World.runOps (T : NodeTable N V A) (a0 : A) (run : σ → CallIn N V A → σ × (Nat → Block V))
    (w : World N V A M σ) (ops : List (EOp N V A M)) : Option (World N V A M σ) :=
  ops.foldlM (fun w op => (w.step T a0 run op).map (fun r => r.1)) w

end

end HexoDSP.Engine
