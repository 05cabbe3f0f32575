/-!
Model of the node whose sound is computed by Rust code of the application, `Rust1x1`:
`src/dsp/node_rust.rs`, and the two functions of `src/global.rs` that hand the code from the
application to the audio thread.

The crate `triple_buffer` is not part of the repository.  It is modelled by what it documents: of the
two ends of one buffer, `write` publishes a value, `update` fetches the value published last unless
it has been fetched already, and `output_buffer` is the value fetched last, in place.
-/

namespace HexoDSP.RustNode

/-- A piece of application code together with its state: the trait object
`Box<dyn DynamicNode1x1>` (src/dsp/node_rust.rs:78-85).  `Code` is the type of the boxed values; `In` is
everything one call of `process` can read: the input slice, what the output slice held before, the
four parameter slices and the two feedback values (src/dsp/node_rust.rs:19-27); `Out` is what it leaves in
the output slice and the feedback values. -/
structure Lang (Code In Out : Type) where
  /-- `process` (src/dsp/node_rust.rs:84) -/
  process : Code → In → Code × Out
  /-- `set_sample_rate` (src/dsp/node_rust.rs:80) -/
  setSampleRate : Code → Rat → Code
  /-- `reset` (src/dsp/node_rust.rs:82) -/
  reset : Code → Code
  /-- `new_dummy_dynamic_node1x1`, the `Default` of a boxed node (src/dsp/node_rust.rs:98-100, 130-134) -/
  dummy : Code

variable {Code In Out : Type}

/-- One triple buffer: the value published and not fetched yet, and the value fetched last
(`TripleBuffer`, `Input` and `Output` of the crate). -/
structure Buf (Code : Type) where
  /-- published, not fetched -/
  pending : Option Code
  /-- `output_buffer` -/
  cur : Code

/-- `TripleBuffer::default()` (src/dsp/node_rust.rs:141, 153): all three values are the default. -/
def Buf.fresh (L : Lang Code In Out) : Buf Code := ⟨none, L.dummy⟩

/-- `Input::write` (src/dsp/node_rust.rs:146). -/
def Buf.write (b : Buf Code) (c : Code) : Buf Code := ⟨some c, b.cur⟩

/-- `DynNodeBuffer::access` (src/dsp/node_rust.rs:119-122): `update`, then `output_buffer`. -/
def Buf.access (b : Buf Code) : Buf Code := ⟨none, b.pending.getD b.cur⟩

/-- `DynNodeHandle` (src/dsp/node_rust.rs:125-128).  The two ends of a buffer are the number of that buffer. -/
structure Handle where
  /-- `input` -/
  input : Nat
  /-- `output`, `None` after it has been handed out -/
  output : Option Nat
deriving DecidableEq

/-- The application and the audio thread: all buffers made so far (the first `next` of `heap`), the
handles of `NodeGlobalData` (src/global.rs:45), and the buffer of every `Rust1x1` ever made, in the order
of their making (src/dsp/node_rust.rs:168-170). -/
structure World (Code : Type) where
  /-- the buffers -/
  heap : Nat → Buf Code
  /-- how many there are -/
  next : Nat
  /-- `dyn_nodes1x1` -/
  handles : Nat → Option Handle
  /-- `Rust1x1::buffer` of the nodes -/
  nodes : List Nat

/-- The start: no handle, no node. -/
def World.init (L : Lang Code In Out) : World Code := ⟨fun _ => Buf.fresh L, 0, fun _ => none, []⟩

/-- `DynNodeHandle::new` put into the map for `id` (src/dsp/node_rust.rs:140-143; src/global.rs:228-230,
246-248), unless there is one. -/
def World.ensure (L : Lang Code In Out) (w : World Code) (id : Nat) : World Code × Handle :=
  match w.handles id with
  | some h => (w, h)
  | none =>
    let h : Handle := ⟨w.next, some w.next⟩
    (⟨fun b => if b = w.next then Buf.fresh L else w.heap b, w.next + 1,
      fun j => if j = id then some h else w.handles j, w.nodes⟩, h)

/-- `NodeGlobalData::send_dynamic_node1x1` (src/global.rs:227-233), which is what
`Matrix::set_dynamic_node1x1` (src/matrix.rs:1508-1512) and `SynthConstructor::set_dynamic_node1x1`
(src/synth_constructor.rs:283-287) do.  The lock is taken to be unpoisoned. -/
def World.send (L : Lang Code In Out) (w : World Code) (id : Nat) (c : Code) : World Code :=
  let (w, h) := w.ensure L id
  ⟨fun b => if b = h.input then (w.heap b).write c else w.heap b, w.next, w.handles, w.nodes⟩

/-- `Rust1x1::new` (src/dsp/node_rust.rs:173-181) through `get_dynamic_node1x1_buffer` (src/global.rs:242-251)
and `DynNodeHandle::get_output_buffer` (src/dsp/node_rust.rs:149-158). -/
def World.make (L : Lang Code In Out) (w : World Code) (id : Nat) : World Code :=
  let (w, h) := w.ensure L id
  match h.output with
  | some o =>
    ⟨w.heap, w.next, fun j => if j = id then some ⟨h.input, none⟩ else w.handles j, w.nodes ++ [o]⟩
  | none =>
    ⟨fun b => if b = w.next then Buf.fresh L else w.heap b, w.next + 1,
      fun j => if j = id then some ⟨w.next, none⟩ else w.handles j, w.nodes ++ [w.next]⟩

/-- `Rust1x1::process` (src/dsp/node_rust.rs:221-251) of the `n`-th node made. -/
def World.block (L : Lang Code In Out) (w : World Code) (n : Nat) (i : In) :
    World Code × Option Out :=
  match w.nodes[n]? with
  | none => (w, none)
  | some b =>
    let acc := (w.heap b).access
    let (c, o) := L.process acc.cur i
    (⟨fun j => if j = b then ⟨acc.pending, c⟩ else w.heap j, w.next, w.handles, w.nodes⟩, some o)

/-- `Rust1x1::set_sample_rate` (src/dsp/node_rust.rs:216): an empty body. -/
def World.setSampleRate (w : World Code) (_n : Nat) (_rate : Rat) : World Code := w

/-- `Rust1x1::reset` (src/dsp/node_rust.rs:218): an empty body. -/
def World.reset (w : World Code) (_n : Nat) : World Code := w

/-- What can happen, one at a time.  The crate's `write` and `update` are each one atomic exchange,
so any interleaving of the two threads is one of these sequences. -/
inductive Ev (Code In : Type) where
  /-- the application hands over code for the instance `id` -/
  | send (id : Nat) (c : Code)
  /-- a node `Rust1x1(id)` is made -/
  | make (id : Nat)
  /-- the audio thread runs the `n`-th node made for one block -/
  | block (n : Nat) (i : In)
  /-- the engine announces a sample rate to the `n`-th node -/
  | rate (n : Nat) (r : Rat)
  /-- the engine resets the `n`-th node -/
  | reset (n : Nat)

/-- One event; a block gives the output of the node. -/
def World.step (L : Lang Code In Out) (w : World Code) : Ev Code In → World Code × Option Out
  | .send id c => (w.send L id c, none)
  | .make id => (w.make L id, none)
  | .block n i => w.block L n i
  | .rate n r => (w.setSampleRate n r, none)
  | .reset n => (w.reset n, none)

/-- A whole history. -/
def World.run (L : Lang Code In Out) : World Code → List (Ev Code In) → World Code × List Out
  | w, [] => (w, [])
  | w, e :: es =>
    let (w, o) := w.step L e
    let (w, os) := World.run L w es
    (w, o.toList ++ os)

end HexoDSP.RustNode
