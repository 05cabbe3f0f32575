/-!
# Model of `src/nodes/node_prog.rs` and of `ProcBuf` (`src/dsp/mod.rs:773-860`)

* A `ProcBuf` is a raw pointer. It is modelled by a buffer number (`BufId`) into an explicit heap;
  a null pointer is `none`. The heap never reuses numbers and logs what has been freed, so that use
  after free and double free can be expressed.
* The contents of a buffer is a function from the frame index to the sample. The code has 128 frames
  (`MAX_BLOCK_SIZE`, `src/dsp/mod.rs:685`); the callers keep `nframes` below that.
* Samples `V` and atoms `A` are type parameters, the arithmetic on `V` is uninterpreted.
* `out_feedback` is a triple buffer in the code (crate `triple_buffer`): the model keeps the vector
  that the audio thread fills.
-/

namespace HexoDSP.Engine

abbrev BufId := Nat

/-- Contents of one sample buffer: frame index to sample. -/
abbrev Block (V : Type) := Nat → V

/-- Heap of sample buffers. `freed` lists the buffers given back, most recent first. -/
structure Heap (V : Type) where
  next : Nat
  data : BufId → Block V
  freed : List BufId

variable {N V A : Type}

/-- `src/dsp/mod.rs:804-808` `ProcBuf::write` for all frames of a block at once. -/
def Heap.write (h : Heap V) (b : BufId) (blk : Block V) : Heap V :=
  { h with data := fun c => if c = b then blk else h.data c }

/-- `src/dsp/mod.rs:843-847` `ProcBuf::fill`. -/
def Heap.fill (h : Heap V) (b : BufId) (v : V) : Heap V := h.write b (fun _ => v)

/-- `src/dsp/mod.rs:777-779` `ProcBuf::new`, `n` times: zeroed buffers `next .. next + n`. -/
def Heap.alloc [OfNat V 0] (h : Heap V) (n : Nat) : List BufId × Heap V :=
  (List.range' h.next n,
   { h with next := h.next + n
            data := fun c => if h.next ≤ c ∧ c < h.next + n then fun _ => 0 else h.data c })

/-- `src/dsp/mod.rs:858-862` `ProcBuf::free` for a list of buffers. -/
def Heap.free (h : Heap V) (bs : List BufId) : Heap V := { h with freed := bs ++ h.freed }

/-- `src/nodes/node_prog.rs:14-19` `struct ModOp`. -/
structure ModOp (V : Type) where
  amount : V
  modbuf : BufId
  outbuf : Option BufId
  inbuf : Option BufId

/-- `src/nodes/node_prog.rs:37-39` `ModOp::set_amt`. -/
def ModOp.setAmt (m : ModOp V) (amt : V) : ModOp V := { m with amount := amt }

/-- `src/nodes/node_prog.rs:41-45` `ModOp::lock` (the returned buffer is `modbuf`). -/
def ModOp.lock (m : ModOp V) (inbuf outbuf : BufId) : ModOp V :=
  { m with inbuf := some inbuf, outbuf := some outbuf }

/-- `src/nodes/node_prog.rs:47-50` `ModOp::unlock`. -/
def ModOp.unlock (m : ModOp V) : ModOp V := { m with inbuf := none, outbuf := none }

/-- `src/nodes/node_prog.rs:53-65` `ModOp::process`. Frame `f` is computed from frame `f` of the two
sources only, so the loop over the frames is one block write. `inbuf` and `outbuf` are always set
and cleared together. -/
def ModOp.process [Add V] [Mul V] (m : ModOp V) (nframes : Nat) (h : Heap V) : Heap V :=
  match m.inbuf, m.outbuf with
  | some i, some o =>
    h.write m.modbuf (fun f =>
      if f < nframes then h.data i f + m.amount * h.data o f else h.data m.modbuf f)
  | _, _ => h

/-- `src/nodes/node_prog.rs:71-94` `struct NodeOp`. The shared node object is represented by its node
id. The index ranges are half open. -/
structure NodeOp (N : Type) where
  idx : Nat
  node : N
  outR : Nat × Nat
  inR : Nat × Nat
  atR : Nat × Nat
  modR : Nat × Nat
  inputs : List (Nat × Nat × Option Nat)
  inConnected : Nat
  outConnected : Nat
  deriving Repr, DecidableEq

/-- `src/nodes/node_prog.rs:97-108`: set the connected flag of a global input index. The masks are
`u64`; nodes have at most 32 inputs and far fewer than 64 outputs. -/
def NodeOp.setInFlag (op : NodeOp N) (g : Nat) : NodeOp N :=
  if op.inR.1 ≤ g ∧ g < op.inR.2 then
    { op with inConnected := op.inConnected ||| (1 <<< (g - op.inR.1)) }
  else op

/-- `src/nodes/node_prog.rs:110-121`: set the connected flag of a global output index. -/
def NodeOp.setOutFlag (op : NodeOp N) (g : Nat) : NodeOp N :=
  if op.outR.1 ≤ g ∧ g < op.outR.2 then
    { op with outConnected := op.outConnected ||| (1 <<< (g - op.outR.1)) }
  else op

/-- `src/nodes/node_prog.rs:159-203` `struct NodeProg`. -/
structure NodeProg (N V A : Type) where
  inp : List BufId
  curInp : List (Option BufId)
  out : List BufId
  params : List V
  atoms : List A
  prog : List (NodeOp N)
  modops : List (ModOp V)
  locked : Bool
  outFb : List V

/-- `src/nodes/node_prog.rs:226-243` `NodeProg::empty`. -/
def NodeProg.empty : NodeProg N V A :=
  { inp := [], curInp := [], out := [], params := [], atoms := [], prog := [], modops := [],
    locked := false, outFb := [] }

/-- `src/nodes/node_prog.rs:245-278` `NodeProg::new`: allocates the output, input and modulator
buffers, in this order. `a0` is `SAtom::setting(0)`. -/
def NodeProg.new [OfNat V 0] (a0 : A) (h : Heap V) (outLen inLen atLen modLen : Nat) :
    NodeProg N V A × Heap V :=
  let (out, h) := h.alloc outLen
  let (inp, h) := h.alloc inLen
  let (mods, h) := h.alloc modLen
  ({ inp, out, curInp := List.replicate inLen none, params := List.replicate inLen 0,
     atoms := List.replicate atLen a0, prog := [],
     modops := mods.map (fun b => { amount := 0, modbuf := b, outbuf := none, inbuf := none }),
     locked := false, outFb := List.replicate outLen 0 }, h)

/-- The buffers a program owns: those its destructor and the destructors of its modulators free
(`src/nodes/node_prog.rs:21-25`, `205-215`). -/
def NodeProg.owned (p : NodeProg N V A) : List BufId :=
  p.inp ++ p.out ++ p.modops.map (fun m => m.modbuf)

/-- `src/nodes/node_prog.rs:21-25`, `205-215`: dropping a program. -/
def NodeProg.drop (p : NodeProg N V A) (h : Heap V) : Heap V := h.free p.owned

/-- `src/nodes/node_prog.rs:296-306` `append_op`. -/
def NodeProg.appendOp (p : NodeProg N V A) (op : NodeOp N) : NodeProg N V A :=
  if p.prog.any (fun o => o.idx == op.idx) then p
  else { p with prog := p.prog ++ [{ op with inConnected := 0, outConnected := 0 }] }

/-- `src/nodes/node_prog.rs:321-327`: the first operation with this index gets the connection. -/
def addInput (idx inpIndex outIndex : Nat) (modIndex : Option Nat) : List (NodeOp N) → List (NodeOp N)
  | [] => []
  | o :: os =>
    if o.idx = idx then
      { o.setInFlag inpIndex with inputs := o.inputs ++ [(outIndex, inpIndex, modIndex)] } :: os
    else o :: addInput idx inpIndex outIndex modIndex os

/-- `src/nodes/node_prog.rs:308-328` `append_edge`. -/
def NodeProg.appendEdge (p : NodeProg N V A) (op : NodeOp N) (inpIndex outIndex : Nat)
    (modIndex : Option Nat) : NodeProg N V A :=
  { p with prog := addInput op.idx inpIndex outIndex modIndex
                     (p.prog.map (fun o => o.setOutFlag outIndex)) }

/-- `src/nodes/node_prog.rs:333-338` `initialize_input_buffers`: buffer `i` is filled with
parameter `i`. There are as many input buffers as parameters. -/
def NodeProg.initInputBuffers (p : NodeProg N V A) (h : Heap V) : Heap V :=
  (p.inp.zip p.params).foldl (fun h bv => h.fill bv.1 bv.2) h

/-- `src/nodes/node_prog.rs:356-364` `unlock_buffers`. -/
def NodeProg.unlock (p : NodeProg N V A) : NodeProg N V A :=
  { p with curInp := p.curInp.map (fun _ => none)
           modops := p.modops.map ModOp.unlock
           locked := false }

/-- `src/nodes/node_prog.rs:351-353`: swapping two lists pairwise, as far as both reach. -/
def swapZip {α : Type} : List α → List α → List α × List α
  | a :: as, b :: bs => let r := swapZip as bs; (b :: r.1, a :: r.2)
  | as, bs => (as, bs)

/-- `src/nodes/node_prog.rs:340-354` `swap_previous_outputs`; returns the new and the previous
program. -/
def NodeProg.swapPrevious (p prev : NodeProg N V A) : NodeProg N V A × NodeProg N V A :=
  let p := if p.locked then p.unlock else p
  let prev := if prev.locked then prev.unlock else prev
  let s := swapZip prev.inp p.inp
  ({ p with inp := s.2 }, { prev with inp := s.1 })

/-- `src/nodes/node_prog.rs:392-398`: one connection of `assign_outputs`. `none`: an index is out of
range. -/
def assignInput (p : NodeProg N V A) (io : Nat × Nat × Option Nat) : Option (NodeProg N V A) :=
  match p.out[io.1]? with
  | none => none
  | some ob =>
    if io.2.1 < p.curInp.length then
      match io.2.2 with
      | none => some { p with curInp := p.curInp.set io.2.1 (some ob) }
      | some m =>
        match p.modops[m]?, p.inp[io.2.1]? with
        | some mo, some ib =>
          some { p with curInp := p.curInp.set io.2.1 (some mo.modbuf)
                        modops := p.modops.set m (mo.lock ib ob) }
        | _, _ => none
    else none

/-- `src/nodes/node_prog.rs:386-389`: copy the input buffers `a .. b` into `cur_inp`. -/
def refreshInputs (p : NodeProg N V A) (a b : Nat) : Option (NodeProg N V A) :=
  if a ≤ b ∧ b ≤ p.curInp.length ∧ b ≤ p.inp.length then
    some { p with curInp := p.curInp.take a ++ (((p.inp.take b).drop a).map some) ++ p.curInp.drop b }
  else none

/-- `src/nodes/node_prog.rs:367-399`: one iteration of the loop in `assign_outputs`. -/
def assignOp (p : NodeProg N V A) (op : NodeOp N) : Option (NodeProg N V A) :=
  (refreshInputs p op.inR.1 op.inR.2).bind (fun p => op.inputs.foldlM assignInput p)

/-- `src/nodes/node_prog.rs:366-402` `assign_outputs`. -/
def NodeProg.assignOutputs (p : NodeProg N V A) : Option (NodeProg N V A) :=
  (p.prog.foldlM assignOp p).map (fun p => { p with locked := true })

end HexoDSP.Engine
