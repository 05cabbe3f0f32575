import Verif.Model.Smoother
import Verif.Model.NodeConf
/-!
# Model of `src/nodes/node_exec.rs` (the audio thread side of the engine)

* The behaviour of the DSP nodes is a parameter `run : σ → CallIn → σ × (Nat → Block V)`: an arbitrary
  function of an arbitrary state `σ` (all node states, the audio driver, MIDI, shared buffers) and of
  everything a node is handed; the result gives the new contents of each of its output buffers.
* A panic and a read through a null pointer are `none`.
* Logging and the context values for LEDs and phases are not modelled.
-/

namespace HexoDSP.Engine

variable {N V A M σ : Type}

/-- What one call of `Node::process` is given (`src/nodes/node_exec.rs:465-477`): the node, its flags,
its atoms, its parameter buffers, its input buffers and the old contents of its output buffers. -/
structure CallIn (N V A : Type) where
  node : N
  nframes : Nat
  inConnected : Nat
  outConnected : Nat
  params : List (Block V)
  atoms : List A
  inputs : List (Block V)
  oldOut : List (Block V)

/-- A call together with what the node left in its output buffers. -/
structure Call (N V A : Type) extends CallIn N V A where
  outputs : List (Block V)

/-- `src/nodes/node_exec.rs:37-67` `struct NodeExecutor` (modelled part). `targetRefresh` lists the
entries in the order they were pushed. -/
structure Exec (N V A M : Type) where
  smoothers : List (Nat × Smoother V)
  targetRefresh : List (Nat × V)
  prog : NodeProg N V A
  monitorIdx : List Nat
  injected : List M

/-- `src/nodes/node_exec.rs:178-196` `NodeExecutor::new`; 40 smoothers (`src/nodes/mod.rs:7`). -/
def Exec.new [OfNat V 0] : Exec N V A M :=
  { smoothers := List.replicate 40 (0, Smoother.new), targetRefresh := [], prog := NodeProg.empty,
    monitorIdx := List.replicate 6 99999, injected := [] }

/-- `src/nodes/node_exec.rs:315-327` `set_sample_rate`; the argument is the slope length. -/
def Exec.setSlope (e : Exec N V A M) (n : Nat) : Exec N V A M :=
  { e with smoothers := e.smoothers.map (fun s => (s.1, s.2.setSlope n)) }

/-- `src/nodes/node_exec.rs:376-380` `set_modamt`. -/
def Exec.setModamt (e : Exec N V A M) (i : Nat) (v : V) : Exec N V A M :=
  { e with prog := { e.prog with modops := e.prog.modops.modify i (fun m => m.setAmt v) } }

/-- `src/nodes/node_exec.rs:391-398`: re-target the running smoother of this input. `none`: there is
none. -/
def retarget [Sub V] [Div V] [NatCast V] (idx : Nat) (cur v : V) :
    List (Nat × Smoother V) → Option (List (Nat × Smoother V))
  | [] => none
  | s :: ss =>
    if !s.2.done && s.1 == idx then some ((s.1, s.2.set cur v) :: ss)
    else (retarget idx cur v ss).map (fun ss => s :: ss)

/-- `src/nodes/node_exec.rs:401-406`: start the first idle smoother, if there is one. -/
def startIdle [Sub V] [Div V] [NatCast V] (idx : Nat) (cur v : V) :
    List (Nat × Smoother V) → List (Nat × Smoother V)
  | [] => []
  | s :: ss => if s.2.done then (idx, s.2.set cur v) :: ss else s :: startIdle idx cur v ss

/-- `src/nodes/node_exec.rs:383-407` `set_param`. -/
def Exec.setParam [Sub V] [Div V] [NatCast V] (e : Exec N V A M) (idx : Nat) (v : V) :
    Exec N V A M :=
  match e.prog.params[idx]? with
  | none => e
  | some cur =>
    match retarget idx cur v e.smoothers with
    | some ss => { e with smoothers := ss }
    | none => { e with smoothers := startIdle idx cur v e.smoothers }

/-- State shared by the two sides: the heap and the queue of things to drop. -/
structure Shared (N V A : Type) where
  heap : Heap V
  drops : List (NodeProg N V A)

/-- `src/nodes/node_exec.rs:215`, `281`: hand a program to the drop thread. If that queue (512
entries) is full the program is dropped on the spot. -/
def Shared.pushDrop (s : Shared N V A) (p : NodeProg N V A) : Shared N V A :=
  if s.drops.length < 512 then { s with drops := s.drops ++ [p] }
  else { s with heap := p.drop s.heap }

/-- `src/nodes/node_exec.rs:205-307`: one message of `process_graph_updates`. -/
def Exec.apply [Sub V] [Div V] [NatCast V] (e : Exec N V A M) (s : Shared N V A) :
    Msg N V A M → Option (Exec N V A M × Shared N V A)
  | .clear p =>
    some ({ e with monitorIdx := List.replicate 6 99999, prog := p }, s.pushDrop e.prog)
  | .newProg p copyOld =>
    let heap := p.initInputBuffers s.heap
    let (p, prev) := if copyOld then p.swapPrevious e.prog else (p, e.prog)
    match p.assignOutputs with
    | none => none
    | some p =>
      some ({ e with monitorIdx := List.replicate 6 99999, prog := p },
            { s with heap := heap }.pushDrop prev)
  | .atomUpdate i a =>
    if i < e.prog.atoms.length then
      some ({ e with prog := { e.prog with atoms := e.prog.atoms.set i a } }, s)
    else none
  | .paramUpdate i v => some (e.setParam i v, s)
  | .modamtUpdate i v => some (e.setModamt i v, s)
  | .setMonitor bufs => some ({ e with monitorIdx := bufs }, s)
  | .injectMidi ev =>
    some (if e.injected.length < 64 then { e with injected := e.injected ++ [ev] } else e, s)

/-- `src/nodes/node_exec.rs:203-309` `process_graph_updates`: the queue is emptied in order. -/
def Exec.applyAll [Sub V] [Div V] [NatCast V] (e : Exec N V A M) (s : Shared N V A) :
    List (Msg N V A M) → Option (Exec N V A M × Shared N V A)
  | [] => some (e, s)
  | m :: ms =>
    match e.apply s m with
    | none => none
    | some (e, s) => e.applyAll s ms

/-- `src/nodes/node_exec.rs:413-415`: refresh the buffers of finished smoothers, last pushed first. -/
def refreshTargets (inp : List BufId) (h : Heap V) : List (Nat × V) → Option (Heap V)
  | [] => some h
  | (i, v) :: rest =>
    match inp[i]? with
    | none => none
    | some b => refreshTargets inp (h.fill b v) rest

/-- Variables changed by the loop over the smoothers. -/
structure SmoothAcc (V : Type) where
  heap : Heap V
  params : List V
  refresh : List (Nat × V)

/-- `src/nodes/node_exec.rs:417-430`: the loop over the smoothers that are not done. -/
def runSmoothers [Add V] [OfNat V 0] (inp : List BufId) (nframes : Nat) (a : SmoothAcc V) :
    List (Nat × Smoother V) → Option (List (Nat × Smoother V) × SmoothAcc V)
  | [] => some ([], a)
  | (i, s) :: ss =>
    if s.done then
      (runSmoothers inp nframes a ss).map (fun r => ((i, s) :: r.1, r.2))
    else
      match inp[i]? with
      | none => none
      | some b =>
        let last := if nframes = 0 then 0 else s.out (nframes - 1)
        let a := { heap := a.heap.write b (fun f => if f < nframes then s.out f else a.heap.data b f)
                   params := a.params.set i last
                   refresh := a.refresh ++ [(i, last)] }
        (runSmoothers inp nframes a ss).map (fun r => ((i, s.after nframes) :: r.1, r.2))

/-- `src/nodes/node_exec.rs:410-431` `process_smoothers`. -/
def Exec.processSmoothers [Add V] [OfNat V 0] (e : Exec N V A M) (h : Heap V) (nframes : Nat) :
    Option (Exec N V A M × Heap V) :=
  match refreshTargets e.prog.inp h e.targetRefresh.reverse with
  | none => none
  | some h =>
    match runSmoothers e.prog.inp nframes { heap := h, params := e.prog.params, refresh := [] }
        e.smoothers with
    | none => none
    | some (ss, a) =>
      some ({ e with smoothers := ss, targetRefresh := a.refresh,
                     prog := { e.prog with params := a.params } }, a.heap)

/-- `&v[a..b]`; `none` is a panic. -/
def slice {α : Type} (l : List α) (r : Nat × Nat) : Option (List α) :=
  if r.1 ≤ r.2 ∧ r.2 ≤ l.length then some ((l.take r.2).drop r.1) else none

/-- The node writes its output buffers (`bs`, the `k`-th one first). -/
def writeOuts (h : Heap V) (res : Nat → Block V) : Nat → List BufId → Heap V
  | _, [] => h
  | k, b :: bs => writeOuts (h.write b (res k)) res (k + 1) bs

/-- Variables changed by the loop over the operations. -/
structure RunAcc (N V A σ : Type) where
  heap : Heap V
  st : σ
  calls : List (Call N V A)
  outFb : List V

/-- `src/nodes/node_exec.rs:452-481`: one operation of the program. A node may read every one of its
input buffers, so a null pointer among them is `none`. -/
def runOp [Add V] [Mul V] (run : σ → CallIn N V A → σ × (Nat → Block V)) (nframes : Nat)
    (p : NodeProg N V A) (a : RunAcc N V A σ) (op : NodeOp N) : Option (RunAcc N V A σ) :=
  match slice p.modops op.modR, slice p.inp op.inR, slice p.atoms op.atR,
      (slice p.curInp op.inR).bind (fun l => l.mapM id), slice p.out op.outR with
  | some mods, some params, some atoms, some ins, some outs =>
    let h := mods.foldl (fun h m => m.process nframes h) a.heap
    let ci : CallIn N V A :=
      { node := op.node, nframes := nframes, inConnected := op.inConnected,
        outConnected := op.outConnected, params := params.map h.data, atoms := atoms,
        inputs := ins.map h.data, oldOut := outs.map h.data }
    let r := run a.st ci
    let h := writeOuts h r.2 0 outs
    some { heap := h, st := r.1, calls := a.calls ++ [{ ci with outputs := outs.map h.data }],
           outFb := a.outFb.take op.outR.1 ++ outs.map (fun b => h.data b (nframes - 1)) ++
                    a.outFb.drop op.outR.2 }
  | _, _, _, _, _ => none

/-- `src/nodes/node_exec.rs:489-503`: the blocks handed to the monitor. Signals 0 to 2 are inputs,
3 to 5 outputs. It is assumed that a free monitor buffer is available; otherwise nothing is read. -/
def feedMonitors (p : NodeProg N V A) (h : Heap V) : Nat → List Nat → Option (List (Nat × Block V))
  | _, [] => some []
  | i, idx :: rest =>
    if idx = 99999 then feedMonitors p h (i + 1) rest
    else
      match (if i > 2 then p.out[idx]? else (p.curInp[idx]?).join) with
      | none => none
      | some b => (feedMonitors p h (i + 1) rest).map (fun l => (i, h.data b) :: l)

/-- What one call of `process` makes visible. -/
structure BlockResult (N V A : Type) where
  calls : List (Call N V A)
  monitor : List (Nat × Block V)

/-- `src/nodes/node_exec.rs:434-511` `process`. A block of zero frames (`nframes - 1` underflows) and a
block longer than `MAX_BLOCK_SIZE` (the buffers are indexed with bounds checks) panic as soon as a
node has an output; the model rejects all such calls. -/
def Exec.process [Add V] [Mul V] [OfNat V 0] (run : σ → CallIn N V A → σ × (Nat → Block V))
    (e : Exec N V A M) (h : Heap V) (st : σ) (nframes : Nat) :
    Option (Exec N V A M × Heap V × σ × BlockResult N V A) :=
  if nframes = 0 ∨ 128 < nframes then none
  else
    match e.processSmoothers h nframes with
    | none => none
    | some (e, h) =>
      match e.prog.prog.foldlM (runOp run nframes e.prog)
          { heap := h, st := st, calls := [], outFb := e.prog.outFb } with
      | none => none
      | some a =>
        match feedMonitors e.prog a.heap 0 e.monitorIdx with
        | none => none
        | some mon =>
          some ({ e with prog := { e.prog with outFb := a.outFb } }, a.heap, a.st,
                { calls := a.calls, monitor := mon })

end HexoDSP.Engine
