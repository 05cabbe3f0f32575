import Mathlib.Algebra.Order.Field.Rat
/-!
# Model of `src/monitor.rs`

Three threads share the state: the audio thread (`MonitorBackend`), the monitor thread (`MonitorProcessor`) and the frontend
(`Monitor`). Each step of the machine below is one of their actions; every interleaving is a list of steps. Boxed buffers are
numbered, so that losing or doubling one is visible. The ring buffers are FIFO queues of 750 entries (`MONITOR_BUF_COUNT =
2 * (48000 / 128)`, lines 45-47). Samples are rationals (rounding does not occur here; NaN is not modelled). Arrays are functions;
an access outside of an array is a panic (`none`) and written out where it can happen.
-/

namespace HexoDSP.Monitor

/-- `src/monitor.rs:384-395` `struct MonitorBuf`: 6 blocks of 128 samples in one array of 768. -/
structure Buf where
  blocks : Nat → ℚ
  len : Nat → Nat
  rd : Nat → Nat

/-- `src/monitor.rs:411-417` `alloc`. -/
def Buf.alloc : Buf := { blocks := fun _ => 0, len := fun _ => 0, rd := fun _ => 0 }

/-- `src/monitor.rs:419-422` `reset`. -/
def Buf.reset (b : Buf) : Buf := { b with len := fun _ => 0, rd := fun _ => 0 }

/-- `src/monitor.rs:425-435` `next_sample_for_signal`: the outer `none` is a panic. -/
def Buf.nextSample (b : Buf) (i : Nat) : Option (Option ℚ × Buf) :=
  if 6 ≤ i then none
  else if b.len i ≤ b.rd i then some (none, b)
  else if i * 128 + b.rd i < 768 then
    some (some (b.blocks (i * 128 + b.rd i)), { b with rd := fun j => if j = i then b.rd i + 1 else b.rd j })
  else none

/-- `src/monitor.rs:437-445` `feed` with a slice of `len` samples. -/
def Buf.feed (b : Buf) (i : Nat) (xs : List ℚ) : Option Buf :=
  if 6 ≤ i ∨ 768 < i * 128 + xs.length then none
  else
    let blocks := fun k => if i * 128 ≤ k then (xs[k - i * 128]?).getD (b.blocks k) else b.blocks k
    some { b with blocks := blocks, len := fun j => if j = i then xs.length else b.len j }

/-- `src/monitor.rs:94-108` `struct MonitorMinMax` without the index of its signal. -/
structure MinMax where
  buf : Nat → ℚ × ℚ
  wp : Nat
  lo : ℚ
  hi : ℚ
  cnt : Nat

/-- `src/monitor.rs:111-118` `MonitorMinMax::new`. -/
def MinMax.new : MinMax := { buf := fun _ => (0, 0), wp := 0, lo := 100, hi := -100, cnt := 0 }

/-- `src/monitor.rs:126-139`: one sample of the loop. `MONITOR_INPUT_LEN_PER_SAMPLE` is `3 * 48000 / 160 = 900`; the flag is
`new_data`. -/
def MinMax.sample (m : MinMax) (x : ℚ) : MinMax × Bool :=
  let lo := min m.lo x
  let hi := max m.hi x
  if 900 ≤ m.cnt + 1 then
    ({ buf := fun k => if k = m.wp then (lo, hi) else m.buf k, wp := (m.wp + 1) % 160, lo := 100, hi := -100, cnt := 0 }, true)
  else ({ m with lo := lo, hi := hi, cnt := m.cnt + 1 }, false)

/-- `src/monitor.rs:122-143` `MonitorMinMax::process`; the first argument bounds the loop (the number of samples left). -/
def MinMax.process : Nat → MinMax → Buf → Nat → Option (Bool × MinMax × Buf)
  | 0, m, b, i => if 6 ≤ i then none else some (false, m, b)
  | left + 1, m, b, i =>
    match b.nextSample i with
    | none => none
    | some (none, b) => some (false, m, b)
    | some (some x, b) =>
      let r := m.sample x
      (MinMax.process left r.1 b i).map (fun q => (r.2 || q.1, q.2))

/-- `src/monitor.rs:150-153` `struct MinMaxMonitorSamples`. -/
structure Samples where
  samples : Nat → ℚ × ℚ
  ptr : Nat

/-- `src/monitor.rs:156-158` `new`. -/
def Samples.new : Samples := { samples := fun _ => (0, 0), ptr := 0 }

/-- `src/monitor.rs:171-174` `at`. -/
def Samples.at (s : Samples) (offs : Nat) : ℚ × ℚ := s.samples ((s.ptr + offs) % 160)

/-- The state shared by the three threads: all buffers by number, the audio thread (`unused`, top of the stack first, and `hand`,
the buffer it is filling), the two queues, the monitor thread (`procHand`, the buffer it is reading, and its min/max states) and
what the monitor thread and the frontend hold (`src/monitor.rs:50-60`, `207-214`, `302-309`). -/
structure World where
  bufs : Nat → Buf
  unused : List Nat
  hand : Option Nat
  mon : List Nat
  procHand : Option Nat
  recycle : List Nat
  procs : Nat → MinMax
  newData : Bool
  shared : Nat → Samples
  flag : Bool
  copy : Nat → Samples

/-- `src/monitor.rs:362-380` `new_monitor_processor`. -/
def World.new : World :=
  { bufs := fun _ => Buf.alloc, unused := List.range 750, hand := none, mon := [], procHand := none, recycle := [],
    procs := fun _ => MinMax.new, newData := false, shared := fun _ => Samples.new, flag := false, copy := fun _ => Samples.new }

/-- Content of buffer `id` replaced. -/
def World.setBuf (w : World) (id : Nat) (b : Buf) : World := { w with bufs := fun k => if k = id then b else w.bufs k }

/-- `src/monitor.rs:65-69` `check_recycle`. -/
def World.checkRecycle (w : World) : World := { w with unused := w.recycle.reverse ++ w.unused, recycle := [] }

/-- `src/monitor.rs:73-75` `get_unused_mon_buf`. -/
def World.take (w : World) : World :=
  match w.unused with
  | [] => w
  | id :: rest => { w with unused := rest, hand := some id }

/-- `src/monitor.rs:85-90` `send_mon_buf`. -/
def World.send (w : World) (id : Nat) : World :=
  if w.mon.length < 750 then { w with mon := w.mon ++ [id], hand := none } else { w with unused := id :: w.unused, hand := none }

/-- `src/monitor.rs:332-338` `process_mon_buf`: the signals `i`, `i + 1`, … up to the sixth. -/
def processFrom : List Nat → (Nat → MinMax) → Bool → Buf → Option ((Nat → MinMax) × Bool × Buf)
  | [], ps, nd, b => some (ps, nd, b)
  | i :: is, ps, nd, b =>
    match MinMax.process (b.len i) (ps i) b i with
    | none => none
    | some (new, m, b) => processFrom is (fun k => if k = i then m else ps k) (nd || new) b

/-- `src/monitor.rs:344-348`: a buffer was taken from the queue: it is processed, reset and sent back. A full queue would
drop it (`let _ =`). -/
def World.finish (w : World) (id : Nat) : Option World :=
  match processFrom (List.range 6) w.procs w.newData (w.bufs id) with
  | none => none
  | some (ps, nd, b) =>
    let w := { w.setBuf id b.reset with procs := ps, newData := nd, procHand := none }
    some { w with recycle := if w.recycle.length < 750 then w.recycle ++ [id] else w.recycle }

/-- `src/monitor.rs:242-250`: `check_new_data` and the copy under the lock. -/
def World.publish (w : World) : World :=
  if w.newData then
    { w with newData := false, shared := fun i => { samples := (w.procs i).buf, ptr := (w.procs i).wp }, flag := true }
  else w

/-- `src/monitor.rs:270-291` `get_minmax_monitor_samples`: the copy under the lock, which also covers the flag. -/
def World.get (w : World) : World := if w.flag then { w with copy := w.shared, flag := false } else w

/-- The actions of the audio thread (`recycle`, `take`, `feed`, `send`; `src/nodes/node_exec.rs:487-505`), of the monitor thread
(`pop`, `finish`, `publish`) and of the frontend (`get`). -/
inductive Op where
  | recycle
  | take
  | feed (i : Nat) (xs : List ℚ)
  | send
  | pop
  | finish
  | publish
  | get

/-- One action. Actions that the thread is not ready for do nothing. -/
def World.step (w : World) : Op → Option World
  | .recycle => some w.checkRecycle
  | .take => some (if w.hand.isNone then w.take else w)
  | .feed i xs =>
    match w.hand with
    | none => some w
    | some id => ((w.bufs id).feed i xs).map (fun b => w.setBuf id b)
  | .send =>
    match w.hand with
    | none => some w
    | some id => some (w.send id)
  | .pop =>
    match w.procHand, w.mon with
    | none, id :: rest => some { w with procHand := some id, mon := rest }
    | _, _ => some w
  | .finish =>
    match w.procHand with
    | none => some w
    | some id => w.finish id
  | .publish => some w.publish
  | .get => some w.get

/-- An interleaving of the three threads. -/
def World.run : World → List Op → Option World
  | w, [] => some w
  | w, op :: ops => (w.step op).bind (fun w => w.run ops)

end HexoDSP.Monitor
