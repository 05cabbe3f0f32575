import Mathlib.Algebra.Order.Floor.Ring
import Mathlib.Data.Rat.Floor
/-!
# Model of `src/shared_feedback.rs`, the nodes `src/dsp/node_fbwr_fbrd.rs` and their buffers in `src/global.rs`

Samples are values of a type `V` with uninterpreted multiplication. The buffer is shared by reference between one
writer and any readers; the model keeps it in the table of `NodeGlobalData` and lets the nodes refer to it by
their instance. The lock on `NodeGlobalData` is assumed to be obtained. `none` is a panic (index out of range).
-/

namespace HexoDSP.Feedback

variable {V : Type} [OfNat V 0] [Mul V]

/-- `src/shared_feedback.rs:22-26` `struct SharedFeedback`. -/
structure SFB (V : Type) where
  buffer : List V
  delay : Nat
  deriving DecidableEq

/-- `src/shared_feedback.rs:31-34`: the number of samples of 3.14 ms, at least `MAX_BLOCK_SIZE` (128,
`src/dsp/mod.rs:685`). The float arithmetic is taken over the rationals. -/
def delayCount (sampleRate : ℚ) : Nat := max (⌊sampleRate * (314 / 100) / 1000⌋).toNat 128

/-- `src/shared_feedback.rs:29-42` `SharedFeedback::new`. -/
def SFB.new (sampleRate : ℚ) : SFB V :=
  { buffer := List.replicate (3 * delayCount sampleRate) 0, delay := delayCount sampleRate }

/-- `src/shared_feedback.rs:74-77` `SharedFeedbackWriter::write`; `ptr` is `write_ptr`. -/
def SFB.write (f : SFB V) (ptr : Nat) (s : V) : Option (SFB V × Nat) :=
  if ptr < f.buffer.length then some ({ f with buffer := f.buffer.set ptr s }, (ptr + 1) % f.delay) else none

/-- `src/shared_feedback.rs:102-106` `SharedFeedbackReader::read`; `ptr` is `read_ptr`. -/
def SFB.read (f : SFB V) (ptr : Nat) : Option (V × Nat) :=
  (f.buffer[ptr]?).map (fun v => (v, (ptr + 1) % f.delay))

/-- The state: the table `NodeGlobalData::feedback` (`src/global.rs:31`) and the pointers of the allocated `FbWr` and
`FbRd` nodes. -/
structure World (V : Type) where
  feedback : Nat → Option (SFB V)
  wr : Nat → Option Nat
  rd : Nat → Option Nat

/-- Nothing allocated (`src/global.rs:49-60`). -/
def World.new : World V := { feedback := fun _ => none, wr := fun _ => none, rd := fun _ => none }

/-- `src/global.rs:73-81` `get_shared_feedback`: the sample rate is always 44100. -/
def World.shared (w : World V) (inst : Nat) : SFB V := (w.feedback inst).getD (SFB.new 44100)

/-- Function update. -/
def upd {β : Type} (f : Nat → β) (i : Nat) (b : β) : Nat → β := fun j => if j = i then b else f j

/-- `src/dsp/node_fbwr_fbrd.rs:18-28` `FbWr::new` with `src/global.rs:87-89` and `src/shared_feedback.rs:59-66`. -/
def World.newWr (w : World V) (inst : Nat) : World V :=
  { w with feedback := upd w.feedback inst (some (w.shared inst)), wr := upd w.wr inst (some (w.shared inst).delay) }

/-- `src/dsp/node_fbwr_fbrd.rs:91-101` `FbRd::new` with `src/global.rs:83-85` and `src/shared_feedback.rs:95-97`. -/
def World.newRd (w : World V) (inst : Nat) : World V :=
  { w with feedback := upd w.feedback inst (some (w.shared inst)), rd := upd w.rd inst (some 0) }

/-- `src/dsp/node_fbwr_fbrd.rs:76-78`: the loop of `FbWr::process` over the input signal. -/
def writeAll : SFB V → Nat → List V → Option (SFB V × Nat)
  | f, p, [] => some (f, p)
  | f, p, s :: r =>
    match f.write p s with
    | none => none
    | some (f, p) => writeAll f p r

/-- `src/dsp/node_fbwr_fbrd.rs:155-160`: the loop of `FbRd::process`, one entry of `vol` (denormalised) per frame. -/
def readAll (f : SFB V) : Nat → List V → Option (List V × Nat)
  | p, [] => some ([], p)
  | p, vol :: r =>
    match f.read p with
    | none => none
    | some (v, p) => (readAll f p r).map (fun x => (v * vol :: x.1, x.2))

/-- What happens to the feedback nodes: creation, and the `process` calls for one block. -/
inductive Op (V : Type) where
  | newWr (inst : Nat)
  | newRd (inst : Nat)
  | write (inst : Nat) (sig : List V)
  | read (inst : Nat) (vol : List V)

/-- One step; the outputs of a reader are returned with its instance. Processing a node that was not created does
not happen (here: nothing). -/
def World.step (w : World V) : Op V → Option (World V × List (Nat × V))
  | .newWr i => some (w.newWr i, [])
  | .newRd i => some (w.newRd i, [])
  | .write i sig =>
    match w.feedback i, w.wr i with
    | some f, some p => (writeAll f p sig).map (fun r =>
        ({ w with feedback := upd w.feedback i (some r.1), wr := upd w.wr i (some r.2) }, []))
    | _, _ => some (w, [])
  | .read i vol =>
    match w.feedback i, w.rd i with
    | some f, some p => (readAll f p vol).map (fun r => ({ w with rd := upd w.rd i (some r.2) }, r.1.map (fun v => (i, v))))
    | _, _ => some (w, [])

/-- A history: the outputs of all readers in order. -/
def World.run : World V → List (Op V) → Option (World V × List (Nat × V))
  | w, [] => some (w, [])
  | w, op :: ops =>
    match w.step op with
    | none => none
    | some (w, o) => (w.run ops).map (fun r => (r.1, o ++ r.2))

end HexoDSP.Feedback
