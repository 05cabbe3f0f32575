import Mathlib.Order.Lattice
import Mathlib.Order.Defs.LinearOrder
/-!
# Model of `src/nodes/visual_sampling_filter.rs` and `src/nodes/feedback_filter.rs`

Samples are values of an arbitrary linear order with a zero and a negation. The code only compares, negates and
takes maxima of `f32` values, which is exact; NaN is not modelled. The two hash maps are functions.
-/

namespace HexoDSP.Visual

variable {V N : Type} [LinearOrder V] [Zero V] [Neg V]

/-- `src/nodes/visual_sampling_filter.rs:11-26` `struct VisualSamplingFilter`. -/
structure Filter (V : Type) where
  recalcState : Bool
  writePtr : Nat
  buffer : List V
  lastOutput : V × V
  deriving DecidableEq

/-- `src/nodes/visual_sampling_filter.rs:29-36` `new`. -/
def Filter.new : Filter V :=
  { recalcState := false, writePtr := 0, buffer := List.replicate 10 0, lastOutput := (0, 0) }

/-- `f32::abs` for values that are not NaN. -/
def absV (v : V) : V := if 0 ≤ v then v else -v

/-- `src/nodes/visual_sampling_filter.rs:80-86`: one step of the loop over the samples; the pair is
`(neg_max, pos_max)`. -/
def maxStep (acc : V × V) (v : V) : V × V :=
  if 0 ≤ v then (acc.1, max acc.2 (absV v)) else (max acc.1 (absV v), acc.2)

/-- `src/nodes/visual_sampling_filter.rs:39-47`, `70-92` `needs_recalc` and `get`. -/
def Filter.get (s : Filter V) (recalc : Bool) (sample : V) : (V × V) × Filter V :=
  if s.recalcState ≠ recalc then
    let p := (s.writePtr + 1) % s.buffer.length
    let b := s.buffer.set p sample
    let o := b.foldl maxStep (0, 0)
    (o, { recalcState := recalc, writePtr := p, buffer := b, lastOutput := o })
  else (s.lastOutput, s)

/-- What a display value belongs to: the LED of a node or one of its outputs. -/
inductive Key (N : Type) where
  | led (n : N)
  | out (n : N) (o : Nat)
  deriving DecidableEq

/-- `src/nodes/feedback_filter.rs:10-14` `struct FeedbackFilter`; the two maps `led_filters` and `out_filters` are one
function on the disjoint union of their keys. -/
structure Feedback (N V : Type) where
  filters : Key N → Option (Filter V)
  recalcState : Bool

/-- `src/nodes/feedback_filter.rs:17-19` `new`. -/
def Feedback.new : Feedback N V := { filters := fun _ => none, recalcState := true }

/-- `src/nodes/feedback_filter.rs:29-31` `trigger_recalc`. -/
def Feedback.trigger (s : Feedback N V) : Feedback N V := { s with recalcState := !s.recalcState }

/-- `src/nodes/feedback_filter.rs:21-27`, `33-43` `get_led`, `get_out` with the `entry(..).or_insert_with(..)` look up. -/
def Feedback.get [DecidableEq N] (s : Feedback N V) (k : Key N) (sample : V) : (V × V) × Feedback N V :=
  let f := (s.filters k).getD Filter.new
  let r := f.get s.recalcState sample
  (r.1, { s with filters := fun k' => if k' = k then some r.2 else s.filters k' })

/-- A call of the API: the start of a new UI frame, or a request (`get_led` / `get_out`) with the current
sample. -/
inductive Op (N V : Type) where
  | trigger
  | get (k : Key N) (sample : V)
  deriving DecidableEq

/-- Run one call. -/
def Feedback.step [DecidableEq N] (s : Feedback N V) : Op N V → Option (V × V) × Feedback N V
  | .trigger => (none, s.trigger)
  | .get k v => let r := s.get k v; (some r.1, r.2)

/-- The state after a history of calls. -/
def Feedback.run [DecidableEq N] (s : Feedback N V) (ops : List (Op N V)) : Feedback N V :=
  ops.foldl (fun s op => (s.step op).2) s

/-- The filter after a history of calls of `get`. -/
def Filter.run (s : Filter V) (cs : List (Bool × V)) : Filter V := cs.foldl (fun s c => (s.get c.1 c.2).2) s

end HexoDSP.Visual
