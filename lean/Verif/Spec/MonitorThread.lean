import Verif.Model.MonitorThread
/-!
# What the user sees of the monitored signals

The buffers the audio thread sent are a list; after any number of them there is a picture of each of the six signals. What the user sees is one of these, the
same for all six.
-/

namespace HexoDSP.MonitorThread

variable {B P S : Type}

/-- The buffers sent in a history. -/
def sent : List (Ev B) → List B
  | [] => []
  | .push b :: es => b :: sent es
  | _ :: es => sent es

/-- The processor after some buffers. -/
def after (E : Ext B P S) (bs : List B) : P := bs.foldl (fun p b => (E.process p b).1) E.new

/-- Somebody sees the six pictures that belong to the given buffers. -/
def Shows (E : Ext B P S) (bs : List B) (f : Nat → S) : Prop := ∀ i, i < 6 → f i = E.slice (after E bs) i

/-- The pictures change only with a new point (that is how `src/monitor.rs:122-143` writes them), and the first ones are empty. -/
structure Honest (E : Ext B P S) : Prop where
  same : ∀ p b, (E.process p b).2 = false → ∀ i, E.slice (E.process p b).1 i = E.slice p i
  empty : ∀ i, E.slice E.new i = E.empty

/-- The steps of the monitor thread in a history. -/
def threadSteps : List (Ev B) → Nat
  | [] => 0
  | .thread :: es => threadSteps es + 1
  | _ :: es => threadSteps es

end HexoDSP.MonitorThread
