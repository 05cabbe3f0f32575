import Verif.Spec.Tracker
import Verif.Spec.GateSeq
import Verif.Model.TSeqNode
/-!
# What a tracker sequencer should be heard playing (C87)

From the help text of `TSeq` (`src/dsp/node_tseq.rs:85-168`). A pattern is given by its cells, as they are shown.
-/

namespace HexoDSP.TSeqSpec
open HexoDSP.Tracker HexoDSP.TrackerSpec HexoDSP.GateSpec HexoDSP.TSeqNode

/-- The phase from 0 to 1 runs through the rows (less 0.00001 of a row): it is at position `x` of row `r`. -/
structure At (rows : Nat) (phase : ℚ) (r : Nat) (x : ℚ) : Prop where
  row : r < rows
  pos : phase * ((rows : ℚ) - 1 / 100000) = r + x
  low : 0 ≤ x
  high : x < 1

open Classical in
/-- What is heard of a column in row `r` at position `x`: the signal and the gate. `luck` decides about gates with a probability. -/
def Heard (t : ColType) (rows : Nat) (cell : Nat → Option Nat) (r : Nat) (x luck : ℚ) (o : ℚ × ℚ) : Prop :=
  match t with
  | .step => (∀ s v, LastSet cell r s v → o.1 = unit v) ∧ (NoneSet cell r → o.1 = 0) ∧ o.2 = if (cell r).isSome then 1 else 0
  | .note => (∀ s v, LastSet cell r s v → o.1 = pitch v) ∧ (NoneSet cell r → o.1 = 0) ∧ o.2 = if (cell r).isSome then 1 else 0
  | .value => ∃ sig, Lines rows cell sig ∧
      (∀ prev, prev = (r + rows - 1) % rows → o.1 = (sig prev).1.val + ((sig r).1.val - (sig prev).1.val) * x) ∧
      o.2 = if r + 1 = rows then 1 else 0
  | .gate => (cell r = none → o = (0, 0)) ∧
      ∀ p q l, p < 16 → q < 16 → l < 16 → cell r = some (cellOf p q l) →
        o = (if (p = 15 ∨ luck ≤ chance p) ∧ On q l x then 1 else 0, 1)

/-- A block of a column: in every frame the column is heard at the phase of the frame; while a row is played its luck does not change. -/
def HeardBlock (t : ColType) (rows : Nat) (cell : Nat → Option Nat) (phases trk gat : List ℚ) : Prop :=
  trk.length = phases.length ∧ gat.length = phases.length ∧
  ∃ luck : Nat → ℚ,
    (∀ i p q r x y, phases[i]? = some p → phases[i + 1]? = some q → At rows p r x → At rows q r y → luck i = luck (i + 1)) ∧
    ∀ i p v g, phases[i]? = some p → trk[i]? = some v → gat[i]? = some g → ∃ r x, At rows p r x ∧ Heard t rows cell r x (luck i) (v, g)

variable {C T R : Type}

/-- The clock after the trigger inputs and clock inputs of some frames; a trigger restarts it before its frame. -/
def clockAfter (e : Ext C T R) (limit : ℚ) : C × T → List (ℚ × ℚ) → C × T
  | s, [] => s
  | s, f :: rest => clockAfter e limit ((e.clockNext (if (e.trigCheck s.2 f.2).1 then e.clockSync s.1 else s.1) limit f.1).2, (e.trigCheck s.2 f.2).2) rest

/-- What the clock gives in frame `f` after the frames `before`. -/
def clockAt (e : Ext C T R) (limit : ℚ) (s : C × T) (before : List (ℚ × ℚ)) (f : ℚ × ℚ) : ℚ :=
  let s := clockAfter e limit s before
  (e.clockNext (if (e.trigCheck s.2 f.2).1 then e.clockSync s.1 else s.1) limit f.1).1

/-- The calls of the tracker in a history; a block receives an update. -/
def calls : List (Ev R) → List Op
  | [] => []
  | .op o :: rest => o :: calls rest
  | .newNode _ :: rest => .getBackend :: calls rest
  | .block _ _ :: rest => .poll :: calls rest

end HexoDSP.TSeqSpec
