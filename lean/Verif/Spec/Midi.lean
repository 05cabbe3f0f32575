import Verif.Model.Midi
/-!
# Specification of the MIDI path (C23 to C26, C55)

Only the event types are taken from the model.
-/

namespace HexoDSP.MidiSpec
open HexoDSP.Midi

variable {V : Type}

/-- The events are ordered by time. -/
def Ordered (es : List (Timed V)) : Prop := es.Pairwise (fun a b => a.timing ≤ b.timing)

/-- The events that fall into the block of `n` frames that starts at `offs`, relative to its start. -/
def due (es : List (Timed V)) (offs n : Nat) : List (Timed V) :=
  (es.filter (fun e => decide (offs ≤ e.timing) && decide (e.timing < offs + n))).map
    (fun e => { e with timing := e.timing - offs })

/-- The events at exactly one time. -/
def at' (es : List (Timed V)) (t : Nat) : List (Ev V) := (es.filter (fun e => decide (e.timing = t))).map (fun e => e.kind)

def isNote : Ev V → Bool
  | .cc _ _ _ => false
  | _ => true

/-- A note on of the channel. -/
def isOn (chan : Nat) : Ev V → Bool
  | .noteOn c _ _ => c == chan
  | _ => false

/-- The note and velocity of the last note on of the channel. -/
inductive LastOn (chan : Nat) : List (Ev V) → Nat → V → Prop where
  | mk (pre post n v) : (∀ e ∈ post, isOn chan e = false) → LastOn chan (pre ++ .noteOn chan n v :: post) n v

/-- The note `n` was played last on the channel and has not been released since. -/
def HeldNote (chan n : Nat) (es : List (Ev V)) : Prop :=
  ∃ pre v post, es = pre ++ .noteOn chan n v :: post ∧ (∀ e ∈ post, isOn chan e = false) ∧ .noteOff chan n ∉ post

/-- The note played last on the channel has not been released. -/
def Held (chan : Nat) (es : List (Ev V)) : Prop := ∃ n, HeldNote chan n es

/-- All events of the frames before frame `f`. -/
def before (F : List (List (Ev V))) (f : Nat) : List (Ev V) := (F.take f).flatten

/-- In no frame is a note on preceded by a note off of the note played last, unless that note was held when the
frame began and is the first to be released there. -/
def Clean (chan : Nat) (F : List (List (Ev V))) : Prop :=
  ∀ f es, F[f]? = some es → ∀ pre n mid m v post, es = pre ++ .noteOff chan n :: mid ++ .noteOn chan m v :: post →
    ((∀ e ∈ pre, isOn chan e = false) ∧ HeldNote chan n (before F f)) ∨
    (∃ k u, k ≠ n ∧ LastOn chan (before F f ++ pre) k u)

/-- The last value of a controller on a channel, `v0` if there was none. -/
def lastCC (chan cc : Nat) (v0 : V) (es : List (Ev V)) : V :=
  es.foldl (fun v e => match e with | .cc c k x => if c = chan ∧ k = cc then x else v | _ => v) v0

end HexoDSP.MidiSpec
