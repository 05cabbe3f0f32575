import Verif.Model.MidiGate
import Verif.Spec.Midi
/-!
# Specification of the gate modes of the MIDI note input (C133)

Of the model only the blocks (what the node is given) and the interface of the two generators are used.
-/

namespace HexoDSP.MidiGateSpec
open HexoDSP.Midi HexoDSP.MidiSpec HexoDSP.MidiGate

variable {V T G : Type}

/-- One frame: the channel listened to, the gate mode, the events at this time, detune and gate length. -/
structure Frame (V : Type) where
  chan : Nat
  gmode : Int
  es : List (Ev V)
  det : V
  len : V

/-- The frames of a sequence of blocks. -/
def framesOf (bs : List (Block V)) : List (Frame V) :=
  bs.flatMap fun b => (List.range b.nframes).map fun i =>
    { chan := (b.chan % 16).toNat, gmode := b.gmode, es := at' b.notes i, det := b.det i, len := b.glen i }

/-- The number of notes played in a frame. -/
def Frame.ons (f : Frame V) : Nat := (f.es.filter (isOn f.chan)).length

/-- The notes played, in order: number and velocity. -/
def played (F : List (Frame V)) : List (Nat × V) :=
  F.flatMap fun f => f.es.filterMap fun e => match e with
    | .noteOn c n v => if c = f.chan then some (n, v) else none
    | _ => none

/-- A number of calls of `trigger`. -/
def times {A : Type} (g : A → A) : Nat → A → A
  | 0, a => a
  | k + 1, a => times g k (g a)

/-- The trigger generator before its output in the frame behind `F`: triggered once for each note, and moved on by one
sample in each frame in the mode "Trigger". -/
def trigAfter (E : Ext V T G) : T → List (Frame V) → T
  | t, [] => t
  | t, f :: F => trigAfter E (if f.gmode = 1 then (E.trigNext (times E.trig f.ons t)).2 else times E.trig f.ons t) F

/-- The gate generator, likewise; `cut` says for each frame if the gate is forced to zero there, which stops the
generator for this frame. -/
def gateAfter (E : Ext V T G) : G → List (Frame V) → List Bool → G
  | g, f :: F, c :: cut =>
    gateAfter E (if f.gmode = 2 ∧ c = false then (E.gateNext (times E.gate f.ons g) f.len).2 else times E.gate f.ons g) F cut
  | g, _, _ => g

/-- No note is released in the frame. -/
def Frame.NoOff (f : Frame V) : Prop := ∀ n, .noteOff f.chan n ∉ f.es

/-- The last event of the channel in the frame releases the note `n`. -/
def Frame.EndsWithOff (f : Frame V) (n : Nat) : Prop :=
  ∃ before, f.es.filter (fun e => match e with
    | .noteOn c _ _ => c == f.chan | .noteOff c _ => c == f.chan | .cc _ _ _ => false) = before ++ [.noteOff f.chan n]

/-- The number of the note played last in these frames, 0 if there was none. -/
def lastKey (F : List (Frame V)) : Nat := match (played F).getLast? with
  | some (n, _) => n
  | none => 0

/-- The gate during the events of a frame: each note changes it from up to down or from down to up. `up` is what it was
before these events. -/
def upAfter (chan : Nat) (up : Bool) (es : List (Ev V)) : Bool :=
  up != decide ((es.filter (isOn chan)).length % 2 = 1)

/-- The number of the note played last; `key` is that of the last note before these events. -/
def keyAfter (chan key : Nat) (es : List (Ev V)) : Nat :=
  match (es.filter (isOn chan)).getLast? with
  | some (.noteOn _ n _) => n
  | _ => key

/-- Event number `i` of the frame is a note that finds the gate up. -/
def RestartAt (chan : Nat) (up : Bool) (es : List (Ev V)) (i : Nat) : Prop :=
  (∃ n v, es[i]? = some (.noteOn chan n v)) ∧ upAfter chan up (es.take i) = true

/-- Event number `i` of the frame releases the note played last. -/
def ReleaseAt (chan key : Nat) (es : List (Ev V)) (i : Nat) : Prop :=
  es[i]? = some (.noteOff chan (keyAfter chan key (es.take i)))

/-- A note finds the gate up, and the last note is not released after it in this frame. -/
def Restarted (chan : Nat) (up : Bool) (key : Nat) (es : List (Ev V)) : Prop :=
  ∃ i, RestartAt chan up es i ∧ ∀ j, i < j → ¬ ReleaseAt chan key es j

/-- The last note is released, and no note finds the gate up after it in this frame. -/
def Released (chan : Nat) (up : Bool) (key : Nat) (es : List (Ev V)) : Prop :=
  ∃ i, ReleaseAt chan key es i ∧ ∀ j, i < j → ¬ RestartAt chan up es j

end HexoDSP.MidiGateSpec
