import Verif.Spec.Midi
/-!
# Specification of the MIDI controller input with changing settings (C26)
-/

namespace HexoDSP.MidiSetSpec
open HexoDSP.Midi HexoDSP.MidiSpec

variable {V S : Type}

/-- The number of the controller that an output (0, 1, 2) is set to. -/
def number (c : CCSettings) : Nat → Nat
  | 0 => (c.cc1 % 128).toNat
  | 1 => (c.cc2 % 128).toNat
  | _ => (c.cc3 % 128).toNat

/-- The value that an output takes from an event: it is a value of its controller on the channel, and no earlier output is
set to the same controller. -/
def taken (c : CCSettings) (i : Nat) : Ev V → Option V
  | .cc ch k v => if ch = (c.chan % 16).toNat ∧ number c i = k ∧ ∀ j < i, number c j ≠ k then some v else none
  | _ => none

/-- One frame: the settings, the events at this time and the slew parameter. -/
structure Frame (V : Type) where
  c : CCSettings
  es : List (Ev V)
  ms : V

/-- The frames of a sequence of blocks. -/
def framesOf (bs : List (CCSettings × CCBlock V)) : List (Frame V) :=
  bs.flatMap fun x => (List.range x.2.nframes).map fun t => ⟨x.1, at' x.2.ccs t, x.2.ms t⟩

/-- The value an output is at after some frames: that of the last event it took, zero if there was none. -/
def current [OfNat V 0] (i : Nat) (F : List (Frame V)) : V :=
  (F.flatMap fun f => f.es.filterMap (taken f.c i)).getLast?.getD 0

/-- A slew limiter that is given these targets and times. -/
def limited (slew : S → V → V → V × S) : S → List (V × V) → List V
  | _, [] => []
  | s, (x, ms) :: r => (slew s x ms).1 :: limited slew (slew s x ms).2 r

/-- The targets and times of an output: in each frame the current value and the slew parameter. -/
def targets [OfNat V 0] (i : Nat) (F : List (Frame V)) : List (V × V) :=
  (List.range F.length).filterMap fun f => F[f]?.map fun fr => (current i (F.take (f + 1)), fr.ms)

end HexoDSP.MidiSetSpec
