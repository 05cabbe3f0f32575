import Verif.Model.Midi
/-!
# Model of the gate modes of `src/dsp/node_midip.rs`

`Model/Midi.lean` has the node in the gate mode "MIDI". Here is the whole of `process`, for settings that may change
from block to block. `TrigSignal` and `GateSignal` of the crate `synfx_dsp` are arbitrary machines. The value type `V`
(`f32`) has uninterpreted arithmetic. `none` is a panic.
-/

namespace HexoDSP.MidiGate
open HexoDSP.Midi

/-- `TrigSignal` (`new`, `trigger`, `next`), `GateSignal` (`new`, `trigger`, `next`), and `f32::ceil` followed by `as u8`. -/
structure Ext (V T G : Type) where
  trigNew : T
  trig : T → T
  trigNext : T → V × T
  gateNew : G
  gate : G → G
  gateNext : G → V → V × G
  ceilU8 : V → Nat

/-- `src/dsp/node_midip.rs:34-41` `struct MidiP`; `base` has the first four fields. -/
structure Node (V T G : Type) where
  base : MidiP V
  trigSig : T
  gateSig : G
  deriving DecidableEq

variable {V T G : Type}

/-- `src/dsp/node_midip.rs:44-53` `new`. -/
def Node.new [OfNat V 0] (E : Ext V T G) : Node V T G := ⟨MidiP.new, E.trigNew, E.gateNew⟩

/-- `src/dsp/node_midip.rs:137-166`: one turn of the loop over the events of a frame. -/
def Node.event (E : Ext V T G) (chan : Nat) (n : Node V T G) (e : Ev V) : Node V T G :=
  match e with
  | .noteOn channel note vel =>
    if channel ≠ chan then n
    else
      let b := if n.base.curGate > 0 then { n.base with nextGate := 1, curGate := 0 } else { n.base with curGate := 1 }
      { base := { b with curNote := note, curVel := vel }, trigSig := E.trig n.trigSig, gateSig := E.gate n.gateSig }
  | .noteOff channel note =>
    if channel ≠ chan then n
    else if n.base.curNote = note then { n with base := { n.base with nextGate := -1 } } else n
  | .cc _ _ _ => n

/-- `src/dsp/node_midip.rs:168-184`: what is written to the output `gate` in one frame. -/
def Node.gate [OfNat V 0] [OfNat V 1] (E : Ext V T G) (gmode : Int) (len : V) (n : Node V T G) : V × Node V T G :=
  if gmode = 1 then
    let r := E.trigNext n.trigSig
    (r.1, { n with trigSig := r.2 })
  else if gmode = 2 then
    if n.base.nextGate > 0 then (0, { n with base := { n.base with curGate := 0 } })
    else
      let r := E.gateNext n.gateSig len
      (r.1, { n with gateSig := r.2, base := { n.base with curGate := E.ceilU8 r.1 } })
  else (if n.base.curGate > 0 then 1 else 0, n)

/-- The three outputs in one frame. -/
structure Out (V : Type) where
  freq : V
  gate : V
  vel : V
  deriving DecidableEq

/-- One block as the node sees it: the settings `chan` and `gmode`, the number of frames, the note events, the signal
at `det` and the gate length in milliseconds (`denorm` of the signal at `glen`). -/
structure Block (V : Type) where
  chan : Int
  gmode : Int
  nframes : Nat
  notes : List (Timed V)
  det : Nat → V
  glen : Nat → V

/-- `src/dsp/node_midip.rs:130-191`: one frame with its events. -/
def Node.frame [Add V] [Sub V] [Div V] [NatCast V] [OfNat V 0] [OfNat V 1] (E : Ext V T G) (chan : Nat) (gmode : Int)
    (n : Node V T G) (es : List (Ev V)) (det len : V) : Out V × Node V T G :=
  let n := es.foldl (Node.event E chan) { n with base := n.base.frameStart }
  let r := n.gate E gmode len
  let n := r.2
  ({ freq := ((n.base.curNote : V) - ((69 : Nat) : V)) / ((120 : Nat) : V) + det, gate := r.1, vel := n.base.curVel }, n)

/-- `src/dsp/node_midip.rs:127-192`: the loop over the frames of a block. -/
def Node.frames [Add V] [Sub V] [Div V] [NatCast V] [OfNat V 0] [OfNat V 1] (E : Ext V T G) (chan : Nat) (gmode : Int)
    (det len : Nat → V) : Nat → Nat → Pointer V → Node V T G → List (Out V) × Node V T G
  | _, 0, _, n => ([], n)
  | frame, left + 1, p, n =>
    let d := p.drain frame (p.buf.length - p.idx + 1)
    let o := n.frame E chan gmode d.1 (det frame) (len frame)
    let r := Node.frames E chan gmode det len (frame + 1) left d.2 o.2
    (o.1 :: r.1, r.2)

/-- `src/dsp/node_midip.rs:100-196` `process`: the outputs and the value of the LED, which is that of the gate in the
last frame; a block of no frames panics at line 194. -/
def Node.process [Add V] [Sub V] [Div V] [NatCast V] [OfNat V 0] [OfNat V 1] (E : Ext V T G) (n : Node V T G)
    (b : Block V) : Option (List (Out V) × V × Node V T G) :=
  let r := Node.frames E (b.chan % 16).toNat b.gmode b.det b.glen 0 b.nframes (Pointer.new b.notes) n
  r.1.getLast?.map (fun o => (r.1, o.gate, r.2))

/-- A sequence of calls of `process`: the outputs of all blocks one after the other, and the LED after each. -/
def Node.blocks [Add V] [Sub V] [Div V] [NatCast V] [OfNat V 0] [OfNat V 1] (E : Ext V T G) :
    Node V T G → List (Block V) → Option (List (Out V) × List V × Node V T G)
  | n, [] => some ([], [], n)
  | n, b :: bs =>
    (n.process E b).bind fun r => (Node.blocks E r.2.2 bs).map fun r' => (r.1 ++ r'.1, r.2.1 :: r'.2.1, r'.2.2)

end HexoDSP.MidiGate
