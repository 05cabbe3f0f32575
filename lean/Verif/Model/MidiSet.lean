import Verif.Model.Midi
/-!
# Model of `src/dsp/node_midicc.rs` with settings that change from block to block, and of its LED
-/

namespace HexoDSP.MidiSet
open HexoDSP.Midi

variable {V S : Type}

/-- `src/dsp/node_midicc.rs:114-130`: one event, with the flag `change`. -/
def event (c : CCSettings) (s : MidiCC V S × Bool) (e : Ev V) : MidiCC V S × Bool :=
  match e with
  | .cc channel cc value =>
    if channel ≠ (c.chan % 16).toNat then s
    else if cc = (c.cc1 % 128).toNat then ({ s.1 with cur1 := value }, true)
    else if cc = (c.cc2 % 128).toNat then ({ s.1 with cur2 := value }, true)
    else if cc = (c.cc3 % 128).toNat then ({ s.1 with cur3 := value }, true)
    else s
  | _ => s

/-- `src/dsp/node_midicc.rs:111-136`: the loop over the frames, with the flag `change`. -/
def frames (slew : S → V → V → V × S) (c : CCSettings) (ms : Nat → V) :
    Nat → Nat → Pointer V → MidiCC V S × Bool → List (V × V × V) × MidiCC V S × Bool
  | _, 0, _, s => ([], s)
  | frame, left + 1, p, s =>
    let d := p.drain frame (p.buf.length - p.idx + 1)
    let s := d.1.foldl (event c) s
    let r1 := slew s.1.slew1 s.1.cur1 (ms frame)
    let r2 := slew s.1.slew2 s.1.cur2 (ms frame)
    let r3 := slew s.1.slew3 s.1.cur3 (ms frame)
    let r := frames slew c ms (frame + 1) left d.2 ({ s.1 with slew1 := r1.2, slew2 := r2.2, slew3 := r3.2 }, s.2)
    ((r1.1, r2.1, r3.1) :: r.1, r.2)

/-- `src/dsp/node_midicc.rs:79-139` `process`: the outputs, the state, and if the LED is on. -/
def process (slew : S → V → V → V × S) (s : MidiCC V S) (c : CCSettings) (b : CCBlock V) :
    List (V × V × V) × MidiCC V S × Bool :=
  frames slew c b.ms 0 b.nframes (Pointer.new b.ccs) (s, false)

/-- A sequence of calls of `process`, each with its own settings: the outputs and the LED after each. -/
def blocks (slew : S → V → V → V × S) : MidiCC V S → List (CCSettings × CCBlock V) → List (V × V × V) × List Bool
  | _, [] => ([], [])
  | s, (c, b) :: bs =>
    let r := process slew s c b
    let r' := blocks slew r.2.1 bs
    (r.1 ++ r'.1, r.2.2 :: r'.2)

end HexoDSP.MidiSet
