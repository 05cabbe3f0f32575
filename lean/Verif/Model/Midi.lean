/-!
# Model of the MIDI path: `src/nodes/midi.rs`, the feeding of events in `src/nodes/node_exec.rs` and the nodes
`src/dsp/node_midip.rs` and `src/dsp/node_midicc.rs`

The value type `V` (`f32`) has uninterpreted arithmetic. `none` is a panic (here: the underflow of
`event.timing - to_time`, which panics in debug builds and wraps in release builds).
-/

namespace HexoDSP.Midi

variable {V S : Type}

/-- `src/nodes/midi.rs:62-67` `enum HxMidiEvent`. -/
inductive Ev (V : Type) where
  | noteOn (channel note : Nat) (vel : V)
  | noteOff (channel note : Nat)
  | cc (channel cc : Nat) (value : V)
  deriving DecidableEq

/-- `src/nodes/midi.rs:5-10` `struct HxTimedEvent`. -/
structure Timed (V : Type) where
  timing : Nat
  kind : Ev V
  deriving DecidableEq

/-- `src/nodes/midi.rs:17-23` `is_cc`. -/
def Timed.isCC (e : Timed V) : Bool :=
  match e.kind with
  | .cc _ _ _ => true
  | _ => false

/-! ## Scanning the events of a block -/

/-- `src/nodes/midi.rs:42-45` `struct MidiEventPointer`. -/
structure Pointer (V : Type) where
  buf : List (Timed V)
  idx : Nat

/-- `src/nodes/midi.rs:48-50` `new`. -/
def Pointer.new (buf : List (Timed V)) : Pointer V := { buf := buf, idx := 0 }

/-- `src/nodes/midi.rs:52-59` `next_at`. -/
def Pointer.nextAt (p : Pointer V) (time : Nat) : Option (Ev V) × Pointer V :=
  match p.buf[p.idx]? with
  | none => (none, p)
  | some e => if e.timing ≤ time then (some e.kind, { p with idx := p.idx + 1 }) else (none, p)

/-- `while let Some(ev) = ptr.next_at(frame) { .. }` (`src/dsp/node_midip.rs:137`, `src/dsp/node_midicc.rs:114`): the
events in the order in which the body sees them. The fuel is the number of events not yet seen, plus one. -/
def Pointer.drain (time : Nat) : Nat → Pointer V → List (Ev V) × Pointer V
  | 0, p => ([], p)
  | fuel + 1, p =>
    match p.nextAt time with
    | (none, p) => ([], p)
    | (some e, p) => let r := p.drain time fuel; (e :: r.1, r.2)

/-- The loop `for frame in 0..nframes { while let Some(ev) = ptr.next_at(frame) { .. } .. }` of
`src/dsp/node_midip.rs:127-166` and `src/dsp/node_midicc.rs:111-131`: the events seen in each frame, from frame
`frame` on. -/
def Pointer.scan : Nat → Nat → Pointer V → List (List (Ev V))
  | _, 0, _ => []
  | frame, left + 1, p =>
    let d := p.drain frame (p.buf.length - p.idx + 1)
    d.1 :: Pointer.scan (frame + 1) left d.2

/-! ## Windowing -/

/-- `src/nodes/midi.rs:69-71` `struct EventWindowing`. -/
structure Windowing (V : Type) where
  event : Option (Timed V)

/-- `src/nodes/midi.rs:74-76` `new`. -/
def Windowing.new : Windowing V := { event := none }

/-- `src/nodes/midi.rs:79-81` `feed_me`. -/
def Windowing.feedMe (w : Windowing V) : Bool := w.event.isNone

/-- `src/nodes/midi.rs:84-86` `feed`. -/
def Windowing.feed (_ : Windowing V) (e : Timed V) : Windowing V := { event := some e }

/-- `src/nodes/midi.rs:88-103` `next_event_in_range`. -/
def Windowing.nextInRange (w : Windowing V) (toTime blockSize : Nat) : Option (Option (Timed V) × Windowing V) :=
  match w.event with
  | none => some (none, { event := none })
  | some e =>
    if e.timing < toTime + blockSize then
      if toTime ≤ e.timing then some (some { timing := e.timing - toTime, kind := e.kind }, { event := none }) else none
    else some (none, { event := some e })

/-- Variables captured by the closure that feeds events (`src/nodes/node_exec.rs:535-547`, `ev_win`, `ev_idx`). -/
structure Source (V : Type) where
  win : Windowing V
  idx : Nat

/-- `src/nodes/node_exec.rs:552-563`: the closure handed to `feed_midi_events_from`. -/
def Source.pull (events : List (Timed V)) (offs nframes : Nat) (s : Source V) : Option (Option (Timed V) × Source V) :=
  if s.win.feedMe then
    match events[s.idx]? with
    | none => some (none, s)
    | some e => ((s.win.feed e).nextInRange offs nframes).map (fun r => (r.1, { win := r.2, idx := s.idx + 1 }))
  else (s.win.nextInRange offs nframes).map (fun r => (r.1, { s with win := r.2 }))

/-- The buffers of the execution context (`midi_notes`, `midi_ccs`) and the events reported to the frontend
(`graph_event_prod`, here without its bound). -/
structure Fed (V : Type) where
  notes : List (Timed V)
  ccs : List (Timed V)
  reported : List (Ev V)

/-- `src/nodes/node_exec.rs:336-342`, `349-355`: sort one event into its buffer and report it. -/
def Fed.push (b : Fed V) (e : Timed V) : Fed V :=
  if e.isCC then { b with ccs := b.ccs ++ [e], reported := b.reported ++ [e.kind] }
  else { b with notes := b.notes ++ [e], reported := b.reported ++ [e.kind] }

/-- `src/nodes/node_exec.rs:348-363`: the loop over the closure; 512 notes and 1024 controller events are the
limits (`27-28`). The fuel is the number of events plus one. -/
def feedLoop (events : List (Timed V)) (offs nframes : Nat) : Nat → Source V → Fed V → Option (Fed V × Source V)
  | 0, s, b => some (b, s)
  | fuel + 1, s, b =>
    match s.pull events offs nframes with
    | none => none
    | some (none, s) => some (b, s)
    | some (some e, s) =>
      let b := b.push e
      if b.ccs.length = 1024 ∨ b.notes.length = 512 then some (b, s)
      else feedLoop events offs nframes fuel s b

/-- `src/nodes/node_exec.rs:330-364` `feed_midi_events_from` with the closure above; `injected` lists the injected
events in the order in which they were received (`303-305`). -/
def feedBlock (events : List (Timed V)) (offs nframes : Nat) (injected : List (Ev V)) (s : Source V) :
    Option (Fed V × Source V) :=
  let b : Fed V := injected.reverse.foldl (fun b e => b.push { timing := 0, kind := e }) { notes := [], ccs := [], reported := [] }
  feedLoop events offs nframes (events.length + 1) s b

/-- `src/nodes/node_exec.rs:546-582`: the loop over the blocks (of the given sizes and with the events injected before
each). -/
def feedBlocks (events : List (Timed V)) : Nat → Source V → List (Nat × List (Ev V)) → Option (List (Fed V))
  | _, _, [] => some []
  | offs, s, (n, inj) :: rest =>
    match feedBlock events offs n inj s with
    | none => none
    | some (b, s) => (feedBlocks events (offs + n) s rest).map (fun l => b :: l)

/-- `src/nodes/node_exec.rs:548-550`: the sizes of the blocks for a run of `n` frames. -/
def blockSizes : Nat → Nat → List Nat
  | 0, _ => []
  | fuel + 1, n => if n = 0 then [] else (if n ≥ 128 then 128 else n) :: blockSizes fuel (n - (if n ≥ 128 then 128 else n))

/-! ## `MidiP` -/

/-- `src/dsp/node_midip.rs:34-41` `struct MidiP` without the trigger and fixed length gate generators. -/
structure MidiP (V : Type) where
  nextGate : Int
  curNote : Nat
  curGate : Nat
  curVel : V
  deriving DecidableEq

/-- `src/dsp/node_midip.rs:44-53` `new`. -/
def MidiP.new [OfNat V 0] : MidiP V := { nextGate := 0, curNote := 0, curGate := 0, curVel := 0 }

/-- `src/dsp/node_midip.rs:130-135`. -/
def MidiP.frameStart (s : MidiP V) : MidiP V :=
  if s.nextGate > 0 then { s with curGate := 1, nextGate := 0 }
  else if s.nextGate < 0 then { s with curGate := 0, nextGate := 0 }
  else { s with nextGate := 0 }

/-- `src/dsp/node_midip.rs:138-165`. -/
def MidiP.event (chan : Nat) (s : MidiP V) : Ev V → MidiP V
  | .noteOn channel note vel =>
    if channel ≠ chan then s
    else
      let s := if s.curGate > 0 then { s with nextGate := 1, curGate := 0 } else { s with curGate := 1 }
      { s with curNote := note, curVel := vel }
  | .noteOff channel note =>
    if channel ≠ chan then s
    else if s.curNote = note then { s with nextGate := -1 } else s
  | .cc _ _ _ => s

/-- The three outputs in one frame; the gate is 1.0 (`true`) or 0.0. -/
structure MidiPOut (V : Type) where
  freq : V
  gate : Bool
  vel : V
  deriving DecidableEq

/-- `src/dsp/node_midip.rs:127-192`: the loop over the frames `frame, frame + 1, ..` of a block in gate mode
"MIDI". `det` is the signal at the detune input. -/
def MidiP.frames [Add V] [Sub V] [Div V] [NatCast V] (chan : Nat) (det : Nat → V) :
    Nat → Nat → Pointer V → MidiP V → List (MidiPOut V) × MidiP V
  | _, 0, _, s => ([], s)
  | frame, left + 1, p, s =>
    let d := p.drain frame (p.buf.length - p.idx + 1)
    let s := d.1.foldl (MidiP.event chan) s.frameStart
    let o : MidiPOut V := { freq := ((s.curNote : V) - ((69 : Nat) : V)) / ((120 : Nat) : V) + det frame
                            gate := decide (s.curGate > 0), vel := s.curVel }
    let r := MidiP.frames chan det (frame + 1) left d.2 s
    (o :: r.1, r.2)

/-- `src/dsp/node_midip.rs:100-196` `process` in gate mode "MIDI"; `chan` is the value of the channel setting. -/
def MidiP.process [Add V] [Sub V] [Div V] [NatCast V] (s : MidiP V) (chan : Int) (det : Nat → V) (notes : List (Timed V))
    (nframes : Nat) : List (MidiPOut V) × MidiP V :=
  MidiP.frames (chan % 16).toNat det 0 nframes (Pointer.new notes) s

/-- One block as the node sees it: the number of frames, the note events and the detune signal. -/
structure NoteBlock (V : Type) where
  nframes : Nat
  notes : List (Timed V)
  det : Nat → V

/-- A sequence of calls of `process`; the outputs of all blocks one after the other. -/
def MidiP.blocks [Add V] [Sub V] [Div V] [NatCast V] (chan : Int) : MidiP V → List (NoteBlock V) → List (MidiPOut V) × MidiP V
  | s, [] => ([], s)
  | s, b :: bs =>
    let r := s.process chan b.det b.notes b.nframes
    let r' := MidiP.blocks chan r.2 bs
    (r.1 ++ r'.1, r'.2)

/-! ## `MidiCC` -/

/-- `src/dsp/node_midicc.rs:20-27` `struct MidiCC`; the slew limiter (crate `synfx_dsp`) has an arbitrary state `S`. -/
structure MidiCC (V S : Type) where
  cur1 : V
  cur2 : V
  cur3 : V
  slew1 : S
  slew2 : S
  slew3 : S

/-- `src/dsp/node_midicc.rs:30-39` `new`. -/
def MidiCC.new [OfNat V 0] (s0 : S) : MidiCC V S :=
  { cur1 := 0, cur2 := 0, cur3 := 0, slew1 := s0, slew2 := s0, slew3 := s0 }

/-- The settings of the node: channel and three controller numbers, as stored in the atoms. -/
structure CCSettings where
  chan : Int
  cc1 : Int
  cc2 : Int
  cc3 : Int

/-- `src/dsp/node_midicc.rs:115-130`. The settings are reduced as in lines `102-105`. -/
def MidiCC.event (c : CCSettings) (s : MidiCC V S) : Ev V → MidiCC V S
  | .cc channel cc value =>
    if channel ≠ (c.chan % 16).toNat then s
    else if cc = (c.cc1 % 128).toNat then { s with cur1 := value }
    else if cc = (c.cc2 % 128).toNat then { s with cur2 := value }
    else if cc = (c.cc3 % 128).toNat then { s with cur3 := value }
    else s
  | _ => s

/-- `src/dsp/node_midicc.rs:111-136`: the loop over the frames. `slew` is `SlewValue::next`, `ms` the denormalised slew
parameter per frame. -/
def MidiCC.frames (slew : S → V → V → V × S) (c : CCSettings) (ms : Nat → V) :
    Nat → Nat → Pointer V → MidiCC V S → List (V × V × V) × MidiCC V S
  | _, 0, _, s => ([], s)
  | frame, left + 1, p, s =>
    let d := p.drain frame (p.buf.length - p.idx + 1)
    let s := d.1.foldl (MidiCC.event c) s
    let r1 := slew s.slew1 s.cur1 (ms frame)
    let r2 := slew s.slew2 s.cur2 (ms frame)
    let r3 := slew s.slew3 s.cur3 (ms frame)
    let r := MidiCC.frames slew c ms (frame + 1) left d.2 { s with slew1 := r1.2, slew2 := r2.2, slew3 := r3.2 }
    ((r1.1, r2.1, r3.1) :: r.1, r.2)

/-- `src/dsp/node_midicc.rs:79-139` `process`. -/
def MidiCC.process (slew : S → V → V → V × S) (s : MidiCC V S) (c : CCSettings) (ms : Nat → V) (ccs : List (Timed V))
    (nframes : Nat) : List (V × V × V) × MidiCC V S :=
  MidiCC.frames slew c ms 0 nframes (Pointer.new ccs) s

/-- One block as the node sees it: the number of frames, the controller events and the slew signal. -/
structure CCBlock (V : Type) where
  nframes : Nat
  ccs : List (Timed V)
  ms : Nat → V

/-- A sequence of calls of `process` with unchanged settings. -/
def MidiCC.blocks (slew : S → V → V → V × S) (c : CCSettings) : MidiCC V S → List (CCBlock V) → List (V × V × V) × MidiCC V S
  | s, [] => ([], s)
  | s, b :: bs =>
    let r := s.process slew c b.ms b.ccs b.nframes
    let r' := MidiCC.blocks slew c r.2 bs
    (r.1 ++ r'.1, r'.2)

end HexoDSP.Midi
