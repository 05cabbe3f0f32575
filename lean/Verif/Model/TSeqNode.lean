import Verif.Model.GateSeq
/-!
# Model of `src/dsp/node_tseq.rs`

The clock (`TriggerPhaseClock`), the trigger detector (`Trigger`) and the random numbers (`SplitMix64`) of the crate `synfx_dsp` are arbitrary
machines. Signals are rationals; the conversion of a phase from `f64` to `f32` is not modelled. The lock of the node globals is assumed to be
obtained, so that a node always has a backend.
-/

namespace HexoDSP.TSeqNode
open HexoDSP.Tracker HexoDSP.GateSeq

variable {C T R : Type}

/-- The machines of `synfx_dsp` (`src/dsp/node_tseq.rs:27-31`, `src/dsp/tracker/sequencer.rs:12`). -/
structure Ext (C T R : Type) where
  clockNew : C
  clockSync : C → C
  clockNext : C → ℚ → ℚ → ℚ × C
  trigNew : T
  trigCheck : T → ℚ → Bool × T
  rand : R → ℚ × R
  enc : ℚ → Nat

/-- `src/dsp/node_tseq.rs:34-39` `struct TSeq` without the backend's pattern and queue, which are in `World`; with the random numbers of the
sequencer (`src/dsp/tracker/sequencer.rs:12-13`): the generator and the row and value of the last draw of each column. -/
structure Node (C T R : Type) where
  clock : C
  trig : T
  rng : R
  rands : Nat → Nat × ℚ

/-- `src/dsp/node_tseq.rs:52-64` `TSeq::new`; the generator is seeded by the time. -/
def Node.new (e : Ext C T R) (seed : R) : Node C T R :=
  { clock := e.clockNew, trig := e.trigNew, rng := seed, rands := fun _ => (99999, 0) }

/-- `src/dsp/node_tseq.rs:218-224`: the phase and the clock after it. -/
def phaseOf (e : Ext C T R) (cmode : Int) (plen : ℚ) (c : C) (x : ℚ) : ℚ × C :=
  if cmode = 0 then ((e.clockNext c plen x).1 / plen, (e.clockNext c plen x).2)
  else if cmode = 1 then e.clockNext c 1 x
  else (fract |x|, c)

/-- `src/dsp/node_tseq.rs:213-227`: the loop over the frames, each with the inputs `clock` and `trig`. -/
def phases (e : Ext C T R) (cmode : Int) (plen : ℚ) : C → T → List (ℚ × ℚ) → List ℚ × C × T
  | c, t, [] => ([], c, t)
  | c, t, (x, g) :: rest =>
    let k := e.trigCheck t g
    let c := if k.1 then e.clockSync c else c
    let p := phaseOf e cmode plen c x
    let r := phases e cmode plen p.2 k.2 rest
    (p.1 :: r.1, r.2)

/-- A block of a note, step or value column: the loops at `src/dsp/tracker/sequencer.rs:85` and `117`. -/
def pairs (f : ℚ → Option (ℚ × Nat)) : List ℚ → Option (List (ℚ × ℚ))
  | [] => some []
  | p :: ps =>
    match f p with
    | none => none
    | some (v, g) => (pairs f ps).map (fun r => (v, (g : ℚ)) :: r)

/-- `src/dsp/tracker/mod.rs:150-168` `get_col_at_phase` for a block. `buf` is what the two buffers hold before. -/
def playCol (e : Ext C T R) (b : Backend) (n : Node C T R) (col : Nat) (ph : List ℚ) (buf : List (ℚ × ℚ)) : Option (List (ℚ × ℚ) × Node C T R) :=
  if b.seq.rows = 0 then some (buf, n)
  else if 6 ≤ col then none
  else
    match b.colTypes col with
    | .note => (pairs (b.seq.getAt col) ph).map (fun o => (o, n))
    | .step => (pairs (b.seq.getAt col) ph).map (fun o => (o, n))
    | .value => (pairs (b.seq.interpolateAt col) ph).map (fun o => (o, n))
    | .gate =>
      (gateBlock e.rand e.enc b.seq col { rng := n.rng, line := (n.rands col).1, val := (n.rands col).2 } ph).map
        (fun r => (r.1, { n with rng := r.2.rng, rands := upd n.rands col (r.2.line, r.2.val) }))

/-- What a block leaves: the track and gate outputs (`trk1` to `trk6` and `gat1` to `gat6` are numbered from 0), as far as written, and the two
values for the display. -/
structure Outs where
  trk : Nat → Option (List ℚ)
  gat : Nat → Option (List ℚ)
  led : Option (ℚ × ℚ)

/-- Nothing written. -/
def Outs.none : Outs := { trk := fun _ => Option.none, gat := fun _ => Option.none, led := Option.none }

/-- `src/dsp/node_tseq.rs:235-280`: the columns in their order with the outputs they are written to. -/
def columns : List (Nat × Nat) := [(0, 0), (1, 1), (2, 2), (3, 3), (4, 4), (5, 5)]

/-- `src/dsp/node_tseq.rs:235-280`: the columns are played into the same two buffers and copied to the outputs. -/
def playCols (e : Ext C T R) (b : Backend) (ph : List ℚ) : List (Nat × Nat) → List (ℚ × ℚ) → Node C T R → Outs → Option (Outs × Node C T R)
  | [], _, n, o => some (o, n)
  | (col, port) :: rest, buf, n, o =>
    match playCol e b n col ph buf with
    | none => none
    | some (buf, n) =>
      playCols e b ph rest buf n
        { o with trk := upd o.trk port (some (buf.map Prod.fst)), gat := upd o.gat port (some (buf.map Prod.snd)) }

/-- `src/dsp/node_tseq.rs:188-284` `process` of a block with the given `clock` and `trig` inputs. A block without frames panics at line 243
(`col_out_slice.len() - 1`). -/
def process (e : Ext C T R) (w : World) (n : Node C T R) (cmode : Int) (frames : List (ℚ × ℚ)) : Option (Outs × World × Node C T R) :=
  match w.backend with
  | none => some (Outs.none, w, n)
  | some _ =>
    match w.checkUpdates with
    | none => none
    | some (_, w) =>
      match w.backend with
      | none => none
      | some b =>
        let ph := phases e cmode (max b.seq.rows 1 : Nat) n.clock n.trig frames
        let n := { n with clock := ph.2.1, trig := ph.2.2 }
        match playCols e b ph.1 columns (frames.map (fun _ => (0, 0))) n Outs.none with
        | none => none
        | some (o, n) =>
          match ((o.trk 0).getD []).getLast?, ph.1.getLast? with
          | some a, some p => some ({ o with led := some (a, p) }, w, n)
          | _, _ => none

/-- What happens to a tracker and its node: a call of the tracker (the creation of a node takes the seed of the generator), or a block. -/
inductive Ev (R : Type) where
  | op (o : Op)
  | newNode (seed : R)
  | block (cmode : Int) (frames : List (ℚ × ℚ))

/-- One event. `poll` is not a call of its own here: the node does it. -/
def step (e : Ext C T R) (checked : Bool) (s : World × Node C T R) : Ev R → Option (World × Node C T R)
  | .op o => (s.1.step checked o).map (fun w => (w, s.2))
  | .newNode seed => some (s.1.getBackend, Node.new e seed)
  | .block cmode frames => (process e s.1 s.2 cmode frames).map (fun r => (r.2.1, r.2.2))

/-- A history. -/
def run (e : Ext C T R) (checked : Bool) : World × Node C T R → List (Ev R) → Option (World × Node C T R)
  | s, [] => some s
  | s, ev :: evs => (step e checked s ev).bind (fun s => run e checked s evs)

end HexoDSP.TSeqNode
