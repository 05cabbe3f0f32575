import Verif.Model.Patch
import Verif.Model.Norm
import Verif.Model.Repr
/-!
# Model of the nodes between the engine and the sound card

`src/dsp/node_inp.rs`, `src/dsp/node_out.rs`, `src/dsp/node_amp.rs`, `src/dsp/node_mix3.rs`, the buffers of the sound card (`src/lib.rs:387-408`
`Context`), and the loop that drives the engine, `src/nodes/node_exec.rs:525-585` `test_run_input`. Signals are real numbers. The values for the display
(`ctx_vals`) are not modelled. All other nodes are an arbitrary function of their inputs and of a state of their own: `ctx.input` and `ctx.output` occur in
these two nodes only. What a node writes to an output is kept by the engine in the output buffer; frames it does not write keep what was there.
-/

namespace HexoDSP.IoNodes
open HexoDSP.Table HexoDSP.Engine
open HexoDSP.Repr (SAtom)

/-- The node types: the rows of the table of nodes. -/
abbrev Kind := Fin nodeTable.length

/-- `src/dsp/mod.rs:2132-2136` `enum NodeId` without `Nop`. -/
abbrev Node := Engine.NodeId Kind

/-- The default of an atom, `src/dsp/mod.rs:2060-2071` `as_atom_def`. -/
noncomputable def atomOf : AtomInit → SAtom ℝ
  | .setting v => .setting v
  | .param v => .param v
  | .audioUnloaded s => .audio s none

/-- The ports and defaults of the nodes: `src/dsp/mod.rs:1420-1784`. -/
noncomputable def table (G : Gain) : NodeTable Node ℝ (SAtom ℝ) where
  outCount n := (row n.kind).outs.length
  inCount n := (row n.kind).params.length
  atCount n := (row n.kind).atoms.length
  normDef n i := match (row n.kind).params[i]? with
    | some r => r.n.norm G r.dflt
    | none => 0
  atomDef n i := match (row n.kind).atoms[i]? with
    | some a => atomOf a.init
    | none => .setting 0

/-- `x as i64` of a float: towards zero, with limits. -/
noncomputable def asI64 (x : ℝ) : Int := max (-(2 ^ 63)) (min (2 ^ 63 - 1) (if 0 ≤ x then ⌊x⌋ else ⌈x⌉))

/-- `src/dsp/satom.rs:49-55` `i`. -/
noncomputable def atomI : SAtom ℝ → Int
  | .setting i => i
  | .param x => asI64 x
  | _ => 0

/-- The host's side: the buffers of the sound card, channel by channel, and the state `rest` of all other nodes. -/
structure Host (τ : Type) where
  inp : Nat → Block ℝ
  out : Nat → Block ℝ
  rest : τ

/-- A call of a node. -/
abbrev In := CallIn Node ℝ (SAtom ℝ)

/-- The input buffer at an index: `inp::Amp::gain(inputs)`, `src/dsp/mod.rs:2423-2429`. (The engine gives every node all of its inputs.) -/
noncomputable def inAt (c : In) (i : Nat) : Block ℝ := c.inputs.getD i (fun _ => 0)

/-- The setting at an index: `at::Amp::neg_att(atoms)`, `src/dsp/mod.rs:2441-2447`. -/
noncomputable def setAt (c : In) (i : Nat) : Int := atomI (c.atoms.getD i (.setting 0))

/-- A loop over the frames that writes output `i`: `for frame in 0..ctx.nframes() { out.write(frame, v(frame)) }`. -/
noncomputable def wr (c : In) (i : Nat) (v : Nat → ℝ) : Block ℝ := fun f => if f < c.nframes then v f else c.oldOut.getD i (fun _ => 0) f

/-- `src/dsp/node_amp.rs:81-110`; `att` has the identity as its curve. -/
noncomputable def amp (G : Gain) (c : In) : Nat → Block ℝ :=
  fun k =>
    if k = 0 then
      if setAt c 0 > 0 then wr c 0 (fun f => inAt c 0 f * Curve.denorm G .id (max (inAt c 2 f) 0) * Curve.denorm G .gain (inAt c 1 f))
      else wr c 0 (fun f => inAt c 0 f * Curve.denorm G .id |inAt c 2 f| * Curve.denorm G .gain (inAt c 1 f))
    else fun _ => 0

/-- `src/dsp/node_mix3.rs:62-76`. -/
noncomputable def mix3 (G : Gain) (c : In) : Nat → Block ℝ :=
  fun k =>
    if k = 0 then
      wr c 0 (fun f => (inAt c 0 f * Curve.denorm G .vol (inAt c 3 f) + inAt c 1 f * Curve.denorm G .vol (inAt c 4 f) +
        inAt c 2 f * Curve.denorm G .vol (inAt c 5 f)) * Curve.denorm G .vol (inAt c 6 f))
    else fun _ => 0

/-- `src/dsp/node_inp.rs:59-70`. -/
noncomputable def inp {τ : Type} (G : Gain) (h : Host τ) (c : In) : Nat → Block ℝ :=
  fun k =>
    if k = 0 then wr c 0 (fun f => Curve.denorm G .vol (inAt c 0 f) * h.inp 0 f)
    else if k = 1 then wr c 1 (fun f => Curve.denorm G .vol (inAt c 0 f) * h.inp 1 f)
    else fun _ => 0

/-- `src/lib.rs:399-402` `output` for the frames of a block. -/
noncomputable def Host.write {τ : Type} (h : Host τ) (ch nf : Nat) (v : Nat → ℝ) : Host τ :=
  { h with out := fun c f => if c = ch ∧ f < nf then v f else h.out c f }

/-- `src/dsp/node_out.rs:77-94`. -/
noncomputable def out {τ : Type} (G : Gain) (h : Host τ) (c : In) : Host τ :=
  let vol := fun f => Curve.denorm G .vol (inAt c 2 f)
  if setAt c 0 > 0 then (h.write 0 c.nframes (fun f => vol f * inAt c 0 f)).write 1 c.nframes (fun f => vol f * inAt c 0 f)
  else (h.write 0 c.nframes (fun f => vol f * inAt c 0 f)).write 1 c.nframes (fun f => vol f * inAt c 1 f)

/-- `src/dsp/mod.rs:2725-2737` `Node::process`, with the node made by `node_factory` (`2771-2797`). `other` stands for the nodes not modelled here. -/
noncomputable def run {τ : Type} (G : Gain) (other : τ → In → τ × (Nat → Block ℝ)) (h : Host τ) (c : In) : Host τ × (Nat → Block ℝ) :=
  if (row c.node.kind).name = "amp" then (h, amp G c)
  else if (row c.node.kind).name = "mix3" then (h, mix3 G c)
  else if (row c.node.kind).name = "inp" then (h, inp G h c)
  else if (row c.node.kind).name = "out" then (out G h c, fun _ _ => 0)
  else ({ h with rest := (other h.rest c).1 }, (other h.rest c).2)

section
variable {M τ : Type}

/-- `src/nodes/node_exec.rs:548-582`: the loop over the blocks. `feed offs n` is `feed_midi_events_from`: the events of the next `n` frames. The output
buffers are filled with zeros before (`539-545`); both input channels get the same signal (`571`). -/
noncomputable def blocks (G : Gain) (other : τ → In → τ × (Nat → Block ℝ)) (feed : Nat → Nat → τ → τ) :
    Nat → World Node ℝ (SAtom ℝ) M (Host τ) → Nat → List ℝ → Option (World Node ℝ (SAtom ℝ) M (Host τ) × List ℝ × List ℝ)
  | 0, w, _, _ => some (w, [], [])
  | fuel + 1, w, offs, input =>
    if input.length = 0 then some (w, [], [])
    else
      let n := if 128 ≤ input.length then 128 else input.length
      let st : Host τ := { inp := fun _ f => input.getD f 0, out := fun _ _ => 0, rest := feed offs n w.st.rest }
      match { w with st := st }.step (table G) (.setting 0) (run G other) (.process n) with
      | none => none
      | some (w1, _) =>
        (blocks G other feed fuel w1 (offs + n) (input.drop n)).map (fun r =>
          (r.1, (List.range n).map (w1.st.out 0) ++ r.2.1, (List.range n).map (w1.st.out 1) ++ r.2.2))

/-- `src/nodes/node_exec.rs:525-585` `test_run_input`. `slope` is the smoothing time at 44100 Hz in frames. Each turn of the loop takes at least one
frame, so `input.length` turns are enough. -/
noncomputable def testRunInput (G : Gain) (other : τ → In → τ × (Nat → Block ℝ)) (feed : Nat → Nat → τ → τ) (slope : Nat)
    (w : World Node ℝ (SAtom ℝ) M (Host τ)) (input : List ℝ) : Option (World Node ℝ (SAtom ℝ) M (Host τ) × List ℝ × List ℝ) :=
  match w.step (table G) (.setting 0) (run G other) (.setSlope slope) with
  | none => none
  | some (w, _) =>
    match w.step (table G) (.setting 0) (run G other) .poll with
    | none => none
    | some (w, _) => blocks G other feed input.length w 0 input

end

end HexoDSP.IoNodes
