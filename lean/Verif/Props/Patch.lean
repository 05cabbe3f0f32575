import Verif.Lemmas.PatchRound
/-!
# Patches, and what the matrix plays (C18, C76, C77, C78)

`T`, `a0`, `run` (what the nodes compute), the conversion of parameters, the pattern data and block functions, and the order of iteration over hash maps
are arbitrary.
-/

set_option linter.unusedSectionVars false

namespace HexoDSP.PatchProps
open HexoDSP.Patch HexoDSP.EngineSpec
open HexoDSP.Matrix (Matrix Cell Edge MatrixError)
open HexoDSP.Engine

variable {K V A M σ P PR B BR : Type} [DecidableEq K]
variable [Add V] [Mul V] [Sub V] [Div V] [NatCast V] [OfNat V 0]
variable {T : NodeTable (NodeId K) V A} {a0 : A} {run : σ → CallIn (NodeId K) V A → σ × (Nat → Block V)} {E : Env K V A P PR B BR}
variable {s d d' : FM K V A M σ P B}

/-- **C18** Saving the patch of any matrix and loading it into any other one that is at least as large restores the cells with nodes, the values of inputs
(up to the conversion to the user's unit and back), atoms, modulation amounts of inputs that have a value, properties, and the patterns and block
functions that are set. Loading reports an error exactly if the saved grid has a loop; the patch is restored all the same.

Missing from the full statement: amounts of inputs without a value are not restored (`amount_without_value_lost`), patterns behind a gap are not saved
(`far_pattern_not_saved`), patterns that are not set do not replace those of the target (`unset_pattern_stays`). -/
theorem patch_round_trip_partial (hE : EnvOk E) {Q Q' : FM K V A M σ P B → Prop} (hs : Reach T a0 run E Q s) (hd : Reach T a0 run E Q' d)
    (hw : s.grid.w ≤ 256) (hh : s.grid.h ≤ 256) (hdw : s.grid.w ≤ d.grid.w) (hdh : s.grid.h ≤ d.grid.h)
    {res : Except (MatrixError (NodeId K)) Unit} (h : d.fromRepr T a0 run E (s.toRepr E).2 = some (d', res)) :
    SamePatch T E s d d' ∧ (res = .ok () ↔ ¬ s.grid.HasLoop) ∧ (res = .error .cycleDetected ↔ s.grid.HasLoop) := by
  refine ⟨round_trip hE (reach_inv hs) (reach_inv hd) hw hh hdw hdh h, ?_⟩
  rcases fromRepr_result (reach_inv hs) (reach_inv hd) hw hh hdw hdh h with ⟨h1, rfl⟩ | ⟨h1, rfl⟩
  · simp [h1]
  · simp [h1]

/-- **C18** If the conversion of parameters loses nothing, the values of inputs are restored exactly. -/
theorem values_restored (hE : EnvOk E) {Q Q' : FM K V A M σ P B → Prop} (hs : Reach T a0 run E Q s) (hd : Reach T a0 run E Q' d)
    (hw : s.grid.w ≤ 256) (hh : s.grid.h ≤ 256) (hdw : s.grid.w ≤ d.grid.w) (hdh : s.grid.h ≤ d.grid.h)
    {res : Except (MatrixError (NodeId K)) Unit} (h : d.fromRepr T a0 run E (s.toRepr E).2 = some (d', res))
    (hconv : ∀ n i v, s.world.conf.getParam (.input n i) = some (.num v) → E.norm n i (E.denorm n i v) = v)
    (q : Engine.ParamId (NodeId K)) (v : Value V A) (hv : s.world.conf.getParam q = some v) : d'.world.conf.getParam q = some v := by
  have hp := (patch_round_trip_partial hE hs hd hw hh hdw hdh h).1
  cases q with
  | input n i =>
    cases v with
    | num v => rw [hp.param n i v hv, hconv n i v hv]
    | atom a => simp [Conf.getParam] at hv
  | atom n i => exact hp.atom n i v hv

/-- **C18** Loading a saved patch does not panic, if loading a pattern and a block function does not, below the limits of `sync`: no node leads to more than 64
others, the grid asks for at most 256 nodes, and no wire leads to an input with the number 32. -/
theorem load_never_panics {Q Q' : FM K V A M σ P B → Prop} (hs : Reach T a0 run E Q s) (hd : Reach T a0 run E Q' d)
    (hw : s.grid.w ≤ 256) (hh : s.grid.h ≤ 256) (hdw : s.grid.w ≤ d.grid.w) (hdh : s.grid.h ≤ d.grid.h)
    (hp : ∀ p q, (E.patLoad p q).isSome) (hb : ∀ p q, (E.funLoad p q).isSome)
    (hc : s.grid.WithinCapacity) (hf : FewNodes s.grid) (h32 : ∀ p d e, s.grid.Wire p d e → e.dstInput ≠ 32) :
    ∃ d' res, d.fromRepr T a0 run E (s.toRepr E).2 = some (d', res) := by
  obtain ⟨r, hr⟩ := fromRepr_isSome (reach_inv hs) (reach_inv hd) hw hh hdw hdh hp hb hc hf h32
  exact ⟨r.1, r.2, hr⟩

/-- **C78** `clear` never panics. -/
theorem clear_never_panics {Q : FM K V A M σ P B → Prop} (hs : Reach T a0 run E Q s) : ∃ s', s.clear T a0 run E = some s' :=
  clear_isSome (reach_inv hs).grid (reach_inv hs).reached

/-- **C78** `sync` does not panic if no node leads to more than 64 others, no more than 256 nodes exist then, and no wire leads to an input with the
number 32. It fails exactly if the grid has a loop. Missing from the full statement ("never panics"): see `input_32_panics`. -/
theorem sync_never_panics_partial {Q : FM K V A M σ P B → Prop} (hs : Reach T a0 run E Q s) (hc : s.grid.WithinCapacity)
    (hn : (s.createNodes E).world.conf.nodes.length ≤ 256) (h32 : ∀ p d e, s.grid.Wire p d e → e.dstInput ≠ 32) :
    ∃ s' res, s.sync T a0 run E = some (s', res) ∧ (res = .ok () ↔ ¬ s.grid.HasLoop) := by
  have hi := reach_inv hs
  obtain ⟨⟨s', res⟩, h⟩ := sync_isSome (E := E) hi.grid hi.reached hc hn h32
  refine ⟨s', res, h, ?_⟩
  rcases (sync_stage hi.grid h).result with ⟨h1, rfl, -⟩ | ⟨h1, rfl, -⟩ <;> simp [h1]

/-- **C78** `sync` panics if some node leads to more than 64 others. -/
theorem sync_panics_over_capacity {Q : FM K V A M σ P B → Prop} (hs : Reach T a0 run E Q s) (hc : ¬ s.grid.WithinCapacity) :
    s.sync T a0 run E = none := by
  cases h : s.sync T a0 run E with
  | none => rfl
  | some r => exact absurd (sync_stage (reach_inv hs).grid h).cap hc

/-- **C76** After a call that makes a new program (`sync`, `clear`, `from_repr`, a modulation amount that appears or disappears) and succeeds, and after any
further calls that make no new one, a block of audio computes the grid as it was when the program was made: every node in a cell once, in an order that
follows the wires, each wire carrying what its source has put out in this block, inputs without a wire showing the parameter, with the atoms and modulation
amounts set last. `Room`: the message queue is not full, and there are at most 256 nodes.

That the grid has been changed since, that a later `sync` failed, that something was monitored or saved, makes no difference. What the parameters are in
each frame is C15. -/
theorem grid_plays (hT : ∀ n, T.inCount n ≤ 32) (hs : Reach T a0 run E Room s) {op : FOp K V A P PR B BR} (ht : op.Typed) (hu : op.Uploads s)
    {s0 s1 : FM K V A M σ P B} (h : s.step T a0 run E op = some (s0, none)) (hr : Room s0) (hsince : Since T a0 run E Room s0 s1)
    {w2 w3 : World (NodeId K) V A M σ} {out : Option (BlockResult (NodeId K) V A)} {nf : Nat} {res : BlockResult (NodeId K) V A}
    (h1 : s1.world.step T a0 run .poll = some (w2, out)) (h2 : w2.step T a0 run (.process nf) = some (w3, some res)) :
    GridFlow T s0.grid s1.world.conf nf res.calls := by
  obtain ⟨t, hf⟩ := reach_follows hs
  have hi := reach_inv hs
  obtain ⟨t0, f0, p0⟩ := plays_upload two_follows hi ht (uses_follows _) hu h hr hf
  obtain ⟨-, t1, f1, p1⟩ := since_plays (inv_step hi ht h) f0 p0 hsince
  exact flow_of_plays hT f1 p1 h1 h2

/-- **C77** A patch that was saved, from whatever matrix, and is loaded without error is played as it was saved: a block of audio computes the grid of the
matrix it was saved from, with the values it had; and with values changed since. -/
theorem loaded_patch_plays (hT : ∀ n, T.inCount n ≤ 32) (hE : EnvOk E) {Q : FM K V A M σ P B → Prop} (hs : Reach T a0 run E Q s) (hd : Reach T a0 run E Room d)
    (hw : s.grid.w ≤ 256) (hh : s.grid.h ≤ 256) (hdw : s.grid.w ≤ d.grid.w) (hdh : s.grid.h ≤ d.grid.h)
    (h : d.fromRepr T a0 run E (s.toRepr E).2 = some (d', .ok ())) (hr : Room d') {s1 : FM K V A M σ P B} (hsince : Since T a0 run E Room d' s1)
    {w2 w3 : World (NodeId K) V A M σ} {out : Option (BlockResult (NodeId K) V A)} {nf : Nat} {res : BlockResult (NodeId K) V A}
    (h1 : s1.world.step T a0 run .poll = some (w2, out)) (h2 : w2.step T a0 run (.process nf) = some (w3, some res)) :
    GridFlow T s.grid s1.world.conf nf res.calls ∧ SamePatch T E s d d' := by
  have hi := reach_inv hs
  have hn := fromRepr_nodes hi (reach_inv hd) hw hh hdw hdh h
  refine ⟨hn.flow ?_, round_trip hE hi (reach_inv hd) hw hh hdw hdh h⟩
  exact grid_plays hT hd (op := .fromRepr (s.toRepr E).2) (repr_typed hi.grid) trivial (by simp only [FM.step, h, Option.map_some]; rfl) hr hsince h1 h2

/-! ## Concrete cases and violations -/

/-- Nodes of two types with two inputs, an output and an atom. -/
def exT : NodeTable (NodeId Bool) Int Nat where
  outCount := fun _ => 1
  inCount := fun _ => 2
  atCount := fun _ => 1
  normDef := fun _ i => 100 + i
  atomDef := fun _ i => 50 + i

/-- The user's unit is 1000 more; values above 1000 are clipped when loaded. Patterns and block functions are numbers, 0 if unset. Hash maps are iterated backwards. -/
def exE : Env Bool Int Nat Nat Nat Nat Nat where
  norm := fun _ _ v => if v < 2000 then v - 1000 else 1000
  denorm := fun _ _ v => v + 1000
  newPat := 0
  patUnset := fun p => p == 0
  patRepr := id
  patLoad := fun _ r => some r
  newFun := 0
  funUnset := fun p => p == 0
  funSave := id
  funLoad := fun _ r => some r
  isTSeq := fun k => k
  isCode := fun k => !k
  shP := List.reverse
  shA := List.reverse
  shS := List.reverse

theorem exE_ok : EnvOk exE := ⟨fun l => List.reverse_perm l, fun l => List.reverse_perm l, fun l => List.reverse_perm l⟩

/-- A node puts out the sum of its inputs and its instance number. -/
def exRun : Unit → CallIn (NodeId Bool) Int Nat → Unit × (Nat → Block Int) := fun u ci => (u, fun _ f => (ci.inputs.map (fun b => b f)).sum + ci.node.inst)

abbrev ExS := FM Bool Int Nat Unit Unit Nat Nat
abbrev ExOp := FOp Bool Int Nat Nat Nat Nat Nat

instance (s : ExS) : Decidable (Room s) := by unfold Room; infer_instance

/-- `CellOk`, as a test. -/
def okCell (c : Cell (NodeId Bool)) : Bool :=
  (match c.nodeId with | none => true | some n => decide (n.inst < 256)) &&
    [c.out1, c.out2, c.out3, c.in1, c.in2, c.in3].all (fun p => match p with | none => true | some i => decide (i < 256))

theorem okCell_ok {c : Cell (NodeId Bool)} (h : okCell c = true) : CellOk c := by
  simp only [okCell, Bool.and_eq_true, List.all_eq_true] at h
  refine ⟨?_, ?_⟩
  · intro n hn
    rw [hn] at h
    simpa using h.1
  · rintro p hp i rfl
    simpa using h.2 _ hp

def okOp : ExOp → Bool
  | .place _ _ c => okCell c
  | .placeCell c => okCell c
  | .placeMultiple cs => cs.all okCell
  | .fromRepr r => r.cells.all (fun c => match c.nodeId with | none => true | some n => decide (n.inst < 256))
  | _ => true

theorem okOp_ok {op : ExOp} (h : okOp op = true) : op.Typed := by
  cases op with
  | place x y c => exact okCell_ok h
  | placeCell c => exact okCell_ok h
  | placeMultiple cs =>
    intro c hc
    exact okCell_ok (List.all_eq_true.1 h c hc)
  | fromRepr r =>
    intro c hc n hn
    have := List.all_eq_true.1 h c hc
    rw [hn] at this
    simpa using this
  | _ => trivial

/-- One call that stays in the room. -/
def exStep (s : ExS) (op : ExOp) : Option ExS := if okOp op then (s.step exT 0 exRun exE op).bind (fun r => if Room r.1 then some r.1 else none) else none

def exRunOps (s : ExS) (ops : List ExOp) : Option ExS := ops.foldlM exStep s

theorem reach_ops (ops : List ExOp) : ∀ {s s' : ExS}, Reach exT 0 exRun exE Room s → exRunOps s ops = some s' → Reach exT 0 exRun exE Room s' := by
  induction ops with
  | nil => intro s s' h hs; cases hs; exact h
  | cons op ops ih =>
    intro s s' h hs
    unfold exRunOps at hs
    rw [List.foldlM_cons] at hs
    obtain ⟨s1, h1, h2⟩ := Option.bind_eq_some_iff.1 hs
    unfold exStep at h1
    split at h1
    · rename_i hop
      obtain ⟨⟨s2, err⟩, h3, h4⟩ := Option.bind_eq_some_iff.1 h1
      split at h4
      · rename_i hroom
        cases h4
        exact ih (.step h (okOp_ok hop) h3 hroom) h2
      · cases h4
    · cases h1

def cell (n : NodeId Bool) (out1 out2 out3 in1 in2 in3 : Option Nat) : Cell (NodeId Bool) :=
  { nodeId := some n, x := 0, y := 0, out1 := out1, out2 := out2, out3 := out3, in1 := in1, in2 := in2, in3 := in3 }

/-- Node 0 leads to input 1 of node 2 below it; that input has a modulation amount. Pattern 3 and block function 1 are set, and a property. -/
def exOps : List ExOp :=
  [.place 0 0 (cell ⟨true, 0⟩ none none (some 0) none none none), .place 0 1 (cell ⟨true, 2⟩ none none none (some 1) none none),
   .setInput ⟨true, 0⟩ 0 7, .setAtom ⟨true, 2⟩ 0 9, .setModamt (.input ⟨true, 2⟩ 1) (some 3), .setProp "title" 4, .editPat 3 33, .editFun 1 44, .sync,
   .poll, .process 4]

def exS : ExS := (exRunOps (FM.new 2 3 ()) exOps).getD (FM.new 2 3 ())

/-- The target: it has a node, a pattern and a property of its own. -/
def exD : ExS := (exRunOps (FM.new 3 3 ()) [.place 2 2 (cell ⟨false, 0⟩ none none none none none none), .setProp "old" 1, .editPat 5 55, .sync]).getD (FM.new 3 3 ())

def exL : Option (ExS × Except (MatrixError (NodeId Bool)) Unit) := exD.fromRepr exT 0 exRun exE (exS.toRepr exE).2

def isOk {ε : Type} : Except ε Unit → Bool
  | .ok _ => true
  | .error _ => false

def exL' : ExS := (exL.map (·.1)).getD exD

theorem exS_reach : Reach exT 0 exRun exE Room exS := by
  have h : (exRunOps (FM.new 2 3 ()) exOps).isSome := by decide +kernel
  obtain ⟨s, hs⟩ := Option.isSome_iff_exists.1 h
  have : exS = s := by unfold exS; rw [hs]; rfl
  rw [this]
  exact reach_ops exOps (.new 2 3 ()) hs

theorem exD_reach : Reach exT 0 exRun exE Room exD := by
  have h : (exRunOps (FM.new 3 3 ()) [.place 2 2 (cell ⟨false, 0⟩ none none none none none none), .setProp "old" 1, .editPat 5 55, .sync]).isSome := by
    decide +kernel
  obtain ⟨s, hs⟩ := Option.isSome_iff_exists.1 h
  have : exD = s := by unfold exD; rw [hs]; rfl
  rw [this]
  exact reach_ops _ (.new 3 3 ()) hs

theorem exL_ok : exL = some (exL', .ok ()) := by
  have h : exL.map (fun r => isOk r.2) = some true := by decide +kernel
  unfold exL'
  cases hl : exL with
  | none => rw [hl] at h; cases h
  | some r =>
    obtain ⟨a, b⟩ := r
    rw [hl] at h
    cases b with
    | ok u => rfl
    | error e => simp [isOk] at h

/-- The hypotheses of the round trip and of `loaded_patch_plays` are met. -/
example : EnvOk exE ∧ Reach exT 0 exRun exE Room exS ∧ Reach exT 0 exRun exE Room exD ∧ exS.grid.w ≤ 256 ∧ exS.grid.h ≤ 256 ∧
    exS.grid.w ≤ exD.grid.w ∧ exS.grid.h ≤ exD.grid.h ∧ exD.fromRepr exT 0 exRun exE (exS.toRepr exE).2 = some (exL', .ok ()) ∧ Room exL' ∧
    (∀ n, exT.inCount n ≤ 32) ∧ Since exT 0 exRun exE Room exL' exL' :=
  ⟨exE_ok, exS_reach, exD_reach, by decide +kernel, by decide +kernel, by decide +kernel, by decide +kernel, exL_ok, by decide +kernel,
    fun _ => (by decide : 2 ≤ 32), .refl⟩

/-- What was loaded. -/
example : (exL'.grid.get 0 1).bind (·.nodeId) = some ⟨true, 2⟩ ∧ exL'.world.conf.getParam (.input ⟨true, 0⟩ 0) = some (.num 7) ∧
    exL'.world.conf.getModamt (.input ⟨true, 2⟩ 1) = some 3 ∧ exL'.getProp "title" = some 4 ∧ exL'.getProp "old" = none ∧ exL'.patOf exE 3 = 33 ∧
    exL'.patOf exE 5 = 55 ∧ exL'.funOf exE 1 = 44 ∧ (exL'.grid.get 2 2).bind (·.nodeId) = none := by decide +kernel

/-- The calls of the next block. -/
def block (s : ExS) : Option (List (Engine.Call (NodeId Bool) Int Nat)) :=
  (s.world.step exT 0 exRun .poll).bind (fun r => (r.1.step exT 0 exRun (.process 2)).bind (fun r => r.2.map (·.calls)))

/-- It plays: node 0 with 7 and the default 101 puts out 108, input 1 of node 2 is 101 + 3 * 108. -/
example : (block exL').map (fun cs => cs.map (fun c => (c.node, c.inputs.map (fun b => (b 0, b 1)), c.atoms))) =
    some [(⟨true, 0⟩, [(7, 7), (101, 101)], [50]), (⟨true, 2⟩, [(100, 100), (425, 425)], [9])] := by decide +kernel

/-- **C18** A modulation amount of an input that has no value yet is lost. -/
theorem amount_without_value_lost : ∃ s d d' : ExS, Reach exT 0 exRun exE Room s ∧ Reach exT 0 exRun exE Room d ∧ EnvOk exE ∧
    (∃ r, d.fromRepr exT 0 exRun exE (s.toRepr exE).2 = some (d', r)) ∧
    s.world.conf.getModamt (.input ⟨true, 1⟩ 0) = some 5 ∧ d'.world.conf.getModamt (.input ⟨true, 1⟩ 0) = none := by
  have h : (exRunOps (FM.new 2 2 ()) [.setModamt (.input ⟨true, 1⟩ 0) (some 5)]).isSome := by decide +kernel
  have h2 : (((exRunOps (FM.new 2 2 ()) [.setModamt (.input ⟨true, 1⟩ 0) (some 5)]).bind (fun s =>
      (FM.fromRepr exT 0 exRun exE (FM.new 2 2 () : ExS) (s.toRepr exE).2).map (fun r => (s.world.conf.getModamt (.input ⟨true, 1⟩ 0), r.1.world.conf.getModamt (.input ⟨true, 1⟩ 0)))))) =
      some (some 5, none) := by decide +kernel
  obtain ⟨s, hs⟩ := Option.isSome_iff_exists.1 h
  rw [hs, Option.bind_some] at h2
  obtain ⟨r, hr, he⟩ := Option.map_eq_some_iff.1 h2
  simp only [Prod.mk.injEq] at he
  exact ⟨s, FM.new 2 2 (), r.1, reach_ops _ (.new 2 2 ()) hs, .new 2 2 (), exE_ok, ⟨r.2, hr⟩, he.1, he.2⟩

/-- **C18** A pattern that is not set in the patch does not replace that of the target: the loaded patch plays a pattern of the patch before. -/
theorem unset_pattern_stays : ∃ s d d' : ExS, Reach exT 0 exRun exE Room s ∧ Reach exT 0 exRun exE Room d ∧
    d.fromRepr exT 0 exRun exE (s.toRepr exE).2 = some (d', .ok ()) ∧ s.patOf exE 5 = exE.newPat ∧ d'.patOf exE 5 = 55 :=
  ⟨exS, exD, exL', exS_reach, exD_reach, exL_ok, by decide +kernel, by decide +kernel⟩

/-- **C18** A pattern above 127 is not saved unless all from 128 up to it have been asked for. -/
theorem far_pattern_not_saved : ∃ s d d' : ExS, Reach exT 0 exRun exE Room s ∧ Reach exT 0 exRun exE Room d ∧
    (∃ r, d.fromRepr exT 0 exRun exE (s.toRepr exE).2 = some (d', r)) ∧ s.patOf exE 130 = 7 ∧ d'.patOf exE 130 = exE.newPat := by
  have h : (exRunOps (FM.new 2 2 ()) [.editPat 130 7]).isSome := by decide +kernel
  have h2 : (((exRunOps (FM.new 2 2 ()) [.editPat 130 7]).bind (fun s =>
      (FM.fromRepr exT 0 exRun exE (FM.new 2 2 () : ExS) (s.toRepr exE).2).map (fun r => (s.patOf exE 130, r.1.patOf exE 130))))) =
      some (7, exE.newPat) := by decide +kernel
  obtain ⟨s, hs⟩ := Option.isSome_iff_exists.1 h
  rw [hs, Option.bind_some] at h2
  obtain ⟨r, hr, he⟩ := Option.map_eq_some_iff.1 h2
  simp only [Prod.mk.injEq] at he
  exact ⟨s, FM.new 2 2 (), r.1, reach_ops _ (.new 2 2 ()) hs, .new 2 2 (), ⟨r.2, hr⟩, he.1, he.2⟩

/-- **C18** A value that the conversion does not give back is changed by saving and loading (here one above the range). -/
theorem clipped_value_changes : ∃ s d d' : ExS, Reach exT 0 exRun exE Room s ∧ Reach exT 0 exRun exE Room d ∧
    (∃ r, d.fromRepr exT 0 exRun exE (s.toRepr exE).2 = some (d', r)) ∧ s.world.conf.getParam (.input ⟨true, 0⟩ 0) = some (.num 1500) ∧
    d'.world.conf.getParam (.input ⟨true, 0⟩ 0) = some (.num 1000) := by
  have h : (exRunOps (FM.new 2 2 ()) [.setInput ⟨true, 0⟩ 0 1500]).isSome := by decide +kernel
  have h2 : (((exRunOps (FM.new 2 2 ()) [.setInput ⟨true, 0⟩ 0 1500]).bind (fun s =>
      (FM.fromRepr exT 0 exRun exE (FM.new 2 2 () : ExS) (s.toRepr exE).2).map (fun r =>
        (s.world.conf.getParam (.input ⟨true, 0⟩ 0), r.1.world.conf.getParam (.input ⟨true, 0⟩ 0)))))) =
      some (some (.num 1500), some (.num 1000)) := by decide +kernel
  obtain ⟨s, hs⟩ := Option.isSome_iff_exists.1 h
  rw [hs, Option.bind_some] at h2
  obtain ⟨r, hr, he⟩ := Option.map_eq_some_iff.1 h2
  simp only [Prod.mk.injEq] at he
  exact ⟨s, FM.new 2 2 (), r.1, reach_ops _ (.new 2 2 ()) hs, .new 2 2 (), ⟨r.2, hr⟩, he.1, he.2⟩

/-- Some calls that make no new program. -/
def keeps : ExOp → Bool
  | .place _ _ _ => true
  | .setInput _ _ _ => true
  | .setAtom _ _ _ => true
  | .check => true
  | .save => true
  | .toRepr => true
  | .monitor _ => true
  | .poll => true
  | .process _ => true
  | _ => false

theorem since_ops (ops : List ExOp) (hk : ops.all keeps = true) : ∀ {s0 s s' : ExS}, Since exT 0 exRun exE Room s0 s → exRunOps s ops = some s' →
    Since exT 0 exRun exE Room s0 s' := by
  induction ops with
  | nil => intro s0 s s' h hs; cases hs; exact h
  | cons op ops ih =>
    intro s0 s s' h hs
    simp only [List.all_cons, Bool.and_eq_true] at hk
    unfold exRunOps at hs
    rw [List.foldlM_cons] at hs
    obtain ⟨s1, h1, h2⟩ := Option.bind_eq_some_iff.1 hs
    unfold exStep at h1
    split at h1
    · rename_i hop
      obtain ⟨⟨s2, err⟩, h3, h4⟩ := Option.bind_eq_some_iff.1 h1
      split at h4
      · rename_i hroom
        cases h4
        refine ih hk.2 (.step h (okOp_ok hop) h3 ?_ hroom) h2
        cases op <;> first | trivial | exact absurd hk.1 (by simp [keeps])
      · cases h4
    · cases h1

/-- The grid is changed, a value set, a cell monitored, the patch saved after `sync`. -/
def exLater : List ExOp :=
  [.place 0 0 (cell ⟨false, 0⟩ none none (some 0) none none none), .setInput ⟨true, 0⟩ 0 8, .toRepr, .monitor (cell ⟨true, 2⟩ none none none (some 1) none none),
   .save, .check, .setAtom ⟨true, 2⟩ 0 10]

def exS' : ExS := (exRunOps exS exLater).getD exS

/-- The hypotheses of `grid_plays` are met, with calls after `sync`. -/
example : Reach exT 0 exRun exE Room exS ∧ (FOp.sync : ExOp).Typed ∧ (FOp.sync : ExOp).Uploads exS ∧
    ∃ s0 s1, exS.step exT 0 exRun exE .sync = some (s0, none) ∧ Room s0 ∧ Since exT 0 exRun exE Room s0 s1 ∧
      (block s1).map (fun cs => cs.map (·.node)) = some [⟨true, 0⟩, ⟨true, 2⟩] ∧
      (block s1).map (fun cs => cs.map (·.atoms)) = some [[50], [10]] ∧ (s1.grid.get 0 0).bind (·.nodeId) = some ⟨false, 0⟩ := by
  have h : ((exS.step exT 0 exRun exE .sync).bind (fun r => if r.2 = none ∧ Room r.1 then some r.1 else none)).isSome := by decide +kernel
  have h2 : ((((exS.step exT 0 exRun exE .sync).bind (fun r => if r.2 = none ∧ Room r.1 then some r.1 else none)).bind (fun s => exRunOps s exLater)).map
      (fun s => decide ((block s).map (fun cs => cs.map (·.node)) = some [⟨true, 0⟩, ⟨true, 2⟩]) &&
        decide ((block s).map (fun cs => cs.map (·.atoms)) = some [[50], [10]]) && decide ((s.grid.get 0 0).bind (·.nodeId) = some ⟨false, 0⟩))) =
      some true := by decide +kernel
  obtain ⟨s0, hs⟩ := Option.isSome_iff_exists.1 h
  rw [hs, Option.bind_some] at h2
  obtain ⟨s1, h3, h4⟩ := Option.map_eq_some_iff.1 h2
  obtain ⟨⟨s0', e⟩, h5, h6⟩ := Option.bind_eq_some_iff.1 hs
  split at h6
  · rename_i hc
    cases h6
    obtain ⟨rfl, hc⟩ := hc
    simp only [Bool.and_eq_true, decide_eq_true_eq] at h4
    exact ⟨exS_reach, trivial, trivial, s0', s1, h5, hc, since_ops exLater (by decide) .refl h3, h4.1.1, h4.1.2, h4.2⟩
  · cases h6

/-- Both nodes lead to each other. -/
def exLoop : List ExOp :=
  [.place 0 0 (cell ⟨true, 0⟩ none none (some 0) none none none), .place 0 1 (cell ⟨true, 1⟩ none none (some 0) (some 0) none none),
   .place 0 2 (cell ⟨true, 0⟩ none none none (some 0) none none)]

/-- **C76** If `set_param_modamt` reports an error, the amount has been changed nevertheless: the matrix shows it, and the next successful `sync` plays it. -/
theorem rejected_amount_stays : ∃ s s' : ExS, Reach exT 0 exRun exE Room s ∧
    s.setModamt exT 0 exRun exE (.input ⟨true, 0⟩ 0) (some 5) = some (s', .error .cycleDetected) ∧
    s.world.conf.getModamt (.input ⟨true, 0⟩ 0) = none ∧ s'.world.conf.getModamt (.input ⟨true, 0⟩ 0) = some 5 := by
  have h2 : ((exRunOps (FM.new 2 3 ()) exLoop).bind (fun s =>
      (s.setModamt exT 0 exRun exE (.input ⟨true, 0⟩ 0) (some 5)).map (fun r =>
        (s.world.conf.getModamt (.input ⟨true, 0⟩ 0), r.1.world.conf.getModamt (.input ⟨true, 0⟩ 0), errOf r.2)))) =
      some (none, some 5, some .cycleDetected) := by decide +kernel
  obtain ⟨s, hs, h3⟩ := Option.bind_eq_some_iff.1 h2
  obtain ⟨⟨s', r⟩, hr, he⟩ := Option.map_eq_some_iff.1 h3
  simp only [Prod.mk.injEq] at he
  have : r = .error .cycleDetected := by
    cases r with
    | ok u => simp [errOf] at he
    | error e => simp only [errOf, Option.some.injEq] at he; rw [he.2.2]
  rw [this] at hr
  exact ⟨s, s', reach_ops _ (.new 2 3 ()) hs, hr, he.1, he.2.1⟩

/-- **C78** A wire to an input with the number 32 (`Cell::input(Some(32), ..)`) makes `sync` panic. -/
theorem input_32_panics : ∃ s : ExS, Reach exT 0 exRun exE Room s ∧ s.grid.WithinCapacity ∧ ¬ s.grid.HasLoop ∧ s.sync exT 0 exRun exE = none := by
  have h2 : ((exRunOps (FM.new 2 3 ()) [.place 0 0 (cell ⟨true, 0⟩ none none (some 0) none none none),
      .place 0 1 (cell ⟨true, 1⟩ none none none (some 32) none none)]).map (fun s =>
        (s.grid.sync.map (fun r => match r.2 with | .ok _ => true | .error _ => false), (s.sync exT 0 exRun exE).isNone))) = some (some true, true) := by
    decide +kernel
  obtain ⟨s, hs, h3⟩ := Option.map_eq_some_iff.1 h2
  simp only [Prod.mk.injEq] at h3
  have hr := reach_ops _ (.new 2 3 ()) hs
  have hwf := (reach_inv hr).grid.wfs.toWF
  obtain ⟨⟨g, r⟩, hg, hok⟩ := Option.map_eq_some_iff.1 h3.1
  have hc := Matrix.capacity_of_sync hwf (by rw [hg]; simp)
  obtain ⟨g', r', hg', -, -, -, hres⟩ := Matrix.sync_spec hwf hc
  rw [hg] at hg'
  simp only [Option.some.injEq, Prod.mk.injEq] at hg'
  obtain ⟨-, rfl⟩ := hg'
  refine ⟨s, hr, hc, ?_, by simpa using h3.2⟩
  rcases hres with ⟨-, rfl, -⟩ | ⟨hl, -⟩
  · simp at hok
  · exact hl

/-- The hypotheses of `sync_never_panics_partial` and `load_never_panics` are met. -/
example : exS.grid.WithinCapacity ∧ (exS.createNodes exE).world.conf.nodes.length ≤ 256 ∧ (∀ p d e, exS.grid.Wire p d e → e.dstInput ≠ 32) ∧
    FewNodes exS.grid ∧ (∀ p q, (exE.patLoad p q).isSome) ∧ ∀ p q, (exE.funLoad p q).isSome := by
  have hwf := (reach_inv exS_reach).grid
  have hon : ∀ n, OnGrid exS.grid n → n ∈ [(⟨true, 0⟩ : NodeId Bool), ⟨true, 2⟩] := by
    intro n hn
    have := (mem_cellNodes exS.grid n).2 hn
    have e : cellNodes exS.grid = [⟨true, 0⟩, ⟨true, 2⟩] := by decide +kernel
    rwa [e] at this
  refine ⟨Matrix.capacity_of_sync hwf.wfs.toWF ?_, by decide +kernel, ?_, ?_, fun _ _ => rfl, fun _ _ => rfl⟩
  · have : exS.grid.sync.isSome := by decide +kernel
    intro h; rw [h] at this; cases this
  · intro p d e hw he
    have hm := (Matrix.mem_allWires (p, d, e)).2 hw
    have ha : ((Matrix.allWires exS.grid).all (fun w => decide (w.2.2.dstInput ≠ 32))) = true := by decide +kernel
    have := List.all_eq_true.1 ha _ hm
    simp only [decide_eq_true_eq] at this
    exact this he
  · intro l hl hm
    have : l ⊆ [⟨true, 0⟩, ⟨true, 1⟩, ⟨true, 2⟩] := by
      intro n hn
      obtain ⟨n', h1, h2, h3⟩ := hm n hn
      have hin := hon n' h1
      obtain ⟨k, j⟩ := n
      simp only [List.mem_cons, List.not_mem_nil, or_false] at hin ⊢
      rcases hin with rfl | rfl
      · simp only at h2 h3
        have : j = 0 := by omega
        subst h2 this
        simp
      · simp only at h2 h3
        have : j = 0 ∨ j = 1 ∨ j = 2 := by omega
        subst h2
        rcases this with rfl | rfl | rfl <;> simp
    have := (List.subperm_of_subset hl this).length_le
    simp at this
    omega

end HexoDSP.PatchProps
