import Verif.Lemmas.PatchTimed
import Verif.Props.Patch
/-!
# When a knob that is turned in the matrix is heard (C90)
-/

set_option linter.unusedSectionVars false

namespace HexoDSP.PatchTimedProps
open HexoDSP.Patch HexoDSP.PatchProps HexoDSP.EngineSpec HexoDSP.NodeConfProps HexoDSP.Play HexoDSP.ParamProps HexoDSP.FlowProps
open HexoDSP.Matrix (MatrixError)
open HexoDSP.Engine

section
variable {K V A M σ P PR B BR : Type} [DecidableEq K]
variable [Add V] [Mul V] [Sub V] [Div V] [NatCast V] [OfNat V 0]
variable {T : NodeTable (NodeId K) V A} {a0 : A} {run : σ → CallIn (NodeId K) V A → σ × (Nat → Block V)} {E : Env K V A P PR B BR}
variable {s s1 s2 : FM K V A M σ P B} {h : Hand K}

theorem knows_poll (hT : ∀ n, T.inCount n ≤ 32) {w w' : World (NodeId K) V A M σ} {t : Track (NodeId K) V A} {out : Option (BlockResult (NodeId K) V A)}
    (hf : Follows T a0 run w t) (hs : w.step T a0 run .poll = some (w', out)) {n : NodeId K} (hn : n ∈ (final t).order) {i : Nat} (hi : i < T.inCount n) :
    (final t).param n i = paramIn T w.conf n i := by
  obtain ⟨hc, hconf⟩ := audio_facts (Or.inl rfl) hs t
  obtain ⟨⟨le, lc, h1, h2, h3, h5⟩, _, _⟩ := follows_sim hT (Follows.call hf hc hs)
  have := match_nil h2 rfl
  subst this
  have := h5 n (h1.carries.ord n hn) i hi
  rw [hconf.2] at this
  exact this.symm

/-- **C90** A block shows each node, for each parameter that has arrived, the value that the matrix had when the audio thread last took its messages (or the
default, if it has none) — whatever was called since, as long as the messages are not taken again. -/
theorem knob_heard_partial (hT : ∀ n, T.inCount n ≤ 32) (hs : Timely T a0 run E s h) (hg : FOp.Gentle h (.poll : FOp K V A P PR B BR))
    {err : Option (MatrixError (NodeId K))} (h1 : s.step T a0 run E .poll = some (s1, err)) {h2 : Hand K}
    (hb : Between T a0 run E s1 (h.step T s (.poll : FOp K V A P PR B BR)) s2 h2) {w3 : World (NodeId K) V A M σ} {nf : Nat} {res : BlockResult (NodeId K) V A}
    (hp : s2.world.step T a0 run (.process nf) = some (w3, some res)) (c : Call (NodeId K) V A) (hc : c ∈ res.calls) (i : Nat) (hi : i < T.inCount c.node) :
    ∃ blk, c.params[i]? = some blk ∧ ∀ f, f < nf → h2.clock.left c.node i ≤ f + 1 → blk f = paramIn T s.world.conf c.node i := by
  obtain ⟨hinv, t, hf⟩ := timely_clocked hs
  have hinv1 : Inv T a0 run s1 := inv_step (op := .poll) hinv trivial h1
  simp only [FM.step] at h1
  obtain ⟨s1', g1, g2⟩ := Option.map_eq_some_iff.1 h1
  simp only [Prod.mk.injEq] at g2
  obtain ⟨w, out, hw, rfl⟩ := call_spec g1
  obtain ⟨rfl, -⟩ := g2
  obtain ⟨-, t2, f2⟩ := between_clocked hb hinv1 (hand_poll hf hg hw)
  obtain ⟨blk, b1, b2⟩ := param_arrives_partial hT f2.1 hp c hc i hi
  refine ⟨blk, b1, fun f hf1 hf2 => ?_⟩
  rw [b2 f hf1 hf2, f2.2.2]
  refine knows_poll hT (timed_follows hf.1) hw ?_ hi
  have hord := (block_is_dataflow hT (timed_follows f2.1) hp).2.order
  have hmem := List.mem_map_of_mem (f := fun c : Call (NodeId K) V A => c.node) hc
  rw [hord, f2.2.2] at hmem
  exact hmem

/-- **C90** Turn a knob, let the audio thread take the message, process a block: from frame `slope` on the node sees the new value. -/
theorem turn_then_hear_partial (hT : ∀ n, T.inCount n ≤ 32) (hs : Timely T a0 run E s h) {n : NodeId K} {i : Nat} {v : V}
    {e1 e2 : Option (MatrixError (NodeId K))} (h1 : s.step T a0 run E (.setInput n i v) = some (s1, e1)) (hr : Room s1)
    (hg : FOp.Gentle (h.step T s (.setInput n i v : FOp K V A P PR B BR)) (.poll : FOp K V A P PR B BR))
    (h2 : s1.step T a0 run E .poll = some (s2, e2)) {w3 : World (NodeId K) V A M σ} {nf : Nat} {res : BlockResult (NodeId K) V A}
    (hp : s2.world.step T a0 run (.process nf) = some (w3, some res)) (c : Call (NodeId K) V A) (hc : c ∈ res.calls) (hn : c.node = n) (hi : i < T.inCount n) :
    ∃ blk, c.params[i]? = some blk ∧ ∀ f, f < nf → h.clock.slope ≤ f → blk f = v := by
  have hs1 : Timely T a0 run E s1 (h.step T s (.setInput n i v : FOp K V A P PR B BR)) := .step hs trivial trivial h1 hr
  obtain ⟨blk, b1, b2⟩ := knob_heard_partial hT hs1 hg h2 (.refl _ _) hp c hc i (hn ▸ hi)
  refine ⟨blk, b1, fun f hf1 hf2 => ?_⟩
  have hconf : paramIn T s1.world.conf n i = v := by
    simp only [FM.step] at h1
    obtain ⟨s1', g1, g2⟩ := Option.map_eq_some_iff.1 h1
    simp only [Prod.mk.injEq] at g2
    unfold FM.setParam at g1
    obtain ⟨s3, g3, rfl⟩ := Option.map_eq_some_iff.1 g1
    obtain ⟨w, out, hw, rfl⟩ := call_spec g3
    rw [← g2.1]
    simp only [World.step, Option.some.injEq, Prod.mk.injEq] at hw
    have hval : w.conf.getParam (.input n i) = some (.num v) := by
      rw [← hw.1, conf_sendAll]
      show (s.world.conf.setInput (M := M) n i v).1.getParam (.input n i) = _
      rw [getParam_setInput, if_pos rfl]
    simp only [paramIn, hval]
  have hlive : Live T s n i := by
    obtain ⟨hinv, t, hf⟩ := timely_clocked hs1
    have g2 := h2
    simp only [FM.step] at g2
    obtain ⟨s2', g1, g2⟩ := Option.map_eq_some_iff.1 g2
    simp only [Prod.mk.injEq] at g2
    obtain ⟨w, out, hw, rfl⟩ := call_spec g1
    obtain ⟨rfl, -⟩ := g2
    have hk := hand_poll (s := s1) hf hg hw
    have hord := (block_is_dataflow hT (timed_follows hk.1) hp).2.order
    have hmem := List.mem_map_of_mem (f := fun c : Call (NodeId K) V A => c.node) hc
    rw [hord, hn] at hmem
    have hl := playing_live hT (timed_follows hk.1) rfl hmem
    rw [(audio_facts (Or.inl rfl) hw t).2.2] at hl
    simp only [FM.step] at h1
    obtain ⟨s1', q1, q2⟩ := Option.map_eq_some_iff.1 h1
    simp only [Prod.mk.injEq] at q2
    unfold FM.setParam at q1
    obtain ⟨s3, q3, rfl⟩ := Option.map_eq_some_iff.1 q1
    obtain ⟨w1, out1, hw1, rfl⟩ := call_spec q3
    rw [← q2.1] at hl
    refine ⟨?_, hi⟩
    have := instanceOf_setInput hw1 n
    simp only at hl
    rwa [this] at hl
  rw [b2 f hf1 ?_, hn, hconf]
  have hsent : h.step T s (.setInput n i v : FOp K V A P PR B BR) = { h with sent := (n, i) :: h.sent } := if_pos hlive
  rw [hsent, hn]
  simp only [Hand.step]
  rw [if_pos List.mem_cons_self]
  omega

theorem left_hot (hs : Timely T a0 run E s h) (n : NodeId K) (i : Nat) : 0 < h.clock.left n i → h.clock.hot n i = true := by
  induction hs with
  | new w h st => intro h; cases h
  | outside st _ ih => exact ih
  | @step s s' h op err _ _ _ _ _ ih =>
    cases op with
    | setInput m j v =>
      by_cases hl : Live T s m j
      · have : h.step T s (.setInput m j v : FOp K V A P PR B BR) = { h with sent := (m, j) :: h.sent } := if_pos hl
        rw [this]; exact ih
      · have : h.step T s (.setInput m j v : FOp K V A P PR B BR) = h := if_neg hl
        rw [this]; exact ih
    | poll =>
      simp only [Hand.step]
      split
      · intro _; rfl
      · exact ih
    | process nf =>
      simp only [Hand.step, decide_eq_true_eq]
      omega
    | _ => exact ih

/-- **C90** A patch that is loaded while nothing moves plays, from the first frame of its first block on, with exactly the values the matrix has then, however
many they are. -/
theorem loaded_at_once (hT : ∀ n, T.inCount n ≤ 32) (hs : Timely T a0 run E s h) {rp : PatchRepr K V A PR BR} (ht : (FOp.fromRepr rp : FOp K V A P PR B BR).Typed)
    (hg : FOp.Gentle h (.fromRepr rp : FOp K V A P PR B BR)) {e1 e2 : Option (MatrixError (NodeId K))}
    (h1 : s.step T a0 run E (.fromRepr rp) = some (s1, e1)) (hr : Room s1) (h2 : s1.step T a0 run E .poll = some (s2, e2))
    {w3 : World (NodeId K) V A M σ} {nf : Nat} {res : BlockResult (NodeId K) V A}
    (hp : s2.world.step T a0 run (.process nf) = some (w3, some res)) (c : Call (NodeId K) V A) (hc : c ∈ res.calls) (i : Nat) (hi : i < T.inCount c.node) :
    ∃ blk, c.params[i]? = some blk ∧ ∀ f, f < nf → blk f = paramIn T s1.world.conf c.node i := by
  have hs1 : Timely T a0 run E s1 h := .step hs ht hg h1 hr
  have hz : ∀ n i, h.clock.left n i = 0 := by
    intro n i
    have := left_hot hs n i
    rw [hg.1 n i] at this
    by_contra h0
    exact absurd (this (by omega)) (by simp)
  have hpoll : FOp.Gentle h (.poll : FOp K V A P PR B BR) := by
    refine ⟨[], by simp, ?_⟩
    rintro n i (h0 | h0)
    · rw [hz] at h0; cases h0
    · rw [hg.2] at h0; cases h0
  obtain ⟨blk, b1, b2⟩ := knob_heard_partial hT hs1 hpoll h2 (.refl _ _) hp c hc i hi
  refine ⟨blk, b1, fun f hf => b2 f hf ?_⟩
  simp only [Hand.step, hg.2, hz]
  simp

end

/-! ## The theorems are not vacuous -/

/-- State, knobs, and all inputs that were ever changed. -/
abbrev ExT := ExS × Hand Bool × List (NodeId Bool × Nat)

def resets : ExOp → Bool
  | .clear => true
  | .fromRepr _ => true
  | _ => false

def touched (l : List (NodeId Bool × Nat)) : ExOp → List (NodeId Bool × Nat)
  | .setInput n i _ => (n, i) :: l
  | _ => l

/-- A gentle call that stays in the room. -/
def exGentle (x : ExT) (op : ExOp) : Option ExT :=
  if okOp op then
    (x.1.step PatchProps.exT 0 PatchProps.exRun exE op).bind (fun r =>
      if Room r.1 ∧ x.2.2.length ≤ 40 ∧
          (resets op = true → x.2.2.all (fun p => !x.2.1.clock.hot p.1 p.2) = true ∧ x.2.1.sent = []) then
        some (r.1, x.2.1.step PatchProps.exT x.1 op, touched x.2.2 op)
      else none)
  else none

def Covers (x : ExT) : Prop := ∀ n i, (0 < x.2.1.clock.left n i ∨ x.2.1.clock.hot n i = true ∨ (n, i) ∈ x.2.1.sent) → (n, i) ∈ x.2.2

theorem exGentle_ok {x x' : ExT} {op : ExOp} (hc : Covers x) (h : exGentle x op = some x') :
    Covers x' ∧ op.Typed ∧ op.Gentle x.2.1 ∧ (∃ e, x.1.step PatchProps.exT 0 PatchProps.exRun exE op = some (x'.1, e)) ∧ Room x'.1 ∧ x'.2.1 = x.2.1.step PatchProps.exT x.1 op := by
  unfold exGentle at h
  split at h
  · rename_i hop
    obtain ⟨⟨s2, err⟩, h3, h4⟩ := Option.bind_eq_some_iff.1 h
    split at h4
    · rename_i hcond
      obtain ⟨hroom, h40, hcalm⟩ := hcond
      cases h4
      have hhot : resets op = true → (∀ n i, x.2.1.clock.hot n i = false) ∧ x.2.1.sent = [] := by
        intro hm
        obtain ⟨a, b⟩ := hcalm hm
        refine ⟨fun n i => ?_, b⟩
        cases hh : x.2.1.clock.hot n i with
        | false => rfl
        | true =>
          have := List.all_eq_true.1 a _ (hc n i (Or.inr (Or.inl hh)))
          simp only [hh] at this
          cases this
      refine ⟨?_, okOp_ok hop, ?_, ⟨err, h3⟩, hroom, rfl⟩
      · cases op with
        | setInput n i v =>
          intro m j hm
          by_cases hl : Live PatchProps.exT x.1 n i
          · have : x.2.1.step PatchProps.exT x.1 (.setInput n i v : ExOp) = { x.2.1 with sent := (n, i) :: x.2.1.sent } := if_pos hl
            simp only [this, List.mem_cons] at hm
            rcases hm with hm | hm | hm | hm
            · exact List.mem_cons_of_mem _ (hc m j (Or.inl hm))
            · exact List.mem_cons_of_mem _ (hc m j (Or.inr (Or.inl hm)))
            · rw [hm]; exact List.mem_cons_self
            · exact List.mem_cons_of_mem _ (hc m j (Or.inr (Or.inr hm)))
          · have : x.2.1.step PatchProps.exT x.1 (.setInput n i v : ExOp) = x.2.1 := if_neg hl
            simp only [this] at hm
            exact List.mem_cons_of_mem _ (hc m j hm)
        | poll =>
          intro m j hm
          simp only [Hand.step, List.not_mem_nil, or_false] at hm
          by_cases hs : (m, j) ∈ x.2.1.sent
          · exact hc m j (Or.inr (Or.inr hs))
          · rw [if_neg hs, if_neg hs] at hm
            rcases hm with hm | hm
            · exact hc m j (Or.inl hm)
            · exact hc m j (Or.inr (Or.inl hm))
        | process nf =>
          intro m j hm
          simp only [Hand.step, decide_eq_true_eq] at hm
          rcases hm with hm | hm | hm
          · exact hc m j (Or.inl (by omega))
          · exact hc m j (Or.inl hm)
          · exact hc m j (Or.inr (Or.inr hm))
        | setSlope n => exact hc
        | _ => exact hc
      · cases op with
        | poll =>
          refine ⟨x.2.2, h40, ?_⟩
          rintro n i (h | h)
          · exact hc n i (Or.inl h)
          · exact hc n i (Or.inr (Or.inr h))
        | clear => exact hhot rfl
        | fromRepr r => exact hhot rfl
        | _ => trivial
    · cases h4
  · cases h

def exGo (x : ExT) (ops : List ExOp) : Option ExT := ops.foldlM exGentle x

theorem go_timely (ops : List ExOp) : ∀ {x x' : ExT}, Timely PatchProps.exT 0 PatchProps.exRun exE x.1 x.2.1 → Covers x → exGo x ops = some x' →
    Timely PatchProps.exT 0 PatchProps.exRun exE x'.1 x'.2.1 ∧ Covers x' := by
  induction ops with
  | nil => intro x x' h hc hs; cases hs; exact ⟨h, hc⟩
  | cons op ops ih =>
    intro x x' h hc hs
    unfold exGo at hs
    rw [List.foldlM_cons] at hs
    obtain ⟨x1, h1, h2⟩ := Option.bind_eq_some_iff.1 hs
    obtain ⟨a, b, c, ⟨e, d⟩, r, q⟩ := exGentle_ok hc h1
    refine ih ?_ a h2
    rw [q]
    exact .step h b c d r

def exTNew : ExT := (FM.new 2 3 (), Hand.new, [])

theorem exTNew_covers : Covers exTNew := by
  intro n i h
  simp [exTNew, Hand.new, Clock.new] at h

/-- The patch of C18 plays; input 0 of its first node goes from 7 to 8 within 4 frames. -/
def exTurn : List ExOp := PatchProps.exOps ++ [.setSlope 4, .setInput ⟨true, 0⟩ 0 8]

/-- What node `⟨true, 0⟩` sees at input 0 in a block of 8 frames. -/
def seen (s : ExS) : Option (List Int) :=
  (s.world.step PatchProps.exT 0 PatchProps.exRun (.process 8)).bind (fun r => r.2.bind (fun b => (b.calls.find? (fun c => decide (c.node = ⟨true, 0⟩))).bind (fun c =>
    (c.params[0]?).map (fun blk => (List.range 8).map blk))))

/-- The hypotheses of `turn_then_hear_partial` are met: before the last call the history is timely, the input is one of a node that plays, and one input moves.
The value is there from frame 4 on, and was on its way before. -/
example : ∃ x1 x2 : ExT, Timely PatchProps.exT 0 PatchProps.exRun exE x1.1 x1.2.1 ∧ exGentle x1 .poll = some x2 ∧ FOp.Gentle x1.2.1 (.poll : ExOp) ∧
    x1.2.1.sent = [(⟨true, 0⟩, 0)] ∧ x1.2.1.clock.slope = 4 ∧ ((seen x2.1).map (fun l => (l[0]?, l.drop 4))) = some (some 7, [8, 8, 8, 8]) := by
  have h : ((exGo exTNew exTurn).bind (fun x => (exGentle x .poll).map (fun y =>
      decide (x.2.1.sent = [(⟨true, 0⟩, 0)]) && decide (x.2.1.clock.slope = 4) &&
        decide ((seen y.1).map (fun l => (l[0]?, l.drop 4)) = some (some 7, [8, 8, 8, 8]))))) = some true := by decide +kernel
  obtain ⟨x1, h1, h2⟩ := Option.bind_eq_some_iff.1 h
  obtain ⟨x2, h3, h4⟩ := Option.map_eq_some_iff.1 h2
  simp only [Bool.and_eq_true, decide_eq_true_eq] at h4
  obtain ⟨a, b⟩ := go_timely exTurn (.new 2 3 ()) exTNew_covers h1
  exact ⟨x1, x2, a, h3, (exGentle_ok b h3).2.2.1, h4.1.1, h4.1.2, h4.2⟩

/-- The hypotheses of `loaded_at_once` are met: the knob has arrived, the patch of C18 is loaded over what plays. Its value 7 is heard from the first frame. -/
example : ∃ x1 x2 x3 : ExT, Timely PatchProps.exT 0 PatchProps.exRun exE x1.1 x1.2.1 ∧ exGentle x1 (.fromRepr (exS.toRepr exE).2) = some x2 ∧
    FOp.Gentle x1.2.1 (.fromRepr (exS.toRepr exE).2 : ExOp) ∧ exGentle x2 .poll = some x3 ∧
    x1.1.world.conf.getParam (.input ⟨true, 0⟩ 0) = some (.num 8) ∧ seen x3.1 = some [7, 7, 7, 7, 7, 7, 7, 7] := by
  have h : ((exGo exTNew (exTurn ++ [.poll, .process 4, .process 4, .process 4])).bind (fun x => (exGentle x (.fromRepr (exS.toRepr exE).2)).bind (fun y =>
      (exGentle y .poll).map (fun z => (x.1.world.conf.getParam (.input ⟨true, 0⟩ 0), seen z.1))))) =
      some (some (.num 8), some [7, 7, 7, 7, 7, 7, 7, 7]) := by decide +kernel
  obtain ⟨x1, h1, h2⟩ := Option.bind_eq_some_iff.1 h
  obtain ⟨x2, h3, h4⟩ := Option.bind_eq_some_iff.1 h2
  obtain ⟨x3, h5, h6⟩ := Option.map_eq_some_iff.1 h4
  simp only [Prod.mk.injEq] at h6
  obtain ⟨a, b⟩ := go_timely _ (.new 2 3 ()) exTNew_covers h1
  exact ⟨x1, x2, x3, a, h3, (exGentle_ok b h3).2.2.1, h5, h6.1, h6.2⟩

end HexoDSP.PatchTimedProps
