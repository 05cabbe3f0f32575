import Verif.Lemmas.Cut
import Verif.Spec.Twin
/-! Two engines that are the same but for what is left of old blocks in the buffers, and calls made to both. -/

set_option linter.unusedSectionVars false

namespace HexoDSP.Engine
open EngineSpec SmootherLemmas

variable {N V A M σ : Type} [DecidableEq N]

/-- The same program, but for the values read out last. -/
def ProgSame (p q : NodeProg N V A) : Prop := q = { p with outFb := q.outFb }

theorem ProgSame.refl (p : NodeProg N V A) : ProgSame p p := rfl

theorem ProgSame.owned {p q : NodeProg N V A} (h : ProgSame p q) : q.owned = p.owned := by rw [h]; rfl

structure ExSame (e e' : Exec N V A M) : Prop where
  smoothers : e'.smoothers = e.smoothers
  monitorIdx : e'.monitorIdx = e.monitorIdx
  injected : e'.injected = e.injected
  prog : ProgSame e.prog e'.prog

structure ShSame (s s' : Shared N V A) : Prop where
  next : s'.heap.next = s.heap.next
  freed : s'.heap.freed = s.heap.freed
  drops : s'.drops.map NodeProg.owned = s.drops.map NodeProg.owned

structure Same (w v : World N V A M σ) : Prop where
  conf : v.conf = w.conf
  queue : v.queue = w.queue
  st : v.st = w.st
  exec : ExSame w.exec v.exec
  shared : ShSame w.shared v.shared

theorem Same.refl (w : World N V A M σ) : Same w w := ⟨rfl, rfl, rfl, ⟨rfl, rfl, rfl, rfl⟩, ⟨rfl, rfl, rfl⟩⟩

theorem ShSame.pushDrop {s s' : Shared N V A} (h : ShSame s s') {p q : NodeProg N V A} (hp : q.owned = p.owned) :
    ShSame (s.pushDrop p) (s'.pushDrop q) := by
  have hl : s'.drops.length = s.drops.length := by simpa using congrArg List.length h.drops
  unfold Shared.pushDrop
  rw [hl]
  split
  · exact ⟨h.next, h.freed, by simp [h.drops, hp]⟩
  · exact ⟨h.next, by simp [NodeProg.drop, Heap.free, h.freed, hp], h.drops⟩

theorem fills_same (l : List (BufId × V)) : ∀ h : Heap V, (l.foldl (fun h bv => h.fill bv.1 bv.2) h).next = h.next ∧
    (l.foldl (fun h bv => h.fill bv.1 bv.2) h).freed = h.freed := by
  induction l with
  | nil => intro h; exact ⟨rfl, rfl⟩
  | cons x l ih => intro h; exact ih (h.fill x.1 x.2)

theorem ShSame.init {s s' : Shared N V A} (h : ShSame s s') (p : NodeProg N V A) :
    ShSame { s with heap := p.initInputBuffers s.heap } { s' with heap := p.initInputBuffers s'.heap } := by
  unfold NodeProg.initInputBuffers
  exact ⟨by simp only [(fills_same _ _).1, h.next], by simp only [(fills_same _ _).2, h.freed], h.drops⟩

theorem swap_same {p prev prev' : NodeProg N V A} (h : ProgSame prev prev') :
    (p.swapPrevious prev').1 = (p.swapPrevious prev).1 ∧ (p.swapPrevious prev').2.owned = (p.swapPrevious prev).2.owned := by
  obtain ⟨a, b, c, d, e, f, g, l, o⟩ := prev
  unfold ProgSame at h
  simp only at h
  rw [h]
  cases l <;> exact ⟨rfl, rfl⟩

section
variable [Sub V] [Div V] [NatCast V]

theorem setParam_same {e e' : Exec N V A M} (h : ExSame e e') (i : Nat) (x : V) : ExSame (e.setParam i x) (e'.setParam i x) := by
  unfold Exec.setParam
  have hp : e'.prog.params = e.prog.params := by rw [h.prog]
  rw [hp, h.smoothers]
  cases e.prog.params[i]? with
  | none => exact h
  | some cur =>
    simp only
    cases retarget i cur x e.smoothers with
    | none => exact ⟨rfl, h.monitorIdx, h.injected, h.prog⟩
    | some ss => exact ⟨rfl, h.monitorIdx, h.injected, h.prog⟩

theorem apply_same {e e' e1 : Exec N V A M} {s s' s1 : Shared N V A} {m : Msg N V A M} (he : ExSame e e') (hs : ShSame s s')
    (h : e.apply s m = some (e1, s1)) : ∃ e1' s1', e'.apply s' m = some (e1', s1') ∧ ExSame e1 e1' ∧ ShSame s1 s1' := by
  cases m with
  | clear p =>
    simp only [Exec.apply, Option.some.injEq, Prod.mk.injEq] at h ⊢
    obtain ⟨rfl, rfl⟩ := h
    exact ⟨_, _, ⟨rfl, rfl⟩, ⟨he.smoothers, rfl, he.injected, rfl⟩, hs.pushDrop he.prog.owned⟩
  | newProg p copy =>
    cases copy with
    | false =>
      simp only [Exec.apply] at h ⊢
      simp only [Bool.false_eq_true, if_false] at h ⊢
      cases hx : p.assignOutputs with
      | none => rw [hx] at h; cases h
      | some q =>
        rw [hx] at h
        simp only [Option.some.injEq, Prod.mk.injEq] at h ⊢
        obtain ⟨rfl, rfl⟩ := h
        exact ⟨_, _, ⟨rfl, rfl⟩, ⟨he.smoothers, rfl, he.injected, rfl⟩, (hs.init p).pushDrop he.prog.owned⟩
    | true =>
      simp only [Exec.apply] at h ⊢
      simp only [if_true] at h ⊢
      obtain ⟨w1, w2⟩ := swap_same (p := p) he.prog
      rw [w1]
      cases hx : (p.swapPrevious e.prog).1.assignOutputs with
      | none => rw [hx] at h; cases h
      | some q =>
        rw [hx] at h
        simp only [Option.some.injEq, Prod.mk.injEq] at h ⊢
        obtain ⟨rfl, rfl⟩ := h
        exact ⟨_, _, ⟨rfl, rfl⟩, ⟨he.smoothers, rfl, he.injected, rfl⟩, (hs.init p).pushDrop w2⟩
  | atomUpdate i a =>
    simp only [Exec.apply] at h ⊢
    have hp : e'.prog.atoms = e.prog.atoms := by rw [he.prog]
    rw [hp]
    split at h
    · rename_i hlt
      rw [if_pos hlt]
      simp only [Option.some.injEq, Prod.mk.injEq] at h ⊢
      obtain ⟨rfl, rfl⟩ := h
      refine ⟨_, _, ⟨rfl, rfl⟩, ⟨he.smoothers, he.monitorIdx, he.injected, ?_⟩, hs⟩
      have := he.prog
      unfold ProgSame at this ⊢
      simp only
      conv_lhs => rw [this]
    · cases h
  | paramUpdate i x =>
    simp only [Exec.apply, Option.some.injEq, Prod.mk.injEq] at h ⊢
    obtain ⟨rfl, rfl⟩ := h
    exact ⟨_, _, ⟨rfl, rfl⟩, setParam_same he i x, hs⟩
  | modamtUpdate i x =>
    simp only [Exec.apply, Option.some.injEq, Prod.mk.injEq] at h ⊢
    obtain ⟨rfl, rfl⟩ := h
    refine ⟨_, _, ⟨rfl, rfl⟩, ⟨he.smoothers, he.monitorIdx, he.injected, ?_⟩, hs⟩
    have := he.prog
    unfold ProgSame at this ⊢
    unfold Exec.setModamt
    simp only
    have hm : e'.prog.modops = e.prog.modops := by rw [this]
    rw [hm]
    conv_lhs => rw [this]
  | setMonitor b =>
    simp only [Exec.apply, Option.some.injEq, Prod.mk.injEq] at h ⊢
    obtain ⟨rfl, rfl⟩ := h
    exact ⟨_, _, ⟨rfl, rfl⟩, ⟨he.smoothers, rfl, he.injected, he.prog⟩, hs⟩
  | injectMidi ev =>
    simp only [Exec.apply, Option.some.injEq, Prod.mk.injEq] at h ⊢
    obtain ⟨rfl, rfl⟩ := h
    refine ⟨_, _, ⟨rfl, rfl⟩, ?_, hs⟩
    rw [he.injected]
    split
    · exact ⟨he.smoothers, he.monitorIdx, rfl, he.prog⟩
    · exact he

theorem applyAll_same (ms : List (Msg N V A M)) : ∀ {e e' e1 : Exec N V A M} {s s' s1 : Shared N V A}, ExSame e e' → ShSame s s' →
    e.applyAll s ms = some (e1, s1) → ∃ e1' s1', e'.applyAll s' ms = some (e1', s1') ∧ ExSame e1 e1' ∧ ShSame s1 s1' := by
  induction ms with
  | nil =>
    intro e e' e1 s s' s1 he hs h
    simp only [Exec.applyAll, Option.some.injEq, Prod.mk.injEq] at h ⊢
    obtain ⟨rfl, rfl⟩ := h
    exact ⟨_, _, ⟨rfl, rfl⟩, he, hs⟩
  | cons m ms ih =>
    intro e e' e1 s s' s1 he hs h
    simp only [Exec.applyAll] at h ⊢
    cases hx : e.apply s m with
    | none => rw [hx] at h; cases h
    | some r =>
      obtain ⟨e2, s2⟩ := r
      rw [hx] at h
      obtain ⟨e2', s2', q1, q2, q3⟩ := apply_same he hs hx
      rw [q1]
      exact ih q2 q3 h

end

theorem send_same {w v : World N V A M σ} (h : Same w v) (m : Msg N V A M) : Same (w.send m) (v.send m) := by
  unfold World.send
  rw [h.queue]
  split
  · exact ⟨h.conf, rfl, h.st, h.exec, h.shared⟩
  · exact ⟨h.conf, rfl, h.st, h.exec, h.shared.next, by simp [Heap.free, h.shared.freed], h.shared.drops⟩

theorem sendAll_same (ms : List (Msg N V A M)) : ∀ {w v : World N V A M σ}, Same w v → Same (w.sendAll ms) (v.sendAll ms) := by
  induction ms with
  | nil => intro w v h; exact h
  | cons m ms ih => intro w v h; exact ih (send_same h m)

/-- A program is built from the configuration and fresh buffers. -/
theorem build_same [OfNat V 0] {T : NodeTable N V A} {a0 : A} {c c1 : Conf N V A} {h h' h1 : Heap V} {order : List N} {es : List (Conn N)}
    {p : NodeProg N V A} (hn : h'.next = h.next) (hf : h'.freed = h.freed) (hb : c.buildProg T a0 h order es = some (c1, p, h1)) :
    ∃ h1', c.buildProg T a0 h' order es = some (c1, p, h1') ∧ h1'.next = h1.next ∧ h1'.freed = h1.freed := by
  obtain ⟨n', d', f'⟩ := h'
  obtain ⟨n, d, f⟩ := h
  simp only at hn hf
  subst hn hf
  simp only [Conf.buildProg, Conf.rebuildPorts, NodeProg.new, Heap.alloc] at hb ⊢
  obtain ⟨⟨c2, p2⟩, hx, he⟩ := Option.map_eq_some_iff.1 hb
  simp only [Prod.mk.injEq] at he
  obtain ⟨rfl, rfl, rfl⟩ := he
  rw [hx]
  exact ⟨_, rfl, rfl, rfl⟩

section
variable [Add V] [Mul V] [Sub V] [Div V] [NatCast V] [OfNat V 0]

/-- A call that plays nothing has the same effect on both. -/
theorem step_same {T : NodeTable N V A} {a0 : A} {run : σ → CallIn N V A → σ × (Nat → Block V)} {w v w' : World N V A M σ}
    {op : EOp N V A M} {out : Option (BlockResult N V A)} (h : Same w v) (hop : ∀ nf, op ≠ .process nf)
    (hs : w.step T a0 run op = some (w', out)) : ∃ v', v.step T a0 run op = some (v', out) ∧ Same w' v' := by
  cases op with
  | process nf => exact absurd rfl (hop nf)
  | createNode n =>
    simp only [World.step, Option.some.injEq, Prod.mk.injEq] at hs ⊢
    obtain ⟨rfl, rfl⟩ := hs
    exact ⟨_, ⟨rfl, rfl⟩, by simp only [h.conf], h.queue, h.st, h.exec, h.shared⟩
  | deleteNodes =>
    simp only [World.step, Option.some.injEq, Prod.mk.injEq] at hs ⊢
    obtain ⟨rfl, rfl⟩ := hs
    refine ⟨_, ⟨rfl, rfl⟩, ?_⟩
    exact sendAll_same _ ⟨rfl, h.queue, h.st, h.exec, h.shared⟩
  | setInput n i x =>
    simp only [World.step, Option.some.injEq, Prod.mk.injEq] at hs ⊢
    obtain ⟨rfl, rfl⟩ := hs
    refine ⟨_, ⟨rfl, rfl⟩, ?_⟩
    rw [h.conf]
    exact sendAll_same _ ⟨rfl, h.queue, h.st, h.exec, h.shared⟩
  | setAtom n i x =>
    simp only [World.step, Option.some.injEq, Prod.mk.injEq] at hs ⊢
    obtain ⟨rfl, rfl⟩ := hs
    refine ⟨_, ⟨rfl, rfl⟩, ?_⟩
    rw [h.conf]
    exact sendAll_same _ ⟨rfl, h.queue, h.st, h.exec, h.shared⟩
  | setModamt p x =>
    simp only [World.step, Option.some.injEq, Prod.mk.injEq] at hs ⊢
    obtain ⟨rfl, rfl⟩ := hs
    refine ⟨_, ⟨rfl, rfl⟩, ?_⟩
    rw [h.conf]
    exact sendAll_same _ ⟨rfl, h.queue, h.st, h.exec, h.shared⟩
  | sync order es copy =>
    simp only [World.step] at hs ⊢
    obtain ⟨⟨c1, p, h1⟩, hx, he⟩ := Option.map_eq_some_iff.1 hs
    simp only [Prod.mk.injEq] at he
    obtain ⟨rfl, rfl⟩ := he
    rw [h.conf]
    obtain ⟨h1', q1, q2, q3⟩ := build_same h.shared.next h.shared.freed hx
    rw [q1]
    refine ⟨_, rfl, ?_⟩
    refine send_same ?_ _
    exact ⟨rfl, h.queue, h.st, h.exec, q2, q3, h.shared.drops⟩
  | monitor n ins outs =>
    simp only [World.step, Option.some.injEq, Prod.mk.injEq] at hs ⊢
    obtain ⟨rfl, rfl⟩ := hs
    refine ⟨_, ⟨rfl, rfl⟩, ?_⟩
    rw [h.conf]
    exact sendAll_same _ h
  | injectMidi ev =>
    simp only [World.step, Option.some.injEq, Prod.mk.injEq] at hs ⊢
    obtain ⟨rfl, rfl⟩ := hs
    exact ⟨_, ⟨rfl, rfl⟩, send_same h _⟩
  | poll =>
    simp only [World.step] at hs ⊢
    obtain ⟨⟨e1, s1⟩, hx, he⟩ := Option.map_eq_some_iff.1 hs
    simp only [Prod.mk.injEq] at he
    obtain ⟨rfl, rfl⟩ := he
    obtain ⟨e1', s1', q1, q2, q3⟩ := applyAll_same _ h.exec h.shared hx
    rw [h.queue, q1]
    exact ⟨_, rfl, h.conf, rfl, h.st, q2, q3⟩
  | dropOne =>
    simp only [World.step] at hs ⊢
    have hd := h.shared.drops
    cases hx : w.shared.drops with
    | nil =>
      rw [hx] at hs hd
      simp only [List.map_nil, List.map_eq_nil_iff] at hd
      simp only [Option.some.injEq, Prod.mk.injEq] at hs
      obtain ⟨rfl, rfl⟩ := hs
      rw [hd]
      exact ⟨_, rfl, h⟩
    | cons p ps =>
      rw [hx] at hs hd
      simp only [Option.some.injEq, Prod.mk.injEq] at hs
      obtain ⟨rfl, rfl⟩ := hs
      cases hy : v.shared.drops with
      | nil => rw [hy] at hd; simp at hd
      | cons q qs =>
        rw [hy, List.map_cons, List.map_cons, List.cons.injEq] at hd
        refine ⟨_, rfl, h.conf, h.queue, h.st, h.exec, h.shared.next, ?_, hd.2⟩
        simp [NodeProg.drop, Heap.free, h.shared.freed, hd.1]
  | setSlope n =>
    simp only [World.step, Option.some.injEq, Prod.mk.injEq] at hs ⊢
    obtain ⟨rfl, rfl⟩ := hs
    refine ⟨_, ⟨rfl, rfl⟩, h.conf, h.queue, h.st, ⟨?_, h.exec.monitorIdx, h.exec.injected, h.exec.prog⟩, h.shared⟩
    simp only [Exec.setSlope, h.exec.smoothers]

end

/-! ### What blocks leave behind -/

section
variable [Add V]

theorem after_stays (s : Smoother V) (hd : s.done = false) {a : Nat} (ha : s.count < a) (b : Nat) : (s.after a).after b = s.after a := by
  induction b with
  | zero => rfl
  | succ b ih =>
    have h1 : (s.after a).count = 0 := by rw [count_after]; omega
    have h2 : (s.after a).done = true := by rw [done_after s hd]; simpa using ha
    have key : ∀ x : Smoother V, x.count = 0 → x.done = true → x.next.2 = x := by
      rintro ⟨_, _, _, _, c, d⟩ rfl rfl
      rfl
    simp only [Smoother.after, ih]
    exact key _ h1 h2

theorem pool_add (ss : List (Nat × Smoother V)) (a b : Nat) :
    (ss.map (fun x => if x.2.done then x else (x.1, x.2.after a))).map (fun x => if x.2.done then x else (x.1, x.2.after b)) =
    ss.map (fun x => if x.2.done then x else (x.1, x.2.after (a + b))) := by
  rw [List.map_map]
  apply List.map_congr_left
  intro x _
  simp only [Function.comp_def]
  cases hd : x.2.done with
  | true => simp [hd]
  | false =>
    simp only [Bool.false_eq_true, if_false]
    rw [done_after _ hd]
    by_cases hc : x.2.count < a
    · simp only [hc, decide_true, if_true]
      rw [← after_add, after_stays _ hd hc]
    · simp only [hc, decide_false, Bool.false_eq_true, if_false, after_add]

theorem pool_zero (ss : List (Nat × Smoother V)) : ss.map (fun x => if x.2.done then x else (x.1, x.2.after 0)) = ss := by
  conv_rhs => rw [← List.map_id ss]
  apply List.map_congr_left
  intro x _
  simp [Smoother.after]

/-- Going on from where the parameter has come to. -/
theorem course_on {ss : List (Nat × Smoother V)} {g : Nat} {c : V} (hnd : (busy ss).Nodup) {nf : Nat} (hnf : 0 < nf) (f : Nat)
    [Mul V] [OfNat V 0] :
    course (ss.map (fun x => if x.2.done then x else (x.1, x.2.after nf))) g (course ss g c (nf - 1)) f = course ss g c (f + nf) := by
  have hnd' := hnd.sublist (busy_after_sublist ss nf)
  by_cases hb : g ∈ busy ss
  · obtain ⟨s, h1, h2⟩ := mem_busy.1 hb
    rw [course_busy (c := c) hnd h1 h2]
    by_cases hc : nf ≤ s.count
    · have hm : (g, s.after nf) ∈ ss.map (fun x => if x.2.done then x else (x.1, x.2.after nf)) :=
        List.mem_map.2 ⟨(g, s), h1, by simp [h2]⟩
      rw [course_busy hnd' hm (by rw [done_after s h2]; simpa using hc), out_add]
    · have e : s.out (nf - 1) = s.target := out_target s (by omega)
      have e' : s.out (f + nf) = course ss g s.target (f + nf) := by rw [course_busy (c := s.target) hnd h1 h2]
      rw [e, e']
      refine course_shift (c := s.target) hnd ?_ nf f
      intro s' q1 q2
      have h3 := course_busy (c := c) hnd h1 h2
      rw [course_busy hnd q1 q2] at h3
      have e1 : s'.out (s'.count + s.count) = s'.target := out_target s' (by omega)
      have e2 : s.out (s'.count + s.count) = s.target := out_target s (by omega)
      rw [← e1, ← e2, h3]
  · have hb' := fun h => hb ((busy_after_sublist ss nf).subset h)
    rw [course_idle hb, course_idle hb']

end

section
variable [Add V] [Mul V] [Sub V] [Div V] [NatCast V] [OfNat V 0]

theorem processSmoothers_params {T : NodeTable N V A} {l : Layout N V} {now : Playing N V A} {k : Clock N}
    {e e1 : Exec N V A M} {h h1 : Heap V} {nf : Nat} (hp : ParInv T l now k e h) (hc : Carries T l now e.prog)
    (hnd : e.prog.inp.Nodup) (hnf : 0 < nf) (he : e.processSmoothers h nf = some (e1, h1)) (g : Nat) :
    e1.prog.params[g]? = (e.prog.params[g]?).map (fun c => course e.smoothers g c (nf - 1)) := by
  have hfr : ∀ r ∈ e.targetRefresh.reverse, r.1 < e.prog.inp.length := by
    intro r hr
    obtain ⟨n, i, q1, q2, q3, _⟩ := hp.fresh r (List.mem_reverse.1 hr)
    rw [q3]
    exact inIdx_lt hc q1 q2
  obtain ⟨h0, r1, r2⟩ := refreshTargets_spec hnd e.targetRefresh.reverse h hfr
  have hb : ∀ g ∈ busy e.smoothers, g < e.prog.inp.length := by
    intro g hg
    obtain ⟨s, h1, h2⟩ := mem_busy.1 hg
    obtain ⟨n, i, q1, q2, q3, _⟩ := hp.run g s h1 h2
    rw [q3]
    exact inIdx_lt hc q1 q2
  obtain ⟨ss, a, s1, s2⟩ := runSmoothers_spec hnd hnf e.smoothers { heap := h0, params := e.prog.params, refresh := [] }
    hp.nodup hb
  unfold Exec.processSmoothers at he
  rw [r1] at he
  simp only [s1, Option.some.injEq, Prod.mk.injEq] at he
  obtain ⟨rfl, rfl⟩ := he
  simp only
  by_cases hbz : g ∈ busy e.smoothers
  · obtain ⟨s, q1, q2⟩ := mem_busy.1 hbz
    by_cases hlt : g < e.prog.params.length
    · rw [s2.params g s q1 q2 hlt, List.getElem?_eq_getElem hlt, Option.map_some, course_busy hp.nodup q1 q2]
    · rw [List.getElem?_eq_none (by rw [s2.parLen]; exact Nat.le_of_not_lt hlt), List.getElem?_eq_none (Nat.le_of_not_lt hlt)]
      rfl
  · rw [s2.paramsElse g hbz]
    simp only [course_idle hbz, Option.map_id']

/-- What is left of some blocks, besides what is in the buffers. -/
structure Left (e e' : Exec N V A M) (len : Nat) : Prop where
  smoothers : e'.smoothers = e.smoothers.map (fun x => if x.2.done then x else (x.1, x.2.after len))
  monitorIdx : e'.monitorIdx = e.monitorIdx
  injected : e'.injected = e.injected
  prog : e'.prog = { e.prog with params := e'.prog.params, outFb := e'.prog.outFb }
  params : ∀ g : Nat, e'.prog.params[g]? = if len = 0 then e.prog.params[g]? else (e.prog.params[g]?).map (fun c => course e.smoothers g c (len - 1))

theorem process_left {T : NodeTable N V A} {l : Layout N V} {now : Playing N V A} {k : Clock N}
    {run : σ → CallIn N V A → σ × (Nat → Block V)} {e e' : Exec N V A M} {h h' : Heap V} {st st' : σ} {nf : Nat}
    {r : BlockResult N V A} (hp : ParInv T l now k e h) (hpl : Plays T l now e.prog) (hnd : e.prog.owned.Nodup)
    (hpr : e.process run h st nf = some (e', h', st', r)) : Left e e' nf := by
  obtain ⟨hnf, _, _, _, _, q6, _⟩ := process_course hp hpl hnd hpr
  obtain ⟨_, t1, t2, t3, t4, t5, t6, t7, t8, t9⟩ := process_touches run hpr
  refine ⟨q6, t7, t8, ?_, fun g => ?_⟩
  · show _ = NodeProg.mk e.prog.inp e.prog.curInp e.prog.out _ e.prog.atoms e.prog.prog e.prog.modops e.prog.locked _
    rw [← t1, ← t2, ← t3, ← t4, ← t5, ← t6, ← t9]
  · rw [if_neg (by omega)]
    unfold Exec.process at hpr
    rw [if_neg (by omega)] at hpr
    cases hx : e.processSmoothers h nf with
    | none => rw [hx] at hpr; cases hpr
    | some r1 =>
      obtain ⟨e1, h1⟩ := r1
      rw [hx] at hpr
      simp only at hpr
      rw [← processSmoothers_params hp hpl.carries (sep_of_owned hnd).inp hnf.1 hx g]
      split at hpr
      · cases hpr
      · split at hpr
        · cases hpr
        · simp only [Option.some.injEq, Prod.mk.injEq] at hpr
          rw [← hpr.1]

theorem Left.trans {e e1 e2 : Exec N V A M} {a b : Nat} (hnd : (busy e.smoothers).Nodup) (ha : 0 < a) (h : Left e e1 a) (h' : Left e1 e2 b) :
    Left e e2 (a + b) := by
  refine ⟨by rw [h'.smoothers, h.smoothers, pool_add], by rw [h'.monitorIdx, h.monitorIdx], by rw [h'.injected, h.injected], ?_, fun g => ?_⟩
  · have := h'.prog
    rw [h.prog] at this
    exact this
  · rw [h'.params g, h.params g, if_neg (show ¬ a = 0 by omega), if_neg (show ¬ a + b = 0 by omega)]
    by_cases hb : b = 0
    · rw [if_pos hb, hb, Nat.add_zero]
    · rw [if_neg hb, Option.map_map, h.smoothers]
      congr 1
      funext c
      simp only [Function.comp_def]
      rw [course_on hnd ha]
      congr 1
      omega

theorem cut_left {T : NodeTable N V A} {a0 : A} {run : σ → CallIn N V A → σ × (Nat → Block V)} {l : Layout N V} {pl : Playing N V A}
    {w w' : World N V A M σ} {rs : List (Nat × BlockResult N V A)} (hcut : Cut T a0 run w rs w') :
    ∀ k : Clock N, Plays T l pl w.exec.prog → ParInv T l pl k w.exec w.shared.heap → w.exec.prog.owned.Nodup →
    Left w.exec w'.exec (total rs) ∧ w'.conf = w.conf ∧ w'.queue = w.queue ∧ ShSame w.shared w'.shared := by
  induction hcut with
  | nil w =>
    intro k _ _ _
    exact ⟨⟨(pool_zero _).symm, rfl, rfl, rfl, fun g => rfl⟩, rfl, rfl, rfl, rfl, rfl⟩
  | @cons w w1 w2 nf r rs hs _ ih =>
    intro k hpl hpar hnd
    simp only [World.step] at hs
    obtain ⟨⟨e', h', st', r'⟩, hb, heq⟩ := Option.map_eq_some_iff.1 hs
    simp only [Prod.mk.injEq, Option.some.injEq] at heq
    obtain ⟨rfl, rfl⟩ := heq
    obtain ⟨hnf, p1, p2, p3, _, _, _⟩ := process_course hpar hpl hnd hb
    have hl := process_left hpar hpl hnd hb
    obtain ⟨i1, i2, i3, i4⟩ := ih (k.block nf) p1 p2 p3
    obtain ⟨ht, _⟩ := process_touches run hb
    exact ⟨hl.trans hpar.nodup hnf.1 i1, i2, i3, i4.next.trans ht.next, i4.freed.trans ht.freed, i4.drops⟩

/-- Two cuts of the same number of frames leave the same behind. -/
theorem left_same {e e1 f f1 : Exec N V A M} {len : Nat} (h : ExSame e f) (h1 : Left e e1 len) (h2 : Left f f1 len) : ExSame e1 f1 := by
  refine ⟨by rw [h1.smoothers, h2.smoothers, h.smoothers], by rw [h1.monitorIdx, h2.monitorIdx, h.monitorIdx],
    by rw [h1.injected, h2.injected, h.injected], ?_⟩
  have hp : f1.prog.params = e1.prog.params := by
    apply List.ext_getElem?
    intro g
    have : f.prog.params = e.prog.params := by rw [h.prog]
    rw [h1.params, h2.params, h.smoothers, this]
  have h3 := h2.prog
  rw [h.prog, hp] at h3
  unfold ProgSame
  rw [h1.prog]
  exact h3

theorem total_zero {T : NodeTable N V A} {a0 : A} {run : σ → CallIn N V A → σ × (Nat → Block V)}
    {w w' : World N V A M σ} {rs : List (Nat × BlockResult N V A)} (hcut : Cut T a0 run w rs w') : ∀ b ∈ rs, 0 < b.1 := by
  induction hcut with
  | nil w => intro b hb; cases hb
  | @cons w w1 w2 nf r rs hs _ ih =>
    intro b hb
    rcases List.mem_cons.1 hb with rfl | hb
    · simp only [World.step] at hs
      obtain ⟨x, hx, _⟩ := Option.map_eq_some_iff.1 hs
      unfold Exec.process at hx
      by_cases h0 : nf = 0 ∨ 128 < nf
      · rw [if_pos h0] at hx; cases hx
      · simp only; omega
    · exact ih b hb

end

end HexoDSP.Engine
