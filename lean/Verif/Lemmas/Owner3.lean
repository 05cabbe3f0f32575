import Verif.Lemmas.Owner2
/-! Ownership of the sample buffers in all histories. -/

set_option linter.unusedSectionVars false

namespace HexoDSP.Engine
open EngineSpec

variable {N V A M σ : Type} [DecidableEq N]

/-- The program carried by a message. -/
def Msg.prog? : Msg N V A M → Option (NodeProg N V A)
  | .clear p => some p
  | .newProg p _ => some p
  | _ => none

/-- The programs in a message queue refer to nothing yet. -/
def QueueFresh (q : List (Msg N V A M)) : Prop := ∀ m ∈ q, ∀ p, m.prog? = some p → Unlinked p

theorem unlinked_empty : Unlinked (NodeProg.empty : NodeProg N V A) :=
  ⟨fun b h => by simp [NodeProg.empty] at h, fun mo h => by simp [NodeProg.empty] at h⟩

/-- Number of owners of a buffer in the parts of the engine that poll changes. -/
def cnt (e : Exec N V A M) (s : Shared N V A) (b : BufId) : Nat :=
  e.prog.owned.count b + (s.drops.flatMap NodeProg.owned).count b + s.heap.freed.count b

theorem pushDrop_cnt (s : Shared N V A) (p : NodeProg N V A) (b : BufId) :
    ((s.pushDrop p).drops.flatMap NodeProg.owned).count b + (s.pushDrop p).heap.freed.count b =
    (s.drops.flatMap NodeProg.owned).count b + s.heap.freed.count b + p.owned.count b := by
  unfold Shared.pushDrop
  split
  · simp [List.flatMap_append]; omega
  · simp [NodeProg.drop, Heap.free]; omega

theorem pushDrop_next (s : Shared N V A) (p : NodeProg N V A) : (s.pushDrop p).heap.next = s.heap.next ∧
    (s.pushDrop p).heap.data = s.heap.data := by
  unfold Shared.pushDrop
  split <;> exact ⟨rfl, rfl⟩

theorem initInputBuffers_touches (p : NodeProg N V A) (h : Heap V) : Touches p.owned h (p.initInputBuffers h) := by
  unfold NodeProg.initInputBuffers
  have key : ∀ (l : List (BufId × V)) (h : Heap V), (∀ x ∈ l, x.1 ∈ p.owned) →
      Touches p.owned h (l.foldl (fun h bv => h.fill bv.1 bv.2) h) := by
    intro l
    induction l with
    | nil => intro h _; exact .refl _ _
    | cons x l ih =>
      intro h hl
      exact (touches_write (hl x (List.mem_cons_self ..)) h _).trans (ih _ (fun y hy => hl y (List.mem_cons_of_mem _ hy)))
  refine key _ _ ?_
  intro x hx
  have := (List.of_mem_zip hx).1
  simp [NodeProg.owned, this]

section
variable [Sub V] [Div V] [NatCast V]

theorem setParam_prog (e : Exec N V A M) (i : Nat) (v : V) : (e.setParam i v).prog = e.prog := by
  unfold Exec.setParam
  split
  · rfl
  · split <;> rfl

theorem apply_owner {e e' : Exec N V A M} {s s' : Shared N V A} {m : Msg N V A M} (he : RefsOwn e.prog)
    (hm : ∀ p, m.prog? = some p → Unlinked p) (h : e.apply s m = some (e', s')) :
    RefsOwn e'.prog ∧ s'.heap.next = s.heap.next ∧ ∀ b, cnt e' s' b = cnt e s b + m.owned.count b := by
  cases m with
  | clear p =>
    simp only [Exec.apply, Option.some.injEq, Prod.mk.injEq] at h
    obtain ⟨rfl, rfl⟩ := h
    refine ⟨(hm p rfl).refs, (pushDrop_next _ _).1, fun b => ?_⟩
    have := pushDrop_cnt s e.prog b
    show p.owned.count b + _ + _ = (_ + _ + _) + p.owned.count b
    omega
  | newProg p co =>
    simp only [Exec.apply] at h
    cases hx : (if co then p.swapPrevious e.prog else (p, e.prog)) with
    | mk q prev =>
      rw [hx] at h
      simp only at h
      have hq : Unlinked q ∧ ∀ b, q.owned.count b + prev.owned.count b = p.owned.count b + e.prog.owned.count b := by
        cases co with
        | false =>
          simp only [Bool.false_eq_true, if_false, Prod.mk.injEq] at hx
          obtain ⟨rfl, rfl⟩ := hx
          exact ⟨hm p rfl, fun b => rfl⟩
        | true =>
          simp only [if_true] at hx
          obtain ⟨h1, h2, _⟩ := swapPrevious_spec (prev := e.prog) (hm p rfl)
          rw [hx] at h1 h2
          refine ⟨h1, fun b => ?_⟩
          have := h2.count_eq b
          simpa [List.count_append] using this
      cases ha : q.assignOutputs with
      | none => simp [ha] at h
      | some r =>
        simp only [ha, Option.some.injEq, Prod.mk.injEq] at h
        obtain ⟨rfl, rfl⟩ := h
        obtain ⟨h1, h2⟩ := assignOutputs_refs hq.1.refs ha
        have ht := initInputBuffers_touches p s.heap
        refine ⟨h2, (pushDrop_next _ _).1.trans ht.next, fun b => ?_⟩
        have hd := pushDrop_cnt { s with heap := p.initInputBuffers s.heap } prev b
        have hc := hq.2 b
        simp only [ht.freed] at hd
        show r.owned.count b + _ + _ = (e.prog.owned.count b + _ + _) + p.owned.count b
        rw [h1.owned]
        omega
  | atomUpdate i a =>
    simp only [Exec.apply] at h
    split at h
    · simp only [Option.some.injEq, Prod.mk.injEq] at h
      obtain ⟨rfl, rfl⟩ := h
      exact ⟨⟨he.cur, he.mods⟩, rfl, fun b => rfl⟩
    · cases h
  | paramUpdate i v =>
    simp only [Exec.apply, Option.some.injEq, Prod.mk.injEq] at h
    obtain ⟨rfl, rfl⟩ := h
    refine ⟨by rw [setParam_prog]; exact he, rfl, fun b => ?_⟩
    unfold cnt
    rw [setParam_prog]
    rfl
  | modamtUpdate i v =>
    simp only [Exec.apply, Option.some.injEq, Prod.mk.injEq] at h
    obtain ⟨rfl, rfl⟩ := h
    have hsb : SameBufs e.prog (e.setModamt i v).prog := by
      refine ⟨rfl, rfl, ?_, rfl⟩
      apply List.ext_getElem?
      intro j
      simp only [Exec.setModamt, List.getElem?_map, List.getElem?_modify]
      split
      · cases e.prog.modops[j]? <;> rfl
      · cases e.prog.modops[j]? <;> rfl
    refine ⟨⟨fun b hb => ?_, fun mo hmo => ?_⟩, rfl, fun b => ?_⟩
    · rw [hsb.owned]; exact he.cur b hb
    · rw [hsb.owned]
      obtain ⟨j, hj⟩ := List.mem_iff_getElem?.1 hmo
      simp only [Exec.setModamt, List.getElem?_modify] at hj
      cases hk : e.prog.modops[j]? with
      | none => simp [hk] at hj
      | some mo' =>
        have hmem := he.mods mo' (List.mem_of_getElem? hk)
        rw [hk] at hj
        split at hj
        · cases hj; exact hmem
        · cases hj; exact hmem
    · unfold cnt
      rw [hsb.owned]
      rfl
  | setMonitor bufs =>
    simp only [Exec.apply, Option.some.injEq, Prod.mk.injEq] at h
    obtain ⟨rfl, rfl⟩ := h
    exact ⟨he, rfl, fun b => rfl⟩
  | injectMidi ev =>
    simp only [Exec.apply, Option.some.injEq, Prod.mk.injEq] at h
    obtain ⟨rfl, rfl⟩ := h
    split
    · exact ⟨he, rfl, fun b => rfl⟩
    · exact ⟨he, rfl, fun b => rfl⟩

theorem applyAll_owner (ms : List (Msg N V A M)) : ∀ {e e' : Exec N V A M} {s s' : Shared N V A}, RefsOwn e.prog →
    QueueFresh ms → e.applyAll s ms = some (e', s') →
    RefsOwn e'.prog ∧ s'.heap.next = s.heap.next ∧ ∀ b, cnt e' s' b = cnt e s b + (ms.flatMap Msg.owned).count b := by
  induction ms with
  | nil =>
    intro e e' s s' he _ h
    cases h
    exact ⟨he, rfl, fun b => rfl⟩
  | cons m ms ih =>
    intro e e' s s' he hq h
    simp only [Exec.applyAll] at h
    cases ha : e.apply s m with
    | none => simp [ha] at h
    | some x =>
      obtain ⟨e1, s1⟩ := x
      simp only [ha] at h
      obtain ⟨h1, h2, h3⟩ := apply_owner he (hq m (List.mem_cons_self ..)) ha
      obtain ⟨h4, h5, h6⟩ := ih h1 (fun m' hm' => hq m' (List.mem_cons_of_mem _ hm')) h
      refine ⟨h4, h5.trans h2, fun b => ?_⟩
      rw [h6, h3, List.flatMap_cons, List.count_append]
      omega

end

theorem count_range' (s n b : Nat) : (List.range' s n).count b = if s ≤ b ∧ b < s + n then 1 else 0 := by
  rw [List.Nodup.count List.nodup_range']
  simp only [List.mem_range'_1]

/-- The invariant of all histories. -/
structure Account (w : World N V A M σ) : Prop where
  fresh : QueueFresh w.queue
  refs : RefsOwn w.exec.prog
  once : ∀ b : Nat, (buffers w).count b = if b < w.shared.heap.next then 1 else 0

theorem count_buffers (w : World N V A M σ) (b : BufId) :
    (buffers w).count b = cnt w.exec w.shared b + (w.queue.flatMap Msg.owned).count b := by
  unfold buffers cnt
  simp only [List.count_append]
  omega

theorem send_account {w : World N V A M σ} (m : Msg N V A M) (hf : QueueFresh w.queue)
    (hm : ∀ p, m.prog? = some p → Unlinked p) :
    QueueFresh (w.send m).queue ∧ (w.send m).exec = w.exec ∧ (w.send m).shared.heap.next = w.shared.heap.next ∧
    ∀ b, (buffers (w.send m)).count b = (buffers w).count b + m.owned.count b := by
  unfold World.send
  split
  · refine ⟨?_, rfl, rfl, fun b => ?_⟩
    · intro m' hm' p hp
      rcases List.mem_append.1 hm' with h | h
      · exact hf m' h p hp
      · rw [List.mem_singleton.1 h] at hp
        exact hm p hp
    · simp only [buffers, List.flatMap_append, List.count_append, List.flatMap_cons, List.flatMap_nil,
        List.append_nil]
      omega
  · refine ⟨hf, rfl, rfl, fun b => ?_⟩
    simp only [buffers, Heap.free, List.count_append]
    omega

theorem send_ok {w : World N V A M σ} (h : Account w) (m : Msg N V A M) (hm : m.prog? = none) : Account (w.send m) := by
  obtain ⟨h1, h2, h3, h4⟩ := send_account (w := w) m h.fresh (fun p hp => by rw [hm] at hp; cases hp)
  refine ⟨h1, h2 ▸ h.refs, fun b => ?_⟩
  have : m.owned = [] := by cases m <;> first | rfl | cases hm
  rw [h4, h3, this, h.once b]
  rfl

theorem sendAll_ok (ms : List (Msg N V A M)) : ∀ {w : World N V A M σ}, Account w → (∀ m ∈ ms, m.prog? = none) →
    Account (w.sendAll ms) := by
  induction ms with
  | nil => intro w h _; exact h
  | cons m ms ih =>
    intro w h hm
    exact ih (send_ok h m (hm m (List.mem_cons_self ..))) (fun m' hm' => hm m' (List.mem_cons_of_mem _ hm'))

theorem Account.withConf {w : World N V A M σ} (h : Account w) (c : Conf N V A) : Account { w with conf := c } :=
  ⟨h.fresh, h.refs, h.once⟩

section
variable [Add V] [Mul V] [Sub V] [Div V] [NatCast V] [OfNat V 0]

theorem account_new (st : σ) : Account (World.new st : World N V A M σ) :=
  ⟨fun m hm => by simp [World.new] at hm, unlinked_empty.refs, fun b => by
    simp [World.new, buffers, Exec.new, NodeProg.empty, NodeProg.owned]⟩

theorem account_step (T : NodeTable N V A) (a0 : A) (run : σ → CallIn N V A → σ × (Nat → Block V))
    {w w' : World N V A M σ} {op : EOp N V A M} {out : Option (BlockResult N V A)} (hw : ConfWF w.conf)
    (h : Account w) (hs : w.step T a0 run op = some (w', out)) : Account w' := by
  cases op with
  | createNode n => cases hs; exact h.withConf _
  | deleteNodes =>
    simp only [World.step, Conf.deleteNodes, Option.some.injEq, Prod.mk.injEq] at hs
    obtain ⟨rfl, _⟩ := hs
    obtain ⟨h1, h2, h3, h4⟩ := send_account (w := { w with conf := Conf.new }) (.clear NodeProg.empty) h.fresh
      (fun p hp => by cases hp; exact unlinked_empty)
    exact ⟨h1, by rw [show ∀ m, World.sendAll { w with conf := Conf.new } [m] = World.send { w with conf := Conf.new } m
        from fun _ => rfl, h2]; exact h.refs, fun b => (h4 b).trans ((h.once b).trans (by rw [← h3]; rfl))⟩
  | setInput n i v =>
    simp only [World.step, Option.some.injEq, Prod.mk.injEq] at hs
    obtain ⟨rfl, _⟩ := hs
    refine sendAll_ok _ (h.withConf _) ?_
    unfold Conf.setInput
    intro m hm
    simp only at hm
    split at hm
    · cases hm
    · rw [List.mem_singleton.1 hm]; rfl
  | setAtom n i v =>
    simp only [World.step, Option.some.injEq, Prod.mk.injEq] at hs
    obtain ⟨rfl, _⟩ := hs
    refine sendAll_ok _ (h.withConf _) ?_
    unfold Conf.setAtom
    intro m hm
    simp only at hm
    split at hm
    · cases hm
    · rw [List.mem_singleton.1 hm]; rfl
  | setModamt p v =>
    simp only [World.step, Option.some.injEq, Prod.mk.injEq] at hs
    obtain ⟨rfl, _⟩ := hs
    refine sendAll_ok _ (h.withConf _) ?_
    unfold Conf.setModamt
    intro m hm
    cases p with
    | atom n i => cases hm
    | input n i =>
      simp only at hm
      split at hm
      · cases hm
      · simp only at hm
        split at hm
        · rw [List.mem_singleton.1 hm]; rfl
        · cases hm
      · cases hm
  | sync order es co =>
    simp only [World.step] at hs
    cases hb : w.conf.buildProg T a0 w.shared.heap order es with
    | none => simp [hb] at hs
    | some r =>
      obtain ⟨c', p, h'⟩ := r
      simp only [hb, Option.map_some, Option.some.injEq, Prod.mk.injEq] at hs
      obtain ⟨rfl, _⟩ := hs
      obtain ⟨f1, f2, f3, f4⟩ := fill_owned hw hb
      obtain ⟨h1, h2, h3, h4⟩ := send_account (w := { w with conf := c', shared := { w.shared with heap := h' } })
        (.newProg (c'.fillProg p) co) h.fresh (fun q hq => by cases hq; exact f4)
      refine ⟨h1, by rw [h2]; exact h.refs, fun (b : Nat) => ?_⟩
      rw [h4, h3]
      have hold := h.once b
      have hc : (buffers { w with conf := c', shared := { w.shared with heap := h' } }).count b = (buffers w).count b := by
        simp only [buffers, f3]
      rw [hc, hold]
      show _ + (c'.fillProg p).owned.count b = if b < h'.next then 1 else 0
      rw [f1.count_eq]
      rw [count_range']
      by_cases hb1 : b < w.shared.heap.next
      · rw [if_pos hb1, if_neg (by omega), if_pos (by omega)]
      · rw [if_neg hb1]
        by_cases hb2 : b < h'.next
        · rw [if_pos (by omega), if_pos hb2]
        · rw [if_neg (by omega), if_neg hb2]
  | monitor n ins outs =>
    simp only [World.step, Option.some.injEq, Prod.mk.injEq] at hs
    obtain ⟨rfl, _⟩ := hs
    refine sendAll_ok _ h ?_
    unfold Conf.monitor
    intro m hm
    split at hm
    · cases hm
    · rw [List.mem_singleton.1 hm]; rfl
  | injectMidi ev =>
    simp only [World.step, Option.some.injEq, Prod.mk.injEq] at hs
    obtain ⟨rfl, _⟩ := hs
    exact send_ok h _ rfl
  | poll =>
    simp only [World.step] at hs
    cases ha : w.exec.applyAll w.shared w.queue with
    | none => simp [ha] at hs
    | some r =>
      simp only [ha, Option.map_some, Option.some.injEq, Prod.mk.injEq] at hs
      obtain ⟨rfl, _⟩ := hs
      obtain ⟨h1, h2, h3⟩ := applyAll_owner _ h.refs h.fresh (s' := r.2) (e' := r.1) ha
      refine ⟨fun m hm => (by cases hm), h1, fun b => ?_⟩
      rw [count_buffers]
      show cnt r.1 r.2 b + 0 = if b < r.2.heap.next then 1 else 0
      rw [h3, h2, ← h.once b, count_buffers]
      rfl
  | process nf =>
    simp only [World.step] at hs
    cases ha : w.exec.process run w.shared.heap w.st nf with
    | none => simp [ha] at hs
    | some r =>
      obtain ⟨e', h', st', r⟩ := r
      simp only [ha, Option.map_some, Option.some.injEq, Prod.mk.injEq] at hs
      obtain ⟨rfl, _⟩ := hs
      obtain ⟨ht, h1, h2, h3, h4, _⟩ := process_touches run ha
      have ho : e'.prog.owned = w.exec.prog.owned := by unfold NodeProg.owned; rw [h1, h2, h3]
      refine ⟨h.fresh, ⟨?_, ?_⟩, fun b => ?_⟩
      · show ∀ b, some b ∈ e'.prog.curInp → b ∈ e'.prog.owned
        rw [h4, ho]; exact h.refs.cur
      · show ∀ mo ∈ e'.prog.modops, (∀ b, mo.inbuf = some b → b ∈ e'.prog.owned) ∧
          (∀ b, mo.outbuf = some b → b ∈ e'.prog.owned)
        rw [h3, ho]; exact h.refs.mods
      · have := h.once b
        simp only [buffers, ho, ht.freed, ht.next] at this ⊢
        exact this
  | dropOne =>
    simp only [World.step] at hs
    split at hs
    · cases hs; exact h
    · rename_i p ps hd
      cases hs
      refine ⟨h.fresh, h.refs, fun b => ?_⟩
      refine Eq.trans ?_ (h.once b)
      simp only [buffers, hd, NodeProg.drop, Heap.free, List.count_append, List.flatMap_cons]
      omega
  | setSlope n => cases hs; exact ⟨h.fresh, h.refs, h.once⟩

theorem account_ran (T : NodeTable N V A) (a0 : A) (run : σ → CallIn N V A → σ × (Nat → Block V))
    {w w' : World N V A M σ} {ops : List (EOp N V A M)} (hr : Ran T a0 run w ops w') :
    ConfWF w.conf → Account w → Account w' := by
  induction hr with
  | nil => intro _ h; exact h
  | cons hp hs _ ih => intro hw h; exact ih (wf_step hw hp hs) (account_step T a0 run hw h hs)
  | outside st _ ih => intro hw h; exact ih hw ⟨h.fresh, h.refs, h.once⟩

end

end HexoDSP.Engine
