import Verif.Lemmas.Many
import Verif.Spec.Status
/-! Which cells of the status table belong to which node. -/

set_option linter.unusedSectionVars false

namespace HexoDSP.Status
open Engine EngineSpec StatusSpec Many

variable {N V A M σ : Type} [DecidableEq N]

/-- A condition on the operations of a program holds for the running program and all programs on their way. -/
def AllKeys (P : List (Nat × N) → Prop) (w : World N V A M σ) : Prop :=
  P (opKeys w.exec.prog) ∧ ∀ m ∈ w.queue, ∀ p, msgProg m = some p → P (opKeys p)

theorem AllKeys.send {P : List (Nat × N) → Prop} {w : World N V A M σ} (h : AllKeys P w) {m : Msg N V A M}
    (hm : ∀ p, msgProg m = some p → P (opKeys p)) : AllKeys P (w.send m) := by
  unfold World.send
  split
  · refine ⟨h.1, fun m' h' => ?_⟩
    rcases List.mem_append.1 h' with h1 | h1
    · exact h.2 m' h1
    · rw [List.mem_singleton.1 h1]; exact hm
  · exact ⟨h.1, h.2⟩

theorem AllKeys.sendAll {P : List (Nat × N) → Prop} {ms : List (Msg N V A M)} : ∀ {w : World N V A M σ}, AllKeys P w →
    (∀ m ∈ ms, ∀ p, msgProg m = some p → P (opKeys p)) → AllKeys P (w.sendAll ms) := by
  unfold World.sendAll
  induction ms with
  | nil => intro w h _; exact h
  | cons m ms ih =>
    intro w h hm
    rw [List.foldl_cons]
    exact ih (h.send (hm m (by simp))) (fun m' h' => hm m' (by simp [h']))

variable [OfNat V 0] [Add V] [Mul V] [Sub V] [Div V] [NatCast V]

theorem keys_applyAll {P : List (Nat × N) → Prop} (ms : List (Msg N V A M)) : ∀ {e e1 : Exec N V A M} {s s1 : Shared N V A},
    e.applyAll s ms = some (e1, s1) → P (opKeys e.prog) → (∀ m ∈ ms, ∀ p, msgProg m = some p → P (opKeys p)) → P (opKeys e1.prog) := by
  induction ms with
  | nil => intro e e1 s s1 h he _; simp only [Exec.applyAll, Option.some.injEq, Prod.mk.injEq] at h; rw [← h.1]; exact he
  | cons m ms ih =>
    intro e e1 s s1 h he hm
    unfold Exec.applyAll at h
    cases hx : e.apply s m with
    | none => rw [hx] at h; cases h
    | some r =>
      rw [hx] at h
      refine ih h ?_ (fun m' h' => hm m' (by simp [h']))
      have hk := prog_apply (e1 := r.1) (s1 := r.2) hx
      cases hp : msgProg m with
      | none => rw [hp] at hk; unfold opKeys; rw [hk]; exact he
      | some q => rw [hp] at hk; unfold opKeys; rw [hk]; exact hm m (by simp) q hp

theorem keys_step {P : List (Nat × N) → Prop} {T : NodeTable N V A} {a0 : A} {run : σ → CallIn N V A → σ × (Nat → Block V)}
    {w w1 : World N V A M σ} {op : EOp N V A M} {out : Option (BlockResult N V A)} (hw : AllKeys P w) (h0 : P [])
    (hs : ∀ order es c' p h', w.conf.buildProg T a0 w.shared.heap order es = some (c', p, h') → P (opKeys p))
    (h : w.step T a0 run op = some (w1, out)) : AllKeys P w1 := by
  cases op with
  | createNode n =>
    simp only [World.step, Option.some.injEq, Prod.mk.injEq] at h
    rw [← h.1]; exact hw
  | deleteNodes =>
    simp only [World.step, Conf.deleteNodes, Option.some.injEq, Prod.mk.injEq] at h
    rw [← h.1]
    refine AllKeys.sendAll hw ?_
    intro m hm p hp
    rw [List.mem_singleton.1 hm] at hp
    simp only [msgProg, Option.some.injEq] at hp
    rw [← hp]; exact h0
  | setInput n i v =>
    simp only [World.step, Option.some.injEq, Prod.mk.injEq] at h
    rw [← h.1]
    refine AllKeys.sendAll hw ?_
    intro m hm p hp
    unfold Conf.setInput at hm
    simp only at hm
    split at hm
    · cases hm
    · rw [List.mem_singleton.1 hm] at hp; cases hp
  | setAtom n i v =>
    simp only [World.step, Option.some.injEq, Prod.mk.injEq] at h
    rw [← h.1]
    refine AllKeys.sendAll hw ?_
    intro m hm p hp
    unfold Conf.setAtom at hm
    simp only at hm
    split at hm
    · cases hm
    · rw [List.mem_singleton.1 hm] at hp; cases hp
  | setModamt p v =>
    simp only [World.step, Option.some.injEq, Prod.mk.injEq] at h
    rw [← h.1]
    refine AllKeys.sendAll hw ?_
    intro m hm q hq
    cases p with
    | atom n i => simp only [Conf.setModamt] at hm; cases hm
    | input n i =>
      simp only [Conf.setModamt] at hm
      split at hm
      · cases hm
      · simp only at hm
        split at hm
        · rw [List.mem_singleton.1 hm] at hq; cases hq
        · cases hm
      · cases hm
  | sync order es copyOld =>
    simp only [World.step] at h
    cases hb : w.conf.buildProg T a0 w.shared.heap order es with
    | none => simp [hb] at h
    | some r =>
      simp only [hb, Option.map_some, Option.some.injEq, Prod.mk.injEq] at h
      rw [← h.1]
      apply AllKeys.send
      · exact hw
      intro p hp
      simp only [msgProg, Option.some.injEq] at hp
      rw [← hp]
      have := hs order es r.1 r.2.1 r.2.2 hb
      unfold opKeys at this ⊢
      rw [prog_fillProg]
      exact this
  | monitor n ins outs =>
    simp only [World.step, Option.some.injEq, Prod.mk.injEq] at h
    rw [← h.1]
    refine AllKeys.sendAll hw ?_
    intro m hm p hp
    unfold Conf.monitor at hm
    split at hm
    · cases hm
    · rw [List.mem_singleton.1 hm] at hp; cases hp
  | injectMidi ev =>
    simp only [World.step, Option.some.injEq, Prod.mk.injEq] at h
    rw [← h.1]
    exact AllKeys.send hw (fun p hp => by cases hp)
  | poll =>
    simp only [World.step] at h
    cases hb : w.exec.applyAll w.shared w.queue with
    | none => simp [hb] at h
    | some r =>
      simp only [hb, Option.map_some, Option.some.injEq, Prod.mk.injEq] at h
      rw [← h.1]
      exact ⟨keys_applyAll _ (e1 := r.1) (s1 := r.2) hb hw.1 hw.2, fun m hm => by cases hm⟩
  | process nf =>
    simp only [World.step] at h
    cases hb : w.exec.process run w.shared.heap w.st nf with
    | none => simp [hb] at h
    | some r =>
      simp only [hb, Option.map_some, Option.some.injEq, Prod.mk.injEq] at h
      rw [← h.1]
      refine ⟨?_, hw.2⟩
      have := hw.1
      unfold opKeys at this ⊢
      show P (r.1.prog.prog.map _)
      rw [(calls_process (r := r.2.2.2) hb).2]
      exact this
  | dropOne =>
    simp only [World.step] at h
    split at h
    · simp only [Option.some.injEq, Prod.mk.injEq] at h; rw [← h.1]; exact hw
    · simp only [Option.some.injEq, Prod.mk.injEq] at h; rw [← h.1]; exact hw
  | setSlope n =>
    simp only [World.step, Option.some.injEq, Prod.mk.injEq] at h
    rw [← h.1]; exact hw

/-- The operations belong to nodes of the list and have their index as a byte. -/
def Keyed (ids : List N) (ks : List (Nat × N)) : Prop := ∀ k ∈ ks, k.2 ∈ ids ∧ k.1 = ids.idxOf k.2 % 256

theorem Keyed.append {ids : List N} {ks : List (Nat × N)} (h : Keyed ids ks) (more : List N) : Keyed (ids ++ more) ks := by
  intro k hk
  obtain ⟨h1, h2⟩ := h k hk
  exact ⟨by simp [h1], by rw [h2, List.idxOf_append_of_mem h1]⟩

theorem keyed_addNodes {T : NodeTable N V A} {c0 : Conf N V A} (order : List N) : ∀ (c : Conf N V A) (p : NodeProg N V A),
    Rebuilt T c0 c → Keyed c0.ids (opKeys p) →
      Keyed c0.ids (opKeys (order.foldl (fun (s : Conf N V A × NodeProg N V A) n => s.1.addProgNode s.2 n) (c, p)).2) := by
  induction order with
  | nil => intro c p _ h; exact h
  | cons n order ih =>
    intro c p h hk
    rw [List.foldl_cons]
    by_cases hn : n ∈ c0.ids
    · obtain ⟨u, hu⟩ := instanceOf_eq h hn
      have hstep : c.addProgNode p n = (c.markUsed n, p.appendOp ({ instOf T c0.paramModamt c0.ids n with inUse := u } : NodeInstance N).asOp) := by
        unfold Conf.addProgNode; rw [hu]
      rw [hstep]
      apply ih _ _ (rebuilt_markUsed h n)
      have hlt := List.idxOf_lt_length_iff.2 hn
      have hidx : ({ instOf T c0.paramModamt c0.ids n with inUse := u } : NodeInstance N).asOp.idx = c0.ids.idxOf n % 256 := by
        simp only [NodeInstance.asOp, instOf, instAt, List.length_take]
        rw [Nat.min_eq_left (by omega)]
      rw [opKeys_appendOp]
      split
      · exact hk
      · intro k hk'
        rcases List.mem_append.1 hk' with h1 | h1
        · exact hk k h1
        · rw [List.mem_singleton.1 h1]; exact ⟨hn, hidx⟩
    · have hstep : c.addProgNode p n = (c, p) := by
        unfold Conf.addProgNode
        cases hi : c.instanceOf n with
        | none => rfl
        | some ni => exact absurd (h.ids ▸ instanceOf_isSome_mem h.wf hi) hn
      rw [hstep]
      exact ih _ _ h hk

theorem keyed_buildProg {T : NodeTable N V A} {a0 : A} {c c' : Conf N V A} {h h' : Heap V} {order : List N}
    {es : List (Conn N)} {p : NodeProg N V A} (hw : ConfWF c) (hb : c.buildProg T a0 h order es = some (c', p, h')) : Keyed c.ids (opKeys p) := by
  obtain ⟨h1, _⟩ := buildProg_split hb
  have hk := opKeys_connects es _ _ h1
  have hk' : opKeys p = _ := hk
  rw [hk']
  exact keyed_addNodes order _ _ (rebuilt_rebuildPorts T a0 c h hw) (fun k hk => by cases hk)

/-! ### The table -/

theorem store_length (vals : List V) (i : Nat) (v : Option V) : (store vals i v).length = vals.length := by
  cases v <;> simp [store]

theorem store_get (vals : List V) (i j : Nat) (v : Option V) (hi : i < vals.length) :
    (store vals i v)[j]? = if i = j then (match v with | none => vals[j]? | some v => some v) else vals[j]? := by
  cases v with
  | none => simp [store]
  | some v =>
    simp only [store, List.getElem?_set]
    split
    · rfl
    · rfl

theorem showOp_length {vals vals1 : List V} {x : NodeOp N × Shown V} (h : showOp vals x = some vals1) : vals1.length = vals.length := by
  unfold showOp at h
  simp only at h
  split at h
  · cases h; simp [store_length]
  · cases h

theorem showBlock_length (prog : List (NodeOp N)) : ∀ (shown : List (Shown V)) {vals vals1 : List V}, showBlock vals prog shown = some vals1 →
    vals1.length = vals.length := by
  unfold showBlock
  intro shown
  generalize prog.zip shown = l
  induction l with
  | nil => intro vals vals1 h; simp at h; rw [h]
  | cons x l ih =>
    intro vals vals1 h
    rw [List.foldlM_cons] at h
    cases hx : showOp vals x with
    | none => simp [hx] at h
    | some v =>
      simp only [hx, Option.bind_eq_bind, Option.bind_some] at h
      rw [ih h, showOp_length hx]

theorem showBlock_some {prog : List (NodeOp N)} {vals : List V} (hl : vals.length = 512) (hp : ∀ o ∈ prog, o.idx < 256) (shown : List (Shown V)) :
    ∃ vals1, showBlock vals prog shown = some vals1 := by
  unfold showBlock
  have hz : ∀ x ∈ prog.zip shown, x.1.idx < 256 := fun x hx => hp _ (List.of_mem_zip hx).1
  generalize prog.zip shown = l at hz
  induction l generalizing vals with
  | nil => exact ⟨vals, rfl⟩
  | cons x l ih =>
    have hx := hz x (by simp)
    rw [List.foldlM_cons]
    have hs : ∃ v, showOp vals x = some v := by
      unfold showOp; simp only; rw [if_pos (by omega)]; exact ⟨_, rfl⟩
    obtain ⟨v, hv⟩ := hs
    obtain ⟨v1, hv1⟩ := ih (vals := v) (by rw [showOp_length hv, hl]) (fun y hy => hz y (by simp [hy]))
    exact ⟨v1, by simp [hv, hv1]⟩

/-- The cells hold what the nodes of the list stored last, and 0 after those. -/
structure Tab (ids : List N) (vals : List V) (l : Record N V) : Prop where
  len : vals.length = 512
  here : ∀ i n, ids[i]? = some n → vals[i * 2]? = some (l n).1 ∧ vals[i * 2 + 1]? = some (l n).2
  rest : ∀ i, ids.length ≤ i → i < 256 → vals[i * 2]? = some 0 ∧ vals[i * 2 + 1]? = some 0
  out : ∀ n, n ∉ ids → l n = (0, 0)

theorem tab_new : Tab ([] : List N) (statusNew : List V) (fun _ => (0, 0)) := by
  refine ⟨List.length_replicate .., fun i n h => by simp at h, fun i _ h => ?_, fun _ _ => rfl⟩
  unfold statusNew
  rw [List.getElem?_replicate_of_lt (by omega), List.getElem?_replicate_of_lt (by omega)]
  exact ⟨rfl, rfl⟩

theorem Tab.snoc {ids : List N} {vals : List V} {l : Record N V} (h : Tab ids vals l) {n : N} (hn : n ∉ ids) (hl : ids.length + 1 ≤ 256) :
    Tab (ids ++ [n]) vals l := by
  refine ⟨h.len, fun i m hm => ?_, fun i hi hi' => h.rest i (by simp at hi; omega) hi', fun m hm => h.out m (by simp at hm; exact hm.1)⟩
  rw [List.getElem?_append] at hm
  split at hm
  · exact h.here i m hm
  · rename_i hge
    have hi : i = ids.length := by
      rcases Nat.lt_or_ge ids.length i with h1 | h1
      · have : ∃ k, i - ids.length = k + 1 := ⟨i - ids.length - 1, by omega⟩
        obtain ⟨k, hk⟩ := this
        rw [hk] at hm; simp at hm
      · omega
    subst hi
    simp at hm
    subst hm
    rw [h.out n hn]
    exact h.rest ids.length (Nat.le_refl _) (by omega)

theorem Tab.note {ids : List N} {vals vals1 : List V} {l : Record N V} (h : Tab ids vals l) (hnd : ids.Nodup) (hl : ids.length ≤ 256)
    {op : NodeOp N} {s : Shown V} (hk : op.node ∈ ids ∧ op.idx = ids.idxOf op.node % 256) (hs : showOp vals (op, s) = some vals1) :
    Tab ids vals1 (StatusSpec.note l (op.node, s)) := by
  obtain ⟨hm, hi⟩ := hk
  have hlt := List.idxOf_lt_length_iff.2 hm
  rw [Nat.mod_eq_of_lt (by omega)] at hi
  have hget := idxOf_get hm
  rw [← hi] at hget
  have hlen := h.len
  unfold showOp at hs
  simp only at hs
  rw [if_pos (by omega)] at hs
  cases hs
  have g : ∀ j, (store (store vals (op.idx * 2) s.led) (op.idx * 2 + 1) s.phase)[j]? =
      if op.idx * 2 + 1 = j then (match s.phase with | none => vals[j]? | some v => some v) else
        if op.idx * 2 = j then (match s.led with | none => vals[j]? | some v => some v) else vals[j]? := by
    intro j
    rw [store_get _ _ _ _ (by rw [store_length]; omega), store_get _ _ _ _ (by omega)]
    by_cases h1 : op.idx * 2 + 1 = j
    · rw [if_pos h1, if_pos h1, if_neg (by omega)]
    · rw [if_neg h1, if_neg h1]
  refine ⟨by simp [store_length, hlen], fun i n hn => ?_, fun i h1 h2 => ?_, fun n hn => ?_⟩
  · obtain ⟨h1, h2⟩ := h.here i n hn
    rw [g, g]
    by_cases he : op.idx = i
    · subst he
      rw [hget] at hn
      cases hn
      rw [if_neg (by omega), if_pos rfl, if_pos rfl]
      simp only [StatusSpec.note, if_pos]
      rw [h1, h2]
      constructor
      · cases s.led <;> rfl
      · cases s.phase <;> rfl
    · rw [if_neg (by omega), if_neg (by omega), if_neg (by omega), if_neg (by omega)]
      have hne : n ≠ op.node := by
        intro e
        subst e
        exact he ((List.getElem?_inj (by omega) hnd).1 (hget.trans hn.symm))
      simp only [StatusSpec.note]
      rw [if_neg hne]
      exact ⟨h1, h2⟩
  · have := h.rest i h1 h2
    rw [g, g, if_neg (by omega), if_neg (by omega), if_neg (by omega), if_neg (by omega)]
    exact this
  · simp only [StatusSpec.note]
    rw [if_neg (by intro e; subst e; exact hn hm)]
    exact h.out n hn

theorem tab_block {ids : List N} (hnd : ids.Nodup) (hl : ids.length ≤ 256) (prog : List (NodeOp N)) : ∀ (shown : List (Shown V)) {vals vals1 : List V}
    {l : Record N V}, Tab ids vals l → Keyed ids (prog.map (fun o => (o.idx, o.node))) → showBlock vals prog shown = some vals1 →
    Tab ids vals1 (((prog.map (fun o => o.node)).zip shown).foldl StatusSpec.note l) := by
  unfold showBlock
  induction prog with
  | nil => intro shown vals vals1 l h _ hs; simp at hs; subst hs; simpa using h
  | cons o prog ih =>
    intro shown vals vals1 l h hk hs
    cases shown with
    | nil => simp at hs; subst hs; simpa using h
    | cons s shown =>
      simp only [List.zip_cons_cons, List.foldlM_cons] at hs
      cases hx : showOp vals (o, s) with
      | none => simp [hx] at hs
      | some v =>
        simp only [hx, Option.bind_eq_bind, Option.bind_some] at hs
        simp only [List.map_cons, List.zip_cons_cons, List.foldl_cons]
        exact ih shown (h.note hnd hl (hk (o.idx, o.node) (by simp)) hx) (fun k hk' => hk k (by simp only [List.map_cons]; exact List.mem_cons_of_mem _ hk')) hs

/-! ### Histories -/

theorem createdFrom_append (a : List (EOp N V A M)) : ∀ (l : List N) (b : List (EOp N V A M)),
    createdFrom l (a ++ b) = createdFrom (createdFrom l a) b := by
  induction a with
  | nil => intro l b; rfl
  | cons x a ih =>
    intro l b
    rw [List.cons_append, createdFrom_cons, ih, ← createdFrom_cons]

/-- What holds after every history. -/
structure Inv (ops : List (EOp N V A M)) (w : World N V A M σ) (vals : List V) : Prop where
  wf : ConfWF w.conf
  ids : w.conf.ids = created ops
  few : FewWorld w
  len : vals.length = 512

theorem inv_step {T : NodeTable N V A} {a0 : A} {run : σ → CallIn N V A → σ × (Nat → Block V)} {ops : List (EOp N V A M)} {w w1 : World N V A M σ}
    {vals vals1 : List V} {op : EOp N V A M} {o : Option (BlockResult N V A)} (h : Inv ops w vals) (hp : Polite w op)
    (hs : w.step T a0 run op = some (w1, o)) (hl : vals1.length = vals.length) : Inv (ops ++ [op]) w1 vals1 := by
  refine ⟨wf_step h.wf hp hs, ?_, few_step h.few hs, hl.trans h.len⟩
  rw [ids_step h.wf hs, h.ids]
  exact (createdFrom_append ops [] [op]).symm

theorem inv_lit {T : NodeTable N V A} {a0 : A} {run : σ → CallIn N V A → σ × (Nat → Block V)} {ops : List (EOp N V A M)} {w : World N V A M σ}
    {vals : List V} {l : Record N V} (h : Lit T a0 run ops w vals l) : Inv ops w vals := by
  induction h with
  | new st => exact ⟨confWF_new, rfl, fewWorld_new st, List.length_replicate ..⟩
  | call _ hp hs ih => exact inv_step ih hp hs rfl
  | block _ hs _ hb ih => exact inv_step ih trivial hs (showBlock_length _ _ hb)
  | outside st _ ih => exact ⟨ih.wf, ih.ids, ⟨ih.few.exec, ih.few.queue⟩, ih.len⟩

theorem created_snoc (ops : List (EOp N V A M)) (op : EOp N V A M) (hd : op ≠ .deleteNodes) :
    created (ops ++ [op]) = created ops ++ (match op with | .createNode n => [n] | _ => []) := by
  unfold created
  rw [createdFrom_append]
  cases op <;> simp [createdFrom] at hd ⊢

theorem keyed_step {T : NodeTable N V A} {a0 : A} {run : σ → CallIn N V A → σ × (Nat → Block V)} {ops : List (EOp N V A M)} {w w1 : World N V A M σ}
    {vals : List V} {op : EOp N V A M} {o : Option (BlockResult N V A)} (h : Inv ops w vals) (hd : op ≠ .deleteNodes)
    (hk : AllKeys (Keyed (created ops)) w) (hs : w.step T a0 run op = some (w1, o)) : AllKeys (Keyed (created (ops ++ [op]))) w1 := by
  have h1 : AllKeys (Keyed (created ops)) w1 :=
    keys_step hk (fun k hk => by cases hk) (fun order es c' p h' hb => by rw [← h.ids]; exact keyed_buildProg h.wf hb) hs
  rw [created_snoc ops op hd]
  exact ⟨h1.1.append _, fun m hm p hp => (h1.2 m hm p hp).append _⟩

theorem tab_lit {T : NodeTable N V A} {a0 : A} {run : σ → CallIn N V A → σ × (Nat → Block V)} {ops : List (EOp N V A M)} {w : World N V A M σ}
    {vals : List V} {l : Record N V} (h : Lit T a0 run ops w vals l) (hd : EOp.deleteNodes ∉ ops) (hl : (created ops).length ≤ 256) :
    AllKeys (Keyed (created ops)) w ∧ Tab (created ops) vals l := by
  induction h with
  | new st => exact ⟨⟨(fun k hk => by cases hk), (fun m hm => by cases hm)⟩, tab_new⟩
  | @call ops w w1 vals l op h0 hp hs ih =>
    have hi := inv_lit h0
    have hop : op ≠ .deleteNodes := fun e => hd (by simp [e])
    have hsn := created_snoc ops op hop
    rw [hsn, List.length_append] at hl
    obtain ⟨hk, ht⟩ := ih (fun e => hd (by simp [e])) (by omega)
    refine ⟨keyed_step hi hop hk hs, ?_⟩
    rw [hsn]
    cases op with
    | createNode n =>
      refine ht.snoc ?_ (by simpa using hl)
      rw [← hi.ids]
      exact (uniqueIndexFor_none hi.wf n).1 (by simpa [Polite, Allocated] using hp)
    | _ => simpa using ht
  | @block ops w w1 vals vals1 l nf r shown h0 hs hlen hb ih =>
    have hi := inv_lit h0
    have hop : (EOp.process nf : EOp N V A M) ≠ .deleteNodes := by simp
    have hsn := created_snoc ops (.process nf) hop
    simp only [List.append_nil] at hsn
    obtain ⟨hk, ht⟩ := ih (fun e => hd (by simp [e])) (by rw [← hsn]; exact hl)
    refine ⟨keyed_step hi hop hk hs, ?_⟩
    rw [hsn] at hl ⊢
    have hc : r.calls.map (fun c => c.node) = w.exec.prog.prog.map (fun o => o.node) := by
      simp only [World.step] at hs
      cases hx : w.exec.process run w.shared.heap w.st nf with
      | none => simp [hx] at hs
      | some z =>
        simp only [hx, Option.map_some, Option.some.injEq, Prod.mk.injEq] at hs
        rw [← hs.2]
        exact (calls_process (r := z.2.2.2) hx).1
    rw [hc]
    exact tab_block (hi.ids ▸ hi.wf.nodup) hl _ shown ht hk.1 hb
  | outside st h0 ih => exact ih hd hl

end HexoDSP.Status
