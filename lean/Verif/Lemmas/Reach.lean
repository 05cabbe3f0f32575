import Verif.Lemmas.BuildProg3
/-! Configurators reached by API calls are well formed; which nodes count as used. -/

set_option linter.unusedSectionVars false

namespace HexoDSP.Engine
open EngineSpec

variable {N V A M : Type} [DecidableEq N]

theorem uniqueIndexFor_none {c : Conf N V A} (h : ConfWF c) (n : N) :
    c.uniqueIndexFor n = none ↔ n ∉ c.ids := by
  unfold Conf.uniqueIndexFor
  constructor
  · intro hn hm
    obtain ⟨i, hi⟩ := List.getElem?_of_mem hm
    rw [(h.idx n i).2 hi] at hn
    cases hn
  · intro hn
    cases hl : c.node2idx.lookup n with
    | none => rfl
    | some i => exact absurd (List.mem_of_getElem? ((h.idx n i).1 hl)) hn

/-- The node list and index are the same. -/
def SameNodes (c c' : Conf N V A) : Prop := c'.nodes = c.nodes ∧ c'.node2idx = c.node2idx

theorem SameNodes.wf {c c' : Conf N V A} (hs : SameNodes c c') (h : ConfWF c) : ConfWF c' := by
  have hi : c'.ids = c.ids := by unfold Conf.ids; rw [hs.1]
  exact ⟨by rw [hi]; exact h.nodup, fun n i => by rw [hs.2, hi]; exact h.idx n i⟩

theorem sameNodes_setInput (c : Conf N V A) (n : N) (i : Nat) (v : V) :
    SameNodes c (c.setInput (M := M) n i v).1 := by
  unfold Conf.setInput
  simp only
  split <;> exact ⟨rfl, rfl⟩

theorem sameNodes_setAtom (c : Conf N V A) (n : N) (i : Nat) (a : A) :
    SameNodes c (c.setAtom (M := M) n i a).1 := by
  unfold Conf.setAtom
  simp only
  split <;> exact ⟨rfl, rfl⟩

theorem sameNodes_setModamt [OfNat V 0] (c : Conf N V A) (p : ParamId N) (v : Option V) :
    SameNodes c (c.setModamt (M := M) p v).1 := by
  unfold Conf.setModamt
  cases p with
  | atom n i => exact ⟨rfl, rfl⟩
  | input n i =>
    simp only
    split <;> exact ⟨rfl, rfl⟩

/-- The used flags of the instances. -/
def UsedIs (c : Conf N V A) (S : N → Prop) : Prop :=
  ∀ n ni, c.instanceOf n = some ni → (ni.inUse = true ↔ S n)

theorem instanceOf_markUsed {c : Conf N V A} (hw : ConfWF c) (m n : N) :
    (c.markUsed m).instanceOf n = if n = m then (c.instanceOf n).map (fun ni => { ni with inUse := true })
      else c.instanceOf n := by
  unfold Conf.markUsed
  cases hm : c.uniqueIndexFor m with
  | none =>
    simp only
    split
    · rename_i h
      subst h
      have : c.instanceOf n = none := by unfold Conf.instanceOf; rw [hm]
      rw [this]; rfl
    · rfl
  | some i =>
    simp only
    unfold Conf.instanceOf Conf.uniqueIndexFor
    simp only
    unfold Conf.uniqueIndexFor at hm
    cases hn : c.node2idx.lookup n with
    | none =>
      simp only
      split <;> rfl
    | some j =>
      simp only [List.getElem?_modify]
      by_cases hnm : n = m
      · subst hnm
        rw [hm] at hn
        cases hn
        simp only [if_true]
        cases c.nodes[i]? <;> rfl
      · rw [if_neg hnm]
        have hij : i ≠ j := by
          intro h
          subst h
          have h1 := (hw.idx m i).1 hm
          have h2 := (hw.idx n i).1 hn
          rw [h1] at h2
          exact hnm (Option.some.inj h2).symm
        simp [hij]

theorem usedIs_markUsed {c : Conf N V A} (hw : ConfWF c) {S : N → Prop} (h : UsedIs c S) (m : N) :
    UsedIs (c.markUsed m) (fun n => S n ∨ n = m) := by
  intro n ni hi
  rw [instanceOf_markUsed hw] at hi
  by_cases hnm : n = m
  · rw [if_pos hnm] at hi
    cases hc : c.instanceOf n with
    | none => rw [hc] at hi; cases hi
    | some nj =>
      rw [hc] at hi
      simp only [Option.map_some, Option.some.injEq] at hi
      subst hi
      simp [hnm]
  · rw [if_neg hnm] at hi
    simp only [hnm, or_false]
    exact h n ni hi

theorem wf_markUsed {c : Conf N V A} (hw : ConfWF c) (m : N) : ConfWF (c.markUsed m) := by
  have hids := ids_markUsed c m
  have hn2 : (c.markUsed m).node2idx = c.node2idx := by
    unfold Conf.markUsed; split <;> rfl
  exact ⟨by rw [hids]; exact hw.nodup, fun n i => by rw [hn2, hids]; exact hw.idx n i⟩

theorem UsedIs.congr {c : Conf N V A} {S S' : N → Prop} (h : UsedIs c S) (hs : ∀ n, S n ↔ S' n) : UsedIs c S' :=
  fun n ni hi => (h n ni hi).trans (hs n)

theorem instanceOf_isSome_markUsed {c : Conf N V A} (hw : ConfWF c) (m n : N) :
    ((c.markUsed m).instanceOf n).isSome = (c.instanceOf n).isSome := by
  rw [instanceOf_markUsed hw]
  split
  · cases c.instanceOf n <;> rfl
  · rfl

theorem addNodes_used (order : List N) :
    ∀ (c : Conf N V A) (p : NodeProg N V A) (S : N → Prop), ConfWF c → UsedIs c S →
      ConfWF (order.foldl (fun (s : Conf N V A × NodeProg N V A) n => s.1.addProgNode s.2 n) (c, p)).1 ∧
      UsedIs (order.foldl (fun (s : Conf N V A × NodeProg N V A) n => s.1.addProgNode s.2 n) (c, p)).1
        (fun n => S n ∨ n ∈ order) := by
  induction order with
  | nil => intro c p S hw h; exact ⟨hw, h.congr (fun n => by simp)⟩
  | cons m order ih =>
    intro c p S hw h
    rw [List.foldl_cons]
    unfold Conf.addProgNode
    cases hi : c.instanceOf m with
    | none =>
      obtain ⟨h1, h2⟩ := ih c p S hw h
      refine ⟨h1, ?_⟩
      have : UsedIs c (fun n => S n ∨ n = m) := by
        intro n ni hn
        rw [h n ni hn]
        constructor
        · exact Or.inl
        · rintro (hs | hs)
          · exact hs
          · subst hs; rw [hi] at hn; cases hn
      exact (ih c p _ hw this).2.congr (fun n => by simp [or_assoc])
    | some ni =>
      obtain ⟨h1, h2⟩ := ih (c.markUsed m) (p.appendOp ni.asOp) _ (wf_markUsed hw m) (usedIs_markUsed hw h m)
      exact ⟨h1, h2.congr (fun n => by simp [or_assoc])⟩

theorem connects_used (es : List (Conn N)) :
    ∀ (s r : Conf N V A × NodeProg N V A) (S : N → Prop), ConfWF s.1 → UsedIs s.1 S → (∀ e ∈ es, S e.dst) →
      es.foldlM (fun (s : Conf N V A × NodeProg N V A) e => s.1.connect s.2 e) s = some r →
      ConfWF r.1 ∧ UsedIs r.1 S := by
  induction es with
  | nil => intro s r S hw h _ hf; simp at hf; subst hf; exact ⟨hw, h⟩
  | cons e es ih =>
    intro s r S hw h he hf
    rw [List.foldlM_cons] at hf
    cases hc : s.1.connect s.2 e with
    | none => simp [hc] at hf
    | some s' =>
      simp only [hc, Option.bind_eq_bind, Option.bind_some] at hf
      have key : ConfWF s'.1 ∧ UsedIs s'.1 S := by
        unfold Conf.connect at hc
        split at hc
        · cases hc; exact ⟨hw, h⟩
        · split at hc
          · cases hc; exact ⟨hw, h⟩
          · rename_i di _
            cases hm : di.modLocal2Global e.dstIn with
            | none => simp [hm] at hc
            | some md =>
              simp only [hm, Option.map_some, Option.some.injEq] at hc
              have h1 : s'.1 = s.1.markUsed e.dst := by rw [← hc]
              rw [h1]
              refine ⟨wf_markUsed hw _, (usedIs_markUsed hw h e.dst).congr ?_⟩
              intro n
              constructor
              · rintro (hs | hs)
                · exact hs
                · subst hs; exact he e (by simp)
              · exact Or.inl
      exact ih s' r S key.1 key.2 (fun e' h' => he e' (by simp [h'])) hf

theorem connects_wf (es : List (Conn N)) :
    ∀ (s r : Conf N V A × NodeProg N V A), ConfWF s.1 →
      es.foldlM (fun (s : Conf N V A × NodeProg N V A) e => s.1.connect s.2 e) s = some r → ConfWF r.1 := by
  induction es with
  | nil => intro s r hw hf; simp at hf; subst hf; exact hw
  | cons e es ih =>
    intro s r hw hf
    rw [List.foldlM_cons] at hf
    cases hc : s.1.connect s.2 e with
    | none => simp [hc] at hf
    | some s' =>
      simp only [hc, Option.bind_eq_bind, Option.bind_some] at hf
      have key : ConfWF s'.1 := by
        unfold Conf.connect at hc
        split at hc
        · cases hc; exact hw
        · split at hc
          · cases hc; exact hw
          · rename_i di _
            cases hm : di.modLocal2Global e.dstIn with
            | none => simp [hm] at hc
            | some md =>
              simp only [hm, Option.map_some, Option.some.injEq] at hc
              have h1 : s'.1 = s.1.markUsed e.dst := by rw [← hc]
              rw [h1]
              exact wf_markUsed hw _
      exact ih s' r key hf

variable [OfNat V 0]

theorem usedIs_rebuildPorts (T : NodeTable N V A) (a0 : A) {c : Conf N V A} (h : Heap V) (hw : ConfWF c) :
    UsedIs (c.rebuildPorts T a0 h).1 (fun _ => False) := by
  intro n ni hi
  have hr := rebuilt_rebuildPorts T a0 c h hw
  have hs := rebuildLoop_spec T c hw.nodup
  unfold Conf.instanceOf at hi
  cases hu : (c.rebuildPorts T a0 h).1.uniqueIndexFor n with
  | none => rw [hu] at hi; cases hi
  | some i =>
    rw [hu] at hi
    have hn : (c.rebuildPorts T a0 h).1.nodes[i]? =
      (c.ids[i]?).map (fun n => (n, some (instAt T c.paramModamt (c.ids.take i) n))) := hs.nodes i
    simp only [hn] at hi
    cases hci : c.ids[i]? with
    | none => simp [hci] at hi
    | some m =>
      simp only [hci, Option.map_some, Option.bind_some, Option.some.injEq] at hi
      subst hi
      simp [instAt]

theorem buildProg_split {T : NodeTable N V A} {a0 : A} {c c' : Conf N V A} {h h' : Heap V} {order : List N}
    {es : List (Conn N)} {p : NodeProg N V A} (hb : c.buildProg T a0 h order es = some (c', p, h')) :
    es.foldlM (fun (s : Conf N V A × NodeProg N V A) e => s.1.connect s.2 e)
      (order.foldl (fun (s : Conf N V A × NodeProg N V A) n => s.1.addProgNode s.2 n)
        ((c.rebuildPorts T a0 h).1, (c.rebuildPorts T a0 h).2.1)) = some (c', p) ∧
    h' = (c.rebuildPorts T a0 h).2.2 := by
  have hb' : ((es.foldlM (fun (s : Conf N V A × NodeProg N V A) e => s.1.connect s.2 e)
      (order.foldl (fun (s : Conf N V A × NodeProg N V A) n => s.1.addProgNode s.2 n)
        ((c.rebuildPorts T a0 h).1, (c.rebuildPorts T a0 h).2.1))).map
      (fun s => (s.1, s.2, (c.rebuildPorts T a0 h).2.2))) = some (c', p, h') := hb
  cases hf : es.foldlM (fun (s : Conf N V A × NodeProg N V A) e => s.1.connect s.2 e)
      (order.foldl (fun (s : Conf N V A × NodeProg N V A) n => s.1.addProgNode s.2 n)
        ((c.rebuildPorts T a0 h).1, (c.rebuildPorts T a0 h).2.1)) with
  | none => simp [hf] at hb'
  | some r =>
    simp only [hf, Option.map_some, Option.some.injEq, Prod.mk.injEq] at hb'
    obtain ⟨e1, e2, e3⟩ := hb'
    subst e1; subst e2
    exact ⟨rfl, e3.symm⟩

/-- `ConfWF` survives a rebuild, for any order and connections. -/
theorem wf_buildProg {T : NodeTable N V A} {a0 : A} {c c' : Conf N V A} {h h' : Heap V} {order : List N}
    {es : List (Conn N)} {p : NodeProg N V A} (hw : ConfWF c)
    (hb : c.buildProg T a0 h order es = some (c', p, h')) : ConfWF c' := by
  obtain ⟨h1, _⟩ := buildProg_split hb
  have hr := rebuilt_rebuildPorts T a0 c h hw
  exact connects_wf es _ _ (addNodes_used order _ _ _ hr.wf (usedIs_rebuildPorts T a0 h hw)).1 h1

/-- After a rebuild exactly the nodes of the program count as used. -/
theorem used_buildProg {T : NodeTable N V A} {a0 : A} {c c' : Conf N V A} {h h' : Heap V} {order : List N}
    {es : List (Conn N)} {p : NodeProg N V A} (hw : ConfWF c) (he : ∀ e ∈ es, e.dst ∈ order)
    (hb : c.buildProg T a0 h order es = some (c', p, h')) : UsedIs c' (fun n => n ∈ order) := by
  obtain ⟨h1, _⟩ := buildProg_split hb
  have hr := rebuilt_rebuildPorts T a0 c h hw
  obtain ⟨q1, q2⟩ := addNodes_used order (c.rebuildPorts T a0 h).1 (c.rebuildPorts T a0 h).2.1 _ hr.wf
    (usedIs_rebuildPorts T a0 h hw)
  exact (connects_used es _ _ _ q1 (q2.congr (S' := fun n => n ∈ order) (fun n => by simp)) he h1).2

/-- Rebuilding keeps the list of allocated nodes, for any order and connections. -/
theorem ids_addNodes (order : List N) : ∀ (c : Conf N V A) (p : NodeProg N V A),
    (order.foldl (fun (s : Conf N V A × NodeProg N V A) n => s.1.addProgNode s.2 n) (c, p)).1.ids = c.ids := by
  induction order with
  | nil => intro c p; rfl
  | cons n order ih =>
    intro c p
    rw [List.foldl_cons]
    unfold Conf.addProgNode
    cases c.instanceOf n with
    | none => exact ih c p
    | some ni => exact (ih _ _).trans (ids_markUsed c n)

theorem ids_connects (es : List (Conn N)) : ∀ (s r : Conf N V A × NodeProg N V A),
    es.foldlM (fun (s : Conf N V A × NodeProg N V A) e => s.1.connect s.2 e) s = some r → r.1.ids = s.1.ids := by
  induction es with
  | nil => intro s r h; simp at h; subst h; rfl
  | cons e es ih =>
    intro s r hf
    rw [List.foldlM_cons] at hf
    cases hc : s.1.connect s.2 e with
    | none => simp [hc] at hf
    | some s' =>
      simp only [hc, Option.bind_eq_bind, Option.bind_some] at hf
      rw [ih s' r hf]
      unfold Conf.connect at hc
      split at hc
      · cases hc; rfl
      · split at hc
        · cases hc; rfl
        · rename_i di _
          cases hm : di.modLocal2Global e.dstIn with
          | none => simp [hm] at hc
          | some md =>
            simp only [hm, Option.map_some, Option.some.injEq] at hc
            have h1 : s'.1 = s.1.markUsed e.dst := by rw [← hc]
            rw [h1, ids_markUsed]

theorem ids_buildProg {T : NodeTable N V A} {a0 : A} {c c' : Conf N V A} {h h' : Heap V} {order : List N}
    {es : List (Conn N)} {p : NodeProg N V A} (hw : ConfWF c)
    (hb : c.buildProg T a0 h order es = some (c', p, h')) : c'.ids = c.ids := by
  obtain ⟨h1, _⟩ := buildProg_split hb
  rw [ids_connects es _ _ h1, ids_addNodes, rebuilt_ids T a0 c h hw.nodup]

/-- The tables after a rebuild. -/
theorem tables_buildProg {T : NodeTable N V A} {a0 : A} {c c' : Conf N V A} {h h' : Heap V} {order : List N}
    {es : List (Conn N)} {p : NodeProg N V A}
    (hb : c.buildProg T a0 h order es = some (c', p, h')) : SameTables (c.rebuildPorts T a0 h).1 c' := by
  obtain ⟨h1, _⟩ := buildProg_split hb
  exact (sameTables_addProgNodes order _ _).trans (sameTables_connects es _ _ h1)

end HexoDSP.Engine

namespace HexoDSP.Engine
open EngineSpec

variable {N V A M σ : Type} [DecidableEq N]

/-- Adding nodes and connections changes nothing but the list of operations. -/
def OnlyProg (p q : NodeProg N V A) : Prop := q = { p with prog := q.prog }

theorem OnlyProg.refl (p : NodeProg N V A) : OnlyProg p p := rfl

theorem OnlyProg.trans {p q r : NodeProg N V A} (h1 : OnlyProg p q) (h2 : OnlyProg q r) : OnlyProg p r := by
  unfold OnlyProg at *
  rw [h2, h1]

theorem onlyProg_appendOp (p : NodeProg N V A) (op : NodeOp N) : OnlyProg p (p.appendOp op) := by
  unfold NodeProg.appendOp OnlyProg
  split <;> rfl

theorem onlyProg_addNodes (order : List N) : ∀ (c : Conf N V A) (p : NodeProg N V A),
    OnlyProg p (order.foldl (fun (s : Conf N V A × NodeProg N V A) n => s.1.addProgNode s.2 n) (c, p)).2 := by
  induction order with
  | nil => intro c p; rfl
  | cons n order ih =>
    intro c p
    rw [List.foldl_cons]
    unfold Conf.addProgNode
    cases c.instanceOf n with
    | none => exact ih c p
    | some ni => exact (onlyProg_appendOp p ni.asOp).trans (ih _ _)

theorem onlyProg_connects (es : List (Conn N)) : ∀ (s r : Conf N V A × NodeProg N V A),
    es.foldlM (fun (s : Conf N V A × NodeProg N V A) e => s.1.connect s.2 e) s = some r → OnlyProg s.2 r.2 := by
  induction es with
  | nil => intro s r h; simp at h; subst h; rfl
  | cons e es ih =>
    intro s r hf
    rw [List.foldlM_cons] at hf
    cases hc : s.1.connect s.2 e with
    | none => simp [hc] at hf
    | some s' =>
      simp only [hc, Option.bind_eq_bind, Option.bind_some] at hf
      refine OnlyProg.trans ?_ (ih s' r hf)
      unfold Conf.connect at hc
      split at hc
      · cases hc; rfl
      · split at hc
        · cases hc; rfl
        · rename_i di _
          cases hm : di.modLocal2Global e.dstIn with
          | none => simp [hm] at hc
          | some md =>
            simp only [hm, Option.map_some, Option.some.injEq] at hc
            rw [← hc]
            simp only
            split <;> rfl

variable [OfNat V 0]

theorem onlyProg_buildProg {T : NodeTable N V A} {a0 : A} {c c' : Conf N V A} {h h' : Heap V} {order : List N}
    {es : List (Conn N)} {p : NodeProg N V A}
    (hb : c.buildProg T a0 h order es = some (c', p, h')) : OnlyProg (freshProg T a0 c h) p := by
  obtain ⟨h1, _⟩ := buildProg_split hb
  exact (onlyProg_addNodes order _ _).trans (onlyProg_connects es _ _ h1)

/-- `Rebuilt` for any order and connections. -/
theorem rebuilt_buildProg {T : NodeTable N V A} {a0 : A} {c c' : Conf N V A} {h h' : Heap V} {order : List N}
    {es : List (Conn N)} {p : NodeProg N V A} (hw : ConfWF c)
    (hb : c.buildProg T a0 h order es = some (c', p, h')) : Rebuilt T c c' := by
  obtain ⟨h1, _⟩ := buildProg_split hb
  have h2 : ∀ (order : List N) (c1 : Conf N V A) (p : NodeProg N V A), Rebuilt T c c1 →
      Rebuilt T c (order.foldl (fun (s : Conf N V A × NodeProg N V A) n => s.1.addProgNode s.2 n) (c1, p)).1 := by
    intro order
    induction order with
    | nil => intro c1 p h; exact h
    | cons n order ih =>
      intro c1 p h
      rw [List.foldl_cons]
      unfold Conf.addProgNode
      cases c1.instanceOf n with
      | none => exact ih c1 p h
      | some ni => exact ih _ _ (rebuilt_markUsed h n)
  have h3 : ∀ (es : List (Conn N)) (s r : Conf N V A × NodeProg N V A), Rebuilt T c s.1 →
      es.foldlM (fun (s : Conf N V A × NodeProg N V A) e => s.1.connect s.2 e) s = some r → Rebuilt T c r.1 := by
    intro es
    induction es with
    | nil => intro s r h hf; simp at hf; subst hf; exact h
    | cons e es ih =>
      intro s r h hf
      rw [List.foldlM_cons] at hf
      cases hc : s.1.connect s.2 e with
      | none => simp [hc] at hf
      | some s' =>
        simp only [hc, Option.bind_eq_bind, Option.bind_some] at hf
        exact ih s' r (rebuilt_connect (c' := s'.1) (p' := s'.2) h hc) hf
  exact h3 es _ _ (h2 order _ _ (rebuilt_rebuildPorts T a0 c h hw)) h1

/-! ### Histories -/

theorem conf_send (w : World N V A M σ) (m : Msg N V A M) : (w.send m).conf = w.conf := by
  unfold World.send; split <;> rfl

theorem conf_sendAll (w : World N V A M σ) (ms : List (Msg N V A M)) : (w.sendAll ms).conf = w.conf := by
  unfold World.sendAll
  induction ms generalizing w with
  | nil => rfl
  | cons m ms ih => rw [List.foldl_cons, ih, conf_send]

variable [Add V] [Mul V] [Sub V] [Div V] [NatCast V]

theorem wf_step {T : NodeTable N V A} {a0 : A} {run : σ → CallIn N V A → σ × (Nat → Block V)}
    {w w1 : World N V A M σ} {op : EOp N V A M} {out : Option (BlockResult N V A)} (hw : ConfWF w.conf)
    (hp : Polite w op) (h : w.step T a0 run op = some (w1, out)) : ConfWF w1.conf := by
  cases op with
  | createNode n =>
    simp only [World.step, Option.some.injEq, Prod.mk.injEq] at h
    rw [← h.1]
    apply confWF_createNode hw
    have : w.conf.uniqueIndexFor n = none := by
      simpa [Polite, Allocated] using hp
    exact (uniqueIndexFor_none hw n).1 this
  | deleteNodes =>
    simp only [World.step, Conf.deleteNodes, Option.some.injEq, Prod.mk.injEq] at h
    rw [← h.1, conf_sendAll]
    exact confWF_new
  | setInput n i v =>
    simp only [World.step, Option.some.injEq, Prod.mk.injEq] at h
    rw [← h.1, conf_sendAll]
    exact (sameNodes_setInput w.conf n i v).wf hw
  | setAtom n i v =>
    simp only [World.step, Option.some.injEq, Prod.mk.injEq] at h
    rw [← h.1, conf_sendAll]
    exact (sameNodes_setAtom w.conf n i v).wf hw
  | setModamt p v =>
    simp only [World.step, Option.some.injEq, Prod.mk.injEq] at h
    rw [← h.1, conf_sendAll]
    exact (sameNodes_setModamt w.conf p v).wf hw
  | sync order es copyOld =>
    simp only [World.step] at h
    cases hb : w.conf.buildProg T a0 w.shared.heap order es with
    | none => simp [hb] at h
    | some r =>
      simp only [hb, Option.map_some, Option.some.injEq, Prod.mk.injEq] at h
      rw [← h.1, conf_send]
      exact wf_buildProg (p := r.2.1) (h' := r.2.2) hw hb
  | monitor n ins outs =>
    simp only [World.step, Option.some.injEq, Prod.mk.injEq] at h
    rw [← h.1, conf_sendAll]; exact hw
  | injectMidi ev =>
    simp only [World.step, Option.some.injEq, Prod.mk.injEq] at h
    rw [← h.1, conf_send]; exact hw
  | poll =>
    simp only [World.step] at h
    cases hb : w.exec.applyAll w.shared w.queue with
    | none => simp [hb] at h
    | some r =>
      simp only [hb, Option.map_some, Option.some.injEq, Prod.mk.injEq] at h
      rw [← h.1]; exact hw
  | process nf =>
    simp only [World.step] at h
    cases hb : w.exec.process run w.shared.heap w.st nf with
    | none => simp [hb] at h
    | some r =>
      simp only [hb, Option.map_some, Option.some.injEq, Prod.mk.injEq] at h
      rw [← h.1]; exact hw
  | dropOne =>
    simp only [World.step] at h
    split at h
    · simp only [Option.some.injEq, Prod.mk.injEq] at h; rw [← h.1]; exact hw
    · simp only [Option.some.injEq, Prod.mk.injEq] at h; rw [← h.1]; exact hw
  | setSlope n =>
    simp only [World.step, Option.some.injEq, Prod.mk.injEq] at h
    rw [← h.1]; exact hw

theorem wf_ran {T : NodeTable N V A} {a0 : A} {run : σ → CallIn N V A → σ × (Nat → Block V)}
    {w w1 : World N V A M σ} {ops : List (EOp N V A M)} (hr : Ran T a0 run w ops w1) (hw : ConfWF w.conf) :
    ConfWF w1.conf := by
  induction hr with
  | nil => exact hw
  | cons hp hs _ ih => exact ih (wf_step hw hp hs)
  | outside st _ ih => exact ih hw

theorem wf_reached {T : NodeTable N V A} {a0 : A} {run : σ → CallIn N V A → σ × (Nat → Block V)}
    {w : World N V A M σ} (hr : Reached T a0 run w) : ConfWF w.conf := by
  obtain ⟨st, ops, h⟩ := hr
  exact wf_ran h confWF_new

instance (w : World N V A M σ) (op : EOp N V A M) : Decidable (Polite w op) := by
  cases op <;> unfold Polite <;> infer_instance

/-- Running a concrete history, for the examples. -/
def politeRun (T : NodeTable N V A) (a0 : A) (run : σ → CallIn N V A → σ × (Nat → Block V)) :
    World N V A M σ → List (EOp N V A M) → Option (World N V A M σ)
  | w, [] => some w
  | w, op :: ops =>
    if Polite w op then
      match w.step T a0 run op with
      | none => none
      | some r => politeRun T a0 run r.1 ops
    else none

theorem ran_of_politeRun {T : NodeTable N V A} {a0 : A} {run : σ → CallIn N V A → σ × (Nat → Block V)}
    (ops : List (EOp N V A M)) : ∀ (w w' : World N V A M σ), politeRun T a0 run w ops = some w' →
      Ran T a0 run w ops w' := by
  induction ops with
  | nil => intro w w' h; cases h; exact .nil _
  | cons op ops ih =>
    intro w w' h
    unfold politeRun at h
    split at h
    · rename_i hp
      split at h
      · cases h
      · rename_i r hs
        exact .cons (out := r.2) hp hs (ih _ _ h)
    · cases h

end HexoDSP.Engine
