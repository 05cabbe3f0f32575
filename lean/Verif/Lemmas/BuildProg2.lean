import Verif.Lemmas.BuildProg
import Verif.Lemmas.NodeProg
/-! The uploaded program: layout, values and well-formedness. -/

set_option linter.unusedSectionVars false

namespace HexoDSP.Engine
open EngineSpec

variable {N V A : Type} [DecidableEq N]

/-- The tables of the configurator other than the node list. -/
structure SameTables (c c' : Conf N V A) : Prop where
  params : c'.params = c.params
  paramValues : c'.paramValues = c.paramValues
  paramModamt : c'.paramModamt = c.paramModamt
  atoms : c'.atoms = c.atoms
  atomValues : c'.atomValues = c.atomValues

theorem SameTables.refl (c : Conf N V A) : SameTables c c := ⟨rfl, rfl, rfl, rfl, rfl⟩

theorem SameTables.trans {a b c : Conf N V A} (h1 : SameTables a b) (h2 : SameTables b c) :
    SameTables a c :=
  ⟨h2.1.trans h1.1, h2.2.trans h1.2, h2.3.trans h1.3, h2.4.trans h1.4, h2.5.trans h1.5⟩

theorem sameTables_markUsed (c : Conf N V A) (n : N) : SameTables c (c.markUsed n) := by
  unfold Conf.markUsed
  split <;> exact ⟨rfl, rfl, rfl, rfl, rfl⟩

theorem sameTables_addProgNodes (order : List N) (c : Conf N V A) (p : NodeProg N V A) :
    SameTables c (order.foldl (fun (s : Conf N V A × NodeProg N V A) n => s.1.addProgNode s.2 n) (c, p)).1 := by
  induction order generalizing c p with
  | nil => exact SameTables.refl c
  | cons n order ih =>
    rw [List.foldl_cons]
    unfold Conf.addProgNode
    cases c.instanceOf n with
    | none => exact ih c p
    | some ni => exact (sameTables_markUsed c n).trans (ih _ _)

theorem sameTables_connect {c c' : Conf N V A} {p p' : NodeProg N V A} {e : Conn N}
    (h : c.connect p e = some (c', p')) : SameTables c c' := by
  unfold Conf.connect at h
  split at h
  · cases h; exact SameTables.refl c
  · split at h
    · cases h; exact SameTables.refl c
    · rename_i di _
      cases hm : di.modLocal2Global e.dstIn with
      | none => simp [hm] at h
      | some md =>
        simp only [hm, Option.map_some, Option.some.injEq, Prod.mk.injEq] at h
        rw [← h.1]
        exact sameTables_markUsed c e.dst

theorem sameTables_connects (es : List (Conn N)) :
    ∀ (s r : Conf N V A × NodeProg N V A),
      es.foldlM (fun (s : Conf N V A × NodeProg N V A) e => s.1.connect s.2 e) s = some r →
      SameTables s.1 r.1 := by
  induction es with
  | nil => intro s r h; simp at h; subst h; exact SameTables.refl _
  | cons e es ih =>
    intro s r h
    rw [List.foldlM_cons] at h
    cases hc : s.1.connect s.2 e with
    | none => simp [hc] at h
    | some s' =>
      simp only [hc, Option.bind_eq_bind, Option.bind_some] at h
      exact (sameTables_connect (c' := s'.1) (p' := s'.2) hc).trans (ih s' r h)

variable [OfNat V 0]

/-- The program as `rebuild_node_ports` leaves it. -/
def freshProg (T : NodeTable N V A) (a0 : A) (c : Conf N V A) (h : Heap V) : NodeProg N V A :=
  (c.rebuildPorts T a0 h).2.1

theorem buildProg_spec {T : NodeTable N V A} (hT : ∀ n, T.inCount n ≤ 32) {a0 : A} {c c' : Conf N V A}
    {h h' : Heap V} {order : List N} {es : List (Conn N)} {p : NodeProg N V A} (hw : ConfWF c)
    (hl : c.ids.length ≤ 256) (hnd : order.Nodup) (hord : ∀ n ∈ order, n ∈ c.ids)
    (hb : c.buildProg T a0 h order es = some (c', p, h')) :
    Rebuilt T c c' ∧ SameTables (c.rebuildPorts T a0 h).1 c' ∧
    p = { freshProg T a0 c h with prog := order.map (opFor T c.paramModamt c.ids es) } ∧
    h' = (c.rebuildPorts T a0 h).2.2 := by
  unfold Conf.buildProg at hb
  obtain ⟨h1, h2⟩ := addNodes_spec (T := T) (c0 := c) (p0 := freshProg T a0 c h) hl order []
    (c.rebuildPorts T a0 h).1 (freshProg T a0 c h) (rebuilt_rebuildPorts T a0 c h hw) rfl
    (by simpa using hnd) (by simpa using hord)
  have ht := sameTables_addProgNodes order (c.rebuildPorts T a0 h).1 (freshProg T a0 c h)
  have hb' : ((es.foldlM (fun (s : Conf N V A × NodeProg N V A) e => s.1.connect s.2 e)
      (order.foldl (fun (s : Conf N V A × NodeProg N V A) n => s.1.addProgNode s.2 n)
        ((c.rebuildPorts T a0 h).1, freshProg T a0 c h))).map
      (fun s => (s.1, s.2, (c.rebuildPorts T a0 h).2.2))) = some (c', p, h') := hb
  generalize order.foldl (fun (s : Conf N V A × NodeProg N V A) n => s.1.addProgNode s.2 n)
    ((c.rebuildPorts T a0 h).1, freshProg T a0 c h) = s at *
  cases hf : es.foldlM (fun (s : Conf N V A × NodeProg N V A) e => s.1.connect s.2 e) s with
  | none => simp [hf] at hb'
  | some r =>
    simp only [hf, Option.map_some, Option.some.injEq, Prod.mk.injEq] at hb'
    obtain ⟨e1, e2, e3⟩ := hb'
    have h2' : s.2 = { freshProg T a0 c h with prog := order.map (opFor T c.paramModamt c.ids []) } := by
      simpa using h2
    have hc := connectAll_spec hT hl hnd hord es [] s.1 s.2 r h1 h2' hf
    have ht2 := sameTables_connects es s r hf
    subst e1; subst e2
    refine ⟨hc.1, ht.trans ht2, by simpa using hc.2, e3.symm⟩

/-- Connecting panics only for the 33rd input. -/
theorem connect_isSome {T : NodeTable N V A} {c0 c : Conf N V A} (hc : Rebuilt T c0 c)
    (p : NodeProg N V A) (e : Conn N) (he : e.dstIn ≠ 32) : ∃ r, c.connect p e = some r := by
  unfold Conf.connect
  by_cases hs : e.src ∈ c0.ids
  · by_cases hd : e.dst ∈ c0.ids
    · obtain ⟨u, hu⟩ := instanceOf_eq hc hs
      obtain ⟨w, hw⟩ := instanceOf_eq hc hd
      simp only [hu, hw]
      have hl : (instOf T c0.paramModamt c0.ids e.dst).in2mod.length = 32 := by
        simp [instOf, instAt, in2modOf]
      have : ∃ md, ({ instOf T c0.paramModamt c0.ids e.dst with inUse := w } : NodeInstance N).modLocal2Global e.dstIn = some md := by
        by_cases hgt : e.dstIn > 32
        · refine ⟨none, ?_⟩
          exact if_pos (show e.dstIn > (instOf T c0.paramModamt c0.ids e.dst).in2mod.length by omega)
        · refine ⟨(instOf T c0.paramModamt c0.ids e.dst).in2mod[e.dstIn]'(by omega), ?_⟩
          refine (if_neg (show ¬ e.dstIn > (instOf T c0.paramModamt c0.ids e.dst).in2mod.length by omega)).trans ?_
          exact List.getElem?_eq_getElem (l := (instOf T c0.paramModamt c0.ids e.dst).in2mod) (by omega)
      obtain ⟨md, hmd⟩ := this
      rw [hmd]
      exact ⟨_, rfl⟩
    · rw [instanceOf_rebuilt_none hc (n := e.dst) (by rw [hc.ids]; exact hd)]
      cases c.instanceOf e.src <;> exact ⟨_, rfl⟩
  · rw [instanceOf_rebuilt_none hc (n := e.src) (by rw [hc.ids]; exact hs)]
    exact ⟨_, rfl⟩

theorem rebuilt_connect {T : NodeTable N V A} {c0 c c' : Conf N V A} {p p' : NodeProg N V A} {e : Conn N}
    (hc : Rebuilt T c0 c) (h : c.connect p e = some (c', p')) : Rebuilt T c0 c' := by
  unfold Conf.connect at h
  split at h
  · cases h; exact hc
  · split at h
    · cases h; exact hc
    · rename_i di _
      cases hm : di.modLocal2Global e.dstIn with
      | none => simp [hm] at h
      | some md =>
        simp only [hm, Option.map_some, Option.some.injEq, Prod.mk.injEq] at h
        rw [← h.1]
        exact rebuilt_markUsed hc e.dst

theorem connects_isSome {T : NodeTable N V A} {c0 : Conf N V A} (es : List (Conn N)) :
    ∀ (s : Conf N V A × NodeProg N V A), Rebuilt T c0 s.1 → (∀ e ∈ es, e.dstIn ≠ 32) →
      ∃ r, es.foldlM (fun (s : Conf N V A × NodeProg N V A) e => s.1.connect s.2 e) s = some r := by
  induction es with
  | nil => intro s _ _; exact ⟨s, rfl⟩
  | cons e es ih =>
    intro s hs he
    obtain ⟨r, hr⟩ := connect_isSome hs s.2 e (he e (by simp))
    obtain ⟨q, hq⟩ := ih r (rebuilt_connect (c' := r.1) (p' := r.2) hs hr) (fun e' h => he e' (by simp [h]))
    exact ⟨q, by rw [List.foldlM_cons, hr]; exact hq⟩

theorem buildProg_isSome {T : NodeTable N V A} {a0 : A} {c : Conf N V A}
    {h : Heap V} {order : List N} {es : List (Conn N)} (hw : ConfWF c)
    (hl : c.ids.length ≤ 256) (hnd : order.Nodup) (hord : ∀ n ∈ order, n ∈ c.ids)
    (he : ∀ e ∈ es, e.dstIn ≠ 32) : ∃ r, c.buildProg T a0 h order es = some r := by
  obtain ⟨h1, _⟩ := addNodes_spec (T := T) (c0 := c) (p0 := freshProg T a0 c h) hl order []
    (c.rebuildPorts T a0 h).1 (freshProg T a0 c h) (rebuilt_rebuildPorts T a0 c h hw) rfl
    (by simpa using hnd) (by simpa using hord)
  obtain ⟨r, hr⟩ := connects_isSome es _ h1 he
  refine ⟨(r.1, r.2, (c.rebuildPorts T a0 h).2.2), ?_⟩
  show ((es.foldlM (fun (s : Conf N V A × NodeProg N V A) e => s.1.connect s.2 e)
      (order.foldl (fun (s : Conf N V A × NodeProg N V A) n => s.1.addProgNode s.2 n)
        ((c.rebuildPorts T a0 h).1, freshProg T a0 c h))).map
      (fun s => (s.1, s.2, (c.rebuildPorts T a0 h).2.2))) = _
  rw [hr]; rfl

/-! ### Writing the values -/

theorem foldl_set_get {α β : Type} (f : β → Nat) (v : β → α) (l : List β) :
    ∀ (a : List α) (i : Nat) (y : α), i < a.length → (∀ x ∈ l, f x = i → v x = y) →
      ((∃ x ∈ l, f x = i) ∨ a[i]? = some y) →
      (l.foldl (fun a x => a.set (f x) (v x)) a)[i]? = some y := by
  induction l with
  | nil =>
    intro a i y _ _ h
    rcases h with ⟨x, hx, _⟩ | h
    · simp at hx
    · exact h
  | cons b l ih =>
    intro a i y hi hv h
    rw [List.foldl_cons]
    apply ih _ _ _ (by simpa using hi) (fun x hx => hv x (by simp [hx]))
    by_cases hb : f b = i
    · right
      rw [getElem?_set_eq, if_pos ⟨hb, hi⟩, hv b (by simp) hb]
    · rcases h with ⟨x, hx, hxi⟩ | h
      · rcases List.mem_cons.1 hx with hx | hx
        · subst hx; exact absurd hxi hb
        · exact Or.inl ⟨x, hx, hxi⟩
      · right
        rw [getElem?_set_eq, if_neg (fun hh => hb hh.1)]; exact h

theorem foldl_set_length {α β : Type} (f : β → Nat) (v : β → α) (l : List β) (a : List α) :
    (l.foldl (fun a x => a.set (f x) (v x)) a).length = a.length := by
  induction l generalizing a with
  | nil => rfl
  | cons b l ih => rw [List.foldl_cons, ih]; simp

/-- One step of the fold over the modulators. -/
def storeMod (mods : List (ModOp V)) (np : NodeInputParam V) : List (ModOp V) :=
  match np.modamt with
  | none => mods
  | some m => mods.modify m.1 (fun mo => mo.setAmt m.2)

theorem storeParams_eq (l : List (NodeInputParam V)) (p : NodeProg N V A) :
    l.foldl storeParam p = { p with
      params := l.foldl (fun a np => a.set np.inputIdx np.value) p.params
      modops := l.foldl storeMod p.modops } := by
  induction l generalizing p with
  | nil => rfl
  | cons a l ih => rw [List.foldl_cons, ih]; rfl

theorem storeAtoms_eq (l : List (NodeInputAtom A)) (p : NodeProg N V A) :
    l.foldl storeAtom p = { p with atoms := l.foldl (fun a na => a.set na.atIdx na.value) p.atoms } := by
  induction l generalizing p with
  | nil => rfl
  | cons a l ih => rw [List.foldl_cons, ih]; rfl

theorem fillProg_eq (c : Conf N V A) (p : NodeProg N V A) :
    c.fillProg p = { p with
      params := (c.params.map (fun e => e.2)).foldl (fun a np => a.set np.inputIdx np.value) p.params
      modops := (c.params.map (fun e => e.2)).foldl storeMod p.modops
      atoms := (c.atoms.map (fun e => e.2)).foldl (fun a na => a.set na.atIdx na.value) p.atoms } := by
  unfold Conf.fillProg
  rw [storeParams_eq, storeAtoms_eq]

theorem storeMod_get (l : List (NodeInputParam V)) :
    ∀ (mods : List (ModOp V)) (i : Nat) (mo : ModOp V) , mods[i]? = some mo →
      ∃ mo', (l.foldl storeMod mods)[i]? = some mo' ∧ mo'.modbuf = mo.modbuf ∧ mo'.inbuf = mo.inbuf ∧
        mo'.outbuf = mo.outbuf ∧
        ∀ y, (∀ np ∈ l, ∀ m, np.modamt = some m → m.1 = i → m.2 = y) →
          ((∃ np ∈ l, ∃ m, np.modamt = some m ∧ m.1 = i) ∨ mo.amount = y) → mo'.amount = y := by
  induction l with
  | nil =>
    intro mods i mo h
    refine ⟨mo, h, rfl, rfl, rfl, ?_⟩
    rintro y _ (⟨np, hnp, _⟩ | hy)
    · simp at hnp
    · exact hy
  | cons np l ih =>
    intro mods i mo h
    rw [List.foldl_cons]
    cases hm : np.modamt with
    | none =>
      have : storeMod mods np = mods := by simp [storeMod, hm]
      rw [this]
      obtain ⟨mo', a, b, c, d, e⟩ := ih mods i mo h
      refine ⟨mo', a, b, c, d, fun y h1 h2 => e y (fun q hq => h1 q (by simp [hq])) ?_⟩
      rcases h2 with ⟨q, hq, m, hqm, hmi⟩ | h2
      · rcases List.mem_cons.1 hq with hq | hq
        · subst hq; rw [hm] at hqm; cases hqm
        · exact Or.inl ⟨q, hq, m, hqm, hmi⟩
      · exact Or.inr h2
    | some m =>
      have hs : storeMod mods np = mods.modify m.1 (fun mo => mo.setAmt m.2) := by simp [storeMod, hm]
      rw [hs]
      by_cases hmi : m.1 = i
      · have hg : (mods.modify m.1 (fun mo => mo.setAmt m.2))[i]? = some (mo.setAmt m.2) := by
          rw [List.getElem?_modify]; simp [hmi, h]
        obtain ⟨mo', a, b, c, d, e⟩ := ih _ i _ hg
        refine ⟨mo', a, b, c, d, fun y h1 h2 => e y (fun q hq => h1 q (by simp [hq])) ?_⟩
        exact Or.inr (h1 np (by simp) m hm hmi)
      · have hg : (mods.modify m.1 (fun mo => mo.setAmt m.2))[i]? = some mo := by
          rw [List.getElem?_modify]; simp [hmi, h]
        obtain ⟨mo', a, b, c, d, e⟩ := ih _ i _ hg
        refine ⟨mo', a, b, c, d, fun y h1 h2 => e y (fun q hq => h1 q (by simp [hq])) ?_⟩
        rcases h2 with ⟨q, hq, m', hqm, hmi'⟩ | h2
        · rcases List.mem_cons.1 hq with hq | hq
          · subst hq; rw [hm] at hqm; cases hqm; exact absurd hmi' hmi
          · exact Or.inl ⟨q, hq, m', hqm, hmi'⟩
        · exact Or.inr h2

theorem storeMod_length (l : List (NodeInputParam V)) (mods : List (ModOp V)) :
    (l.foldl storeMod mods).length = mods.length := by
  induction l generalizing mods with
  | nil => rfl
  | cons a l ih =>
    rw [List.foldl_cons, ih]
    unfold storeMod
    split <;> simp

/-- First global index of a port kind of a node. -/
def base (f : N → Nat) (ids : List N) (n : N) : Nat := tot f (ids.take (ids.idxOf n))

theorem base_lt (f : N → Nat) {ids : List N} {n : N} (hn : n ∈ ids) : base f ids n + f n ≤ tot f ids := by
  have := tot_take_succ f ids (ids.idxOf n) n (idxOf_get hn)
  have h2 := tot_take_le_tot f ids (ids.idxOf n + 1)
  unfold base
  omega

theorem base_inj (f : N → Nat) {ids : List N} {n m : N} {k j : Nat} (hn : n ∈ ids) (hm : m ∈ ids)
    (hk : k < f n) (hj : j < f m) (h : base f ids n + k = base f ids m + j) : n = m ∧ k = j := by
  have : m = n := region_owner f hn hm hk (by unfold base at h; omega)
  subst this
  exact ⟨rfl, by omega⟩

theorem base_cover (f : N → Nat) (ids : List N) (hnd : ids.Nodup) {g : Nat} (hg : g < tot f ids) :
    ∃ n ∈ ids, ∃ k, k < f n ∧ g = base f ids n + k := by
  obtain ⟨i, n, h1, h2, h3⟩ := region_exists f ids g hg
  have hi : ids.idxOf n = i := by
    have hlt := (List.getElem?_eq_some_iff.1 h1).1
    have hget := (List.getElem?_eq_some_iff.1 h1).2
    rw [← hget]
    exact hnd.idxOf_getElem i hlt
  refine ⟨n, List.mem_of_getElem? h1, g - base f ids n, ?_, ?_⟩ <;> unfold base <;> rw [hi] <;> omega

theorem tiles_base (f : N → Nat) (ids : List N) (hnd : ids.Nodup) (region : N → Option (Nat × Nat))
    (h1 : ∀ n ∈ ids, region n = some (base f ids n, base f ids n + f n)) (h2 : ∀ n, n ∉ ids → region n = none) :
    Tiles region (tot f ids) := by
  have hmem : ∀ n r, region n = some r → n ∈ ids ∧ r = (base f ids n, base f ids n + f n) := by
    intro n r hr
    by_cases hn : n ∈ ids
    · rw [h1 n hn] at hr
      exact ⟨hn, (Option.some.inj hr).symm⟩
    · rw [h2 n hn] at hr; cases hr
  constructor
  · intro g
    constructor
    · intro hg
      obtain ⟨n, hn, k, hk, rfl⟩ := base_cover f ids hnd hg
      exact ⟨n, _, h1 n hn, by simp only; omega, by simp only; omega⟩
    · rintro ⟨n, r, hr, hw⟩
      obtain ⟨hn, rfl⟩ := hmem n r hr
      have := base_lt f hn
      have := hw.2
      simp only at this
      omega
  · intro g n m r s hr hs hwr hws
    obtain ⟨hn, rfl⟩ := hmem n r hr
    obtain ⟨hm, rfl⟩ := hmem m s hs
    obtain ⟨a1, a2⟩ := hwr
    obtain ⟨b1, b2⟩ := hws
    simp only at a1 a2 b1 b2
    exact (base_inj f (k := g - base f ids n) (j := g - base f ids m) hn hm (by omega) (by omega) (by omega)).1

/-- The sizes and values of what `upload_prog` sends for configuration `c`. -/
structure Filled (T : NodeTable N V A) (c : Conf N V A) (p : NodeProg N V A) : Prop where
  outLen : p.out.length = tot T.outCount c.ids
  inLen : p.inp.length = tot T.inCount c.ids
  atLen : p.atoms.length = tot T.atCount c.ids
  modLen : p.modops.length = tot (modTot T c.paramModamt) c.ids
  curLen : p.curInp.length = tot T.inCount c.ids
  parLen : p.params.length = tot T.inCount c.ids
  fbLen : p.outFb.length = tot T.outCount c.ids
  params : ∀ n ∈ c.ids, ∀ k, k < T.inCount n → p.params[base T.inCount c.ids n + k]? =
    some ((c.paramValues.lookup (n, k)).getD (T.normDef n k))
  atoms : ∀ n ∈ c.ids, ∀ k, k < T.atCount n → p.atoms[base T.atCount c.ids n + k]? =
    some ((c.atomValues.lookup (n, k)).getD (T.atomDef n k))
  mods : ∀ n ∈ c.ids, ∀ k, k < T.inCount n → ∀ a, amtOf c.paramModamt n k = some a →
    ∃ mo : ModOp V, p.modops[base (modTot T c.paramModamt) c.ids n + modCnt c.paramModamt n k]? = some mo ∧
      mo.amount = a

/-- Program `p` is what `upload_prog` sends for configuration `c`, `order` and `es`. -/
structure Built (T : NodeTable N V A) (c : Conf N V A) (order : List N) (es : List (Conn N))
    (p : NodeProg N V A) : Prop extends Filled T c p where
  prog : p.prog = order.map (opFor T c.paramModamt c.ids es)

theorem fill_filled {T : NodeTable N V A} {a0 : A} {c c' : Conf N V A}
    {h h' : Heap V} {pr : List (NodeOp N)} {p : NodeProg N V A} (hw : ConfWF c)
    (hst : SameTables (c.rebuildPorts T a0 h).1 c') (hp : p = { freshProg T a0 c h with prog := pr })
    (hh : h' = (c.rebuildPorts T a0 h).2.2) :
    Filled T c (c'.fillProg p) ∧ (c'.fillProg p).prog = pr ∧ (c'.fillProg p).locked = false ∧
    (c'.fillProg p).out = List.range' h.next (tot T.outCount c.ids) ∧
    (c'.fillProg p).inp = List.range' (h.next + tot T.outCount c.ids) (tot T.inCount c.ids) ∧
    (c'.fillProg p).modops.map (fun m => m.modbuf) =
      List.range' (h.next + tot T.outCount c.ids + tot T.inCount c.ids) (tot (modTot T c.paramModamt) c.ids) ∧
    h'.next = h.next + tot T.outCount c.ids + tot T.inCount c.ids + tot (modTot T c.paramModamt) c.ids ∧
    h'.freed = h.freed := by
  have hs := rebuildLoop_spec T c hw.nodup
  have hpar : c'.params = (c.rebuildLoop T).params := hst.params
  have hat : c'.atoms = (c.rebuildLoop T).atoms := hst.atoms
  rw [fillProg_eq, hpar, hat, hp]
  -- entries of the parameter table
  have hentry : ∀ np ∈ (c.rebuildLoop T).params.map (fun e => e.2), ∃ n ∈ c.ids, ∃ k, k < T.inCount n ∧
      np = paramEntry T c.paramModamt c.paramValues n k (base T.inCount c.ids n)
        (base (modTot T c.paramModamt) c.ids n) := by
    intro np hnp
    obtain ⟨⟨⟨n, k⟩, np'⟩, hm, rfl⟩ := List.mem_map.1 hnp
    have hlk := lookup_of_mem hs.parKeys hm
    obtain ⟨h1, h2⟩ := hs.parNone n k (by rw [hlk]; simp)
    have := hs.par _ n (idxOf_get h1) k h2
    rw [hlk] at this
    exact ⟨n, h1, k, h2, Option.some.inj this⟩
  have hentry' : ∀ n ∈ c.ids, ∀ k, k < T.inCount n →
      paramEntry T c.paramModamt c.paramValues n k (base T.inCount c.ids n)
        (base (modTot T c.paramModamt) c.ids n) ∈ (c.rebuildLoop T).params.map (fun e => e.2) := by
    intro n hn k hk
    have := hs.par _ n (idxOf_get hn) k hk
    exact List.mem_map.2 ⟨_, mem_of_lookup this, rfl⟩
  have hatentry : ∀ na ∈ (c.rebuildLoop T).atoms.map (fun e => e.2), ∃ n ∈ c.ids, ∃ k, k < T.atCount n ∧
      na = { atIdx := base T.atCount c.ids n + k, value := (c.atomValues.lookup (n, k)).getD (T.atomDef n k) } := by
    intro na hna
    obtain ⟨⟨⟨n, k⟩, na'⟩, hm, rfl⟩ := List.mem_map.1 hna
    have hlk := lookup_of_mem hs.atKeys hm
    obtain ⟨h1, h2⟩ := hs.atNone n k (by rw [hlk]; simp)
    have := hs.ats _ n (idxOf_get h1) k h2
    rw [hlk] at this
    exact ⟨n, h1, k, h2, Option.some.inj this⟩
  have hatentry' : ∀ n ∈ c.ids, ∀ k, k < T.atCount n →
      ({ atIdx := base T.atCount c.ids n + k, value := (c.atomValues.lookup (n, k)).getD (T.atomDef n k) } : NodeInputAtom A)
        ∈ (c.rebuildLoop T).atoms.map (fun e => e.2) := by
    intro n hn k hk
    have := hs.ats _ n (idxOf_get hn) k hk
    exact List.mem_map.2 ⟨_, mem_of_lookup this, rfl⟩
  have ho : (freshProg T a0 c h).out = List.range' h.next (c.rebuildLoop T).outLen := rfl
  have hi : (freshProg T a0 c h).inp =
    List.range' (h.next + (c.rebuildLoop T).outLen) (c.rebuildLoop T).inLen := rfl
  have hm : (freshProg T a0 c h).modops =
    (List.range' (h.next + (c.rebuildLoop T).outLen + (c.rebuildLoop T).inLen) (c.rebuildLoop T).modLen).map
      (fun b => { amount := 0, modbuf := b, outbuf := none, inbuf := none }) := rfl
  have hpl : (freshProg T a0 c h).params = List.replicate (c.rebuildLoop T).inLen 0 := rfl
  have hal : (freshProg T a0 c h).atoms = List.replicate (c.rebuildLoop T).atLen a0 := rfl
  have hcl : (freshProg T a0 c h).curInp = List.replicate (c.rebuildLoop T).inLen none := rfl
  have hfl : (freshProg T a0 c h).outFb = List.replicate (c.rebuildLoop T).outLen 0 := rfl
  refine ⟨⟨?_, ?_, ?_, ?_, ?_, ?_, ?_, ?_, ?_, ?_⟩, rfl, rfl, ?_, ?_, ?_, ?_, ?_⟩
  · simp [ho, hs.out]
  · simp [hi, hs.inp]
  · simp [foldl_set_length, hal, hs.at_]
  · simp [storeMod_length, hm, hs.mod]
  · simp [hcl, hs.inp]
  · simp [foldl_set_length, hpl, hs.inp]
  · simp [hfl, hs.out]
  · intro n hn k hk
    apply foldl_set_get (fun np : NodeInputParam V => np.inputIdx) (fun np => np.value)
    · have := base_lt T.inCount hn
      simp only [hpl, List.length_replicate, hs.inp]; omega
    · intro np hnp hidx
      obtain ⟨m, hm', j, hj, rfl⟩ := hentry np hnp
      obtain ⟨e1, e2⟩ := base_inj T.inCount hm' hn hj hk hidx
      subst e1; subst e2; rfl
    · exact Or.inl ⟨_, hentry' n hn k hk, rfl⟩
  · intro n hn k hk
    apply foldl_set_get (fun na : NodeInputAtom A => na.atIdx) (fun na => na.value)
    · have := base_lt T.atCount hn
      simp only [hal, List.length_replicate, hs.at_]; omega
    · intro np hnp hidx
      obtain ⟨m, hm', j, hj, rfl⟩ := hatentry np hnp
      obtain ⟨e1, e2⟩ := base_inj T.atCount hm' hn hj hk hidx
      subst e1; subst e2; rfl
    · exact Or.inl ⟨_, hatentry' n hn k hk, rfl⟩
  · intro n hn k hk a ha
    have hcnt : modCnt c.paramModamt n k < modTot T c.paramModamt n := modCnt_lt _ _ hk (by simp [ha])
    have hlt : base (modTot T c.paramModamt) c.ids n + modCnt c.paramModamt n k <
        (freshProg T a0 c h).modops.length := by
      have := base_lt (modTot T c.paramModamt) hn
      simp only [hm, List.length_map, List.length_range', hs.mod]; omega
    obtain ⟨mo', q1, q2, q3, q4, q5⟩ := storeMod_get ((c.rebuildLoop T).params.map (fun e => e.2))
      (freshProg T a0 c h).modops _ _ (List.getElem?_eq_getElem hlt)
    refine ⟨mo', q1, q5 a ?_ (Or.inl ⟨_, hentry' n hn k hk, _, (by simp only [paramEntry, ha, Option.map_some]; rfl), rfl⟩)⟩
    intro np hnp m hmm hmi
    obtain ⟨n', hn', j, hj, rfl⟩ := hentry np hnp
    simp only [paramEntry] at hmm
    cases haj : amtOf c.paramModamt n' j with
    | none => simp [haj] at hmm
    | some b =>
      simp only [haj, Option.map_some, Option.some.injEq] at hmm
      subst hmm
      simp only at hmi ⊢
      have hcj : modCnt c.paramModamt n' j < modTot T c.paramModamt n' := modCnt_lt _ _ hj (by simp [haj])
      obtain ⟨e1, e2⟩ := base_inj (modTot T c.paramModamt) hn' hn hcj hcnt hmi
      subst e1
      have : j = k := by
        rcases Nat.lt_trichotomy j k with hh | hh | hh
        · have := modCnt_lt c.paramModamt n' hh (by simp [haj]); omega
        · exact hh
        · have := modCnt_lt c.paramModamt n' hh (by simp [ha]); omega
      subst this
      rw [haj] at ha
      exact Option.some.inj ha
  · simp only [ho, hs.out]
  · simp only [hi, hs.out, hs.inp]
  · apply List.ext_getElem?
    intro i
    simp only [List.getElem?_map]
    rw [← hs.out, ← hs.inp, ← hs.mod]
    by_cases hlt : i < (freshProg T a0 c h).modops.length
    · obtain ⟨mo', q1, q2, q3, q4, q5⟩ := storeMod_get ((c.rebuildLoop T).params.map (fun e => e.2))
        (freshProg T a0 c h).modops _ _ (List.getElem?_eq_getElem hlt)
      rw [q1]
      simp only [Option.map_some, q2]
      have hl2 : i < (c.rebuildLoop T).modLen := by simpa [hm] using hlt
      simp [hm, hl2]
    · rw [List.getElem?_eq_none (by rw [storeMod_length]; omega)]
      have hl2 : ¬ i < (c.rebuildLoop T).modLen := by simpa [hm] using hlt
      rw [List.getElem?_eq_none (by simp; omega)]
      rfl
  · rw [hh, ← hs.out, ← hs.inp, ← hs.mod]; rfl
  · rw [hh]; rfl

theorem fill_built {T : NodeTable N V A} (hT : ∀ n, T.inCount n ≤ 32) {a0 : A} {c c' : Conf N V A}
    {h h' : Heap V} {order : List N} {es : List (Conn N)} {p : NodeProg N V A} (hw : ConfWF c)
    (hl : c.ids.length ≤ 256) (hnd : order.Nodup) (hord : ∀ n ∈ order, n ∈ c.ids)
    (hb : c.buildProg T a0 h order es = some (c', p, h')) :
    Built T c order es (c'.fillProg p) ∧ (c'.fillProg p).locked = false ∧
    (c'.fillProg p).out = List.range' h.next (tot T.outCount c.ids) ∧
    (c'.fillProg p).inp = List.range' (h.next + tot T.outCount c.ids) (tot T.inCount c.ids) ∧
    (c'.fillProg p).modops.map (fun m => m.modbuf) =
      List.range' (h.next + tot T.outCount c.ids + tot T.inCount c.ids) (tot (modTot T c.paramModamt) c.ids) ∧
    h'.next = h.next + tot T.outCount c.ids + tot T.inCount c.ids + tot (modTot T c.paramModamt) c.ids ∧
    h'.freed = h.freed := by
  obtain ⟨hr, hst, hp, hh⟩ := buildProg_spec hT hw hl hnd hord hb
  obtain ⟨h1, h2, h3⟩ := fill_filled hw hst hp hh
  exact ⟨⟨h1, h2⟩, h3⟩

end HexoDSP.Engine
