import Verif.Lemmas.NodeConf2
/-! The program built from an order of nodes and a list of connections. -/

set_option linter.unusedSectionVars false

namespace HexoDSP.Engine
open EngineSpec

variable {N V A : Type} [DecidableEq N]

/-- Instance data of an allocated node after the ports are rebuilt. -/
def instOf (T : NodeTable N V A) (amts : List ((N × Nat) × Option V)) (ids : List N) (n : N) :
    NodeInstance N := instAt T amts (ids.take (ids.idxOf n)) n

/-- The connection names ports that exist. -/
def validConn (T : NodeTable N V A) (ids : List N) (e : Conn N) : Bool :=
  decide (e.src ∈ ids ∧ e.dst ∈ ids ∧ e.dstIn < T.inCount e.dst ∧ e.srcOut < T.outCount e.src)

/-- The connection in terms of global indices. -/
def globalConn (T : NodeTable N V A) (amts : List ((N × Nat) × Option V)) (ids : List N)
    (e : Conn N) : Nat × Nat × Option Nat :=
  ((instOf T amts ids e.src).outR.1 + e.srcOut, (instOf T amts ids e.dst).inR.1 + e.dstIn,
   if (amtOf amts e.dst e.dstIn).isSome then
     some ((instOf T amts ids e.dst).modR.1 + modCnt amts e.dst e.dstIn) else none)

def inMask (T : NodeTable N V A) (ids : List N) (es : List (Conn N)) (n : N) : Nat :=
  es.foldl (fun m e => if validConn T ids e ∧ e.dst = n then m ||| (1 <<< e.dstIn) else m) 0

def outMask (T : NodeTable N V A) (ids : List N) (es : List (Conn N)) (n : N) : Nat :=
  es.foldl (fun m e => if validConn T ids e ∧ e.src = n then m ||| (1 <<< e.srcOut) else m) 0

/-- The operation of node `n` once the connections `es` are added. -/
def opFor (T : NodeTable N V A) (amts : List ((N × Nat) × Option V)) (ids : List N)
    (es : List (Conn N)) (n : N) : NodeOp N :=
  { (instOf T amts ids n).asOp with
    inputs := (es.filter (fun e => validConn T ids e && decide (e.dst = n))).map (globalConn T amts ids)
    inConnected := inMask T ids es n
    outConnected := outMask T ids es n }

theorem idxOf_get {ids : List N} {n : N} (h : n ∈ ids) : ids[ids.idxOf n]? = some n := by
  have hlt := List.idxOf_lt_length_iff.2 h
  rw [List.getElem?_eq_getElem hlt]
  congr 1
  exact List.getElem_idxOf hlt

theorem idxOf_inj {ids : List N} {n m : N} (h : n ∈ ids) (hm : m ∈ ids) (he : ids.idxOf n = ids.idxOf m) :
    n = m := by
  have h1 := idxOf_get h
  have h2 := idxOf_get hm
  rw [he, h2] at h1
  exact (Option.some.inj h1).symm

theorem testBit_one_shiftLeft (i b : Nat) : (1 <<< i).testBit b = decide (i = b) := by
  rw [Nat.one_shiftLeft, Nat.testBit_two_pow]

theorem mask_testBit (p : Conn N → Prop) [DecidablePred p] (f : Conn N → Nat) (es : List (Conn N)) (b : Nat) :
    ∀ m0, (es.foldl (fun m e => if p e then m ||| (1 <<< f e) else m) m0).testBit b = true ↔
      m0.testBit b = true ∨ ∃ e ∈ es, p e ∧ f e = b := by
  induction es with
  | nil => simp
  | cons e es ih =>
    intro m0
    rw [List.foldl_cons, ih]
    by_cases hp : p e
    · simp only [hp, if_true, Nat.testBit_or, testBit_one_shiftLeft, Bool.or_eq_true, decide_eq_true_eq]
      constructor
      · rintro ((h | h) | ⟨e', h1, h2⟩)
        · exact Or.inl h
        · exact Or.inr ⟨e, by simp, hp, h⟩
        · exact Or.inr ⟨e', by simp [h1], h2⟩
      · rintro (h | ⟨e', h1, h2, h3⟩)
        · exact Or.inl (Or.inl h)
        · rcases List.mem_cons.1 h1 with h | h
          · subst h; exact Or.inl (Or.inr h3)
          · exact Or.inr ⟨e', h, h2, h3⟩
    · simp only [hp, if_false]
      constructor
      · rintro (h | ⟨e', h1, h2⟩)
        · exact Or.inl h
        · exact Or.inr ⟨e', by simp [h1], h2⟩
      · rintro (h | ⟨e', h1, h2, h3⟩)
        · exact Or.inl h
        · rcases List.mem_cons.1 h1 with h | h
          · subst h; exact absurd h2 hp
          · exact Or.inr ⟨e', h, h2, h3⟩

theorem inMask_testBit (T : NodeTable N V A) (ids : List N) (es : List (Conn N)) (n : N) (b : Nat) :
    (inMask T ids es n).testBit b = true ↔ ∃ e ∈ es, validConn T ids e ∧ e.dst = n ∧ e.dstIn = b := by
  unfold inMask
  rw [mask_testBit (fun e => validConn T ids e = true ∧ e.dst = n) (fun e => e.dstIn)]
  simp [and_assoc]

theorem outMask_testBit (T : NodeTable N V A) (ids : List N) (es : List (Conn N)) (n : N) (b : Nat) :
    (outMask T ids es n).testBit b = true ↔ ∃ e ∈ es, validConn T ids e ∧ e.src = n ∧ e.srcOut = b := by
  unfold outMask
  rw [mask_testBit (fun e => validConn T ids e = true ∧ e.src = n) (fun e => e.srcOut)]
  simp [and_assoc]

theorem instanceOf_eq {T : NodeTable N V A} {c0 c : Conf N V A} (h : Rebuilt T c0 c)
    {n : N} (hn : n ∈ c0.ids) :
    ∃ u, c.instanceOf n = some { instOf T c0.paramModamt c0.ids n with inUse := u } := by
  have := idxOf_get hn
  rw [← h.ids] at this
  obtain ⟨u, hu⟩ := instanceOf_rebuilt h this
  exact ⟨u, by rw [hu, h.ids]; rfl⟩

theorem opFor_idx (T : NodeTable N V A) (amts : List ((N × Nat) × Option V)) {ids : List N}
    (es : List (Conn N)) {n : N} (hn : n ∈ ids) (hl : ids.length ≤ 256) :
    (opFor T amts ids es n).idx = ids.idxOf n := by
  have hlt := List.idxOf_lt_length_iff.2 hn
  simp only [opFor, NodeInstance.asOp, instOf, instAt, List.length_take]
  rw [Nat.min_eq_left (by omega), Nat.mod_eq_of_lt (by omega)]

/-! ### Adding the nodes -/

theorem addNodes_spec {T : NodeTable N V A} {c0 : Conf N V A} {p0 : NodeProg N V A}
    (hl : c0.ids.length ≤ 256) (rest : List N) :
    ∀ (done : List N) (c : Conf N V A) (p : NodeProg N V A), Rebuilt T c0 c →
      p = { p0 with prog := done.map (opFor T c0.paramModamt c0.ids []) } →
      (done ++ rest).Nodup → (∀ n ∈ done ++ rest, n ∈ c0.ids) →
      Rebuilt T c0 (rest.foldl (fun (s : Conf N V A × NodeProg N V A) n => s.1.addProgNode s.2 n) (c, p)).1 ∧
      (rest.foldl (fun (s : Conf N V A × NodeProg N V A) n => s.1.addProgNode s.2 n) (c, p)).2 =
        { p0 with prog := (done ++ rest).map (opFor T c0.paramModamt c0.ids []) } := by
  induction rest with
  | nil => intro done c p h1 h2 _ _; simpa using ⟨h1, h2⟩
  | cons n rest ih =>
    intro done c p h1 h2 hnd hmem
    have hn : n ∈ c0.ids := hmem n (by simp)
    obtain ⟨u, hu⟩ := instanceOf_eq h1 hn
    have hstep : c.addProgNode p n =
        (c.markUsed n, { p0 with prog := (done ++ [n]).map (opFor T c0.paramModamt c0.ids []) }) := by
      unfold Conf.addProgNode
      rw [hu]
      simp only
      congr 1
      unfold NodeProg.appendOp
      have hany : p.prog.any (fun o => o.idx == ({ instOf T c0.paramModamt c0.ids n with inUse := u } : NodeInstance N).asOp.idx) = false := by
        rw [List.any_eq_false]
        intro o ho
        rw [h2] at ho
        obtain ⟨m, hm, rfl⟩ := List.mem_map.1 ho
        have hmc : m ∈ c0.ids := hmem m (by simp [hm])
        rw [opFor_idx T _ _ hmc hl]
        have : ({ instOf T c0.paramModamt c0.ids n with inUse := u } : NodeInstance N).asOp.idx = c0.ids.idxOf n :=
          opFor_idx T c0.paramModamt [] hn hl
        rw [this]
        intro hb
        have := idxOf_inj hmc hn (by simpa using hb)
        subst this
        have := List.nodup_append.1 hnd
        exact this.2.2 m hm m (by simp) rfl
      rw [hany]
      simp only [Bool.false_eq_true, if_false, h2]
      congr 1
      rw [List.map_append]
      rfl
    rw [List.foldl_cons, hstep]
    have := ih (done ++ [n]) _ _ (rebuilt_markUsed h1 n) rfl (by simpa using hnd)
      (fun m hm => hmem m (by simpa using hm))
    simpa using this

/-! ### Adding the connections -/

theorem addInput_map (f : N → NodeOp N) (order : List N) (n : N) (i o : Nat) (md : Option Nat)
    (hd : ∀ m ∈ order, (f m).idx = (f n).idx → m = n) (hnd : order.Nodup) :
    addInput (f n).idx i o md (order.map f) =
      order.map (fun m => if m = n then
        { (f m).setInFlag i with inputs := (f m).inputs ++ [(o, i, md)] } else f m) := by
  induction order with
  | nil => rfl
  | cons a order ih =>
    simp only [List.map_cons, addInput]
    by_cases ha : (f a).idx = (f n).idx
    · have han := hd a (by simp) ha
      subst han
      rw [if_pos rfl, if_pos rfl]
      congr 1
      apply List.map_congr_left
      intro m hm
      have : m ≠ a := fun h => (List.nodup_cons.1 hnd).1 (h ▸ hm)
      rw [if_neg this]
    · have han : a ≠ n := fun h => ha (by rw [h])
      rw [if_neg ha, if_neg han]
      congr 1
      exact ih (fun m hm => hd m (by simp [hm])) (List.nodup_cons.1 hnd).2

theorem region_owner (f : N → Nat) {ids : List N} {n m : N} (hn : n ∈ ids) (hm : m ∈ ids) {k : Nat}
    (hk : k < f n)
    (h : tot f (ids.take (ids.idxOf m)) ≤ tot f (ids.take (ids.idxOf n)) + k ∧
      tot f (ids.take (ids.idxOf n)) + k < tot f (ids.take (ids.idxOf m)) + f m) : m = n := by
  apply idxOf_inj hm hn
  exact region_unique f ids _ _ _ m n (idxOf_get hm) (idxOf_get hn) h ⟨by omega, by omega⟩

theorem inMask_snoc (T : NodeTable N V A) (ids : List N) (es : List (Conn N)) (e : Conn N) (n : N) :
    inMask T ids (es ++ [e]) n =
      if validConn T ids e ∧ e.dst = n then inMask T ids es n ||| (1 <<< e.dstIn) else inMask T ids es n := by
  simp [inMask, List.foldl_append]

theorem outMask_snoc (T : NodeTable N V A) (ids : List N) (es : List (Conn N)) (e : Conn N) (n : N) :
    outMask T ids (es ++ [e]) n =
      if validConn T ids e ∧ e.src = n then outMask T ids es n ||| (1 <<< e.srcOut) else outMask T ids es n := by
  simp [outMask, List.foldl_append]

/-- The operation of node `m` after the first loop of `append_edge`. -/
def opMid (T : NodeTable N V A) (amts : List ((N × Nat) × Option V)) (ids : List N)
    (es : List (Conn N)) (e : Conn N) (m : N) : NodeOp N :=
  { opFor T amts ids es m with outConnected := outMask T ids (es ++ [e]) m }

theorem setOutFlag_opFor {T : NodeTable N V A} {amts : List ((N × Nat) × Option V)} {ids : List N}
    {es : List (Conn N)} {e : Conn N} (hv : validConn T ids e) {m : N} (hm : m ∈ ids) :
    (opFor T amts ids es m).setOutFlag (globalConn T amts ids e).1 =
      opMid T amts ids es e m := by
  have hv' := hv
  simp only [validConn, decide_eq_true_eq] at hv'
  unfold NodeOp.setOutFlag opMid
  rw [outMask_snoc]
  by_cases hme : m = e.src
  · subst hme
    have h1 : (opFor T amts ids es e.src).outR.1 ≤ (globalConn T amts ids e).1 ∧
        (globalConn T amts ids e).1 < (opFor T amts ids es e.src).outR.2 := by
      simp only [globalConn, opFor, NodeInstance.asOp, instOf, instAt]
      omega
    rw [if_pos h1, if_pos ⟨hv, rfl⟩]
    have h2 : (globalConn T amts ids e).1 - (opFor T amts ids es e.src).outR.1 = e.srcOut := by
      simp only [globalConn, opFor, NodeInstance.asOp, instOf, instAt]
      omega
    rw [h2]
    rfl
  · have h1 : ¬ ((opFor T amts ids es m).outR.1 ≤ (globalConn T amts ids e).1 ∧
        (globalConn T amts ids e).1 < (opFor T amts ids es m).outR.2) := by
      intro h
      exact hme (region_owner T.outCount hv'.1 hm hv'.2.2.2 h)
    rw [if_neg h1, if_neg]
    · rfl
    · rintro ⟨_, h⟩; exact hme h.symm

theorem setInFlag_opMid {T : NodeTable N V A} {amts : List ((N × Nat) × Option V)} {ids : List N}
    {es : List (Conn N)} {e : Conn N} (hv : validConn T ids e) :
    (opMid T amts ids es e e.dst).setInFlag (globalConn T amts ids e).2.1 =
      { opMid T amts ids es e e.dst with inConnected := inMask T ids (es ++ [e]) e.dst } := by
  have hv' := hv
  simp only [validConn, decide_eq_true_eq] at hv'
  unfold NodeOp.setInFlag
  have h1 : (opMid T amts ids es e e.dst).inR.1 ≤ (globalConn T amts ids e).2.1 ∧
      (globalConn T amts ids e).2.1 < (opMid T amts ids es e e.dst).inR.2 := by
    simp only [globalConn, opMid, opFor, NodeInstance.asOp, instOf, instAt]
    omega
  have h2 : (globalConn T amts ids e).2.1 - (opMid T amts ids es e e.dst).inR.1 = e.dstIn := by
    simp only [globalConn, opMid, opFor, NodeInstance.asOp, instOf, instAt]
    omega
  rw [if_pos h1, h2, inMask_snoc, if_pos ⟨hv, rfl⟩]
  rfl

theorem connect_spec {T : NodeTable N V A} (hT : ∀ n, T.inCount n ≤ 32) {c0 : Conf N V A}
    {p0 : NodeProg N V A} (hl : c0.ids.length ≤ 256) {order : List N} (hnd : order.Nodup)
    (hord : ∀ n ∈ order, n ∈ c0.ids) {es : List (Conn N)} {e : Conn N}
    {c c' : Conf N V A} {p p' : NodeProg N V A} (hc : Rebuilt T c0 c)
    (hp : p = { p0 with prog := order.map (opFor T c0.paramModamt c0.ids es) })
    (h : c.connect p e = some (c', p')) :
    Rebuilt T c0 c' ∧ p' = { p0 with prog := order.map (opFor T c0.paramModamt c0.ids (es ++ [e])) } := by
  have hinv : ∀ (hv : validConn T c0.ids e = false),
      p = { p0 with prog := order.map (opFor T c0.paramModamt c0.ids (es ++ [e])) } := by
    intro hv
    rw [hp]
    congr 1
    apply List.map_congr_left
    intro m _
    unfold opFor
    rw [inMask_snoc, outMask_snoc, List.filter_append]
    simp [hv]
  have hsrc : e.src ∉ c0.ids → c.instanceOf e.src = none := by
    intro h; exact instanceOf_rebuilt_none hc (by rw [hc.ids]; exact h)
  have hdst : e.dst ∉ c0.ids → c.instanceOf e.dst = none := by
    intro h; exact instanceOf_rebuilt_none hc (by rw [hc.ids]; exact h)
  by_cases hs : e.src ∈ c0.ids
  · by_cases hd : e.dst ∈ c0.ids
    · obtain ⟨u, hu⟩ := instanceOf_eq hc hs
      obtain ⟨w, hw⟩ := instanceOf_eq hc hd
      unfold Conf.connect at h
      simp only [hu, hw] at h
      cases hm : ({ instOf T c0.paramModamt c0.ids e.dst with inUse := w } : NodeInstance N).modLocal2Global e.dstIn with
      | none => rw [hm] at h; simp at h
      | some md =>
        rw [hm] at h
        simp only [Option.map_some, Option.some.injEq, Prod.mk.injEq] at h
        obtain ⟨h1, h2⟩ := h
        refine ⟨h1 ▸ rebuilt_markUsed hc e.dst, ?_⟩
        by_cases hv : validConn T c0.ids e = true
        · have hv' := hv
          simp only [validConn, decide_eq_true_eq] at hv'
          have hi : ({ instOf T c0.paramModamt c0.ids e.dst with inUse := w } : NodeInstance N).inLocal2Global e.dstIn
              = some (globalConn T c0.paramModamt c0.ids e).2.1 := by
            exact if_pos (show (instOf T c0.paramModamt c0.ids e.dst).inR.1 + e.dstIn <
              (instOf T c0.paramModamt c0.ids e.dst).inR.2 by simp only [instOf, instAt]; omega)
          have ho : ({ instOf T c0.paramModamt c0.ids e.src with inUse := u } : NodeInstance N).outLocal2Global e.srcOut
              = some (globalConn T c0.paramModamt c0.ids e).1 := by
            exact if_pos (show (instOf T c0.paramModamt c0.ids e.src).outR.1 + e.srcOut <
              (instOf T c0.paramModamt c0.ids e.src).outR.2 by simp only [instOf, instAt]; omega)
          have hmd : md = (globalConn T c0.paramModamt c0.ids e).2.2 := by
            have hlt : e.dstIn < 32 := Nat.lt_of_lt_of_le hv'.2.2.1 (hT e.dst)
            rw [instOf, modLocal_instAt T _ _ _ _ _ hlt] at hm
            simp only [hv'.2.2.1, true_and, Option.some.injEq] at hm
            rw [← hm]
            rfl
          rw [hi, ho] at h2
          simp only at h2
          rw [← h2, hmd]
          unfold NodeProg.appendEdge
          rw [hp]
          simp only
          congr 1
          rw [List.map_map]
          have hmap : List.map ((fun o => o.setOutFlag (globalConn T c0.paramModamt c0.ids e).1) ∘
                opFor T c0.paramModamt c0.ids es) order =
              order.map (opMid T c0.paramModamt c0.ids es e) := by
            apply List.map_congr_left
            intro m hm
            exact setOutFlag_opFor hv (hord m hm)
          rw [hmap]
          have hidx : ({ instOf T c0.paramModamt c0.ids e.dst with inUse := w } : NodeInstance N).asOp.idx =
              (opMid T c0.paramModamt c0.ids es e e.dst).idx := rfl
          rw [hidx, addInput_map]
          · apply List.map_congr_left
            intro m hm
            by_cases hmd : m = e.dst
            · subst hmd
              rw [if_pos rfl, setInFlag_opMid hv]
              unfold opMid opFor
              rw [List.filter_append]
              simp [hv]
            · rw [if_neg hmd]
              unfold opMid opFor
              rw [inMask_snoc, List.filter_append, if_neg (by rintro ⟨_, h⟩; exact hmd h.symm)]
              have : ¬ e.dst = m := fun h => hmd h.symm
              simp [this]
          · intro m hm he
            have hmi := hord m hm
            have e1 := opFor_idx T c0.paramModamt es hmi hl
            have e2 := opFor_idx T c0.paramModamt es hd hl
            have : (opFor T c0.paramModamt c0.ids es m).idx = (opFor T c0.paramModamt c0.ids es e.dst).idx := he
            rw [e1, e2] at this
            exact idxOf_inj hmi hd this
          · exact hnd
        · have hvf : validConn T c0.ids e = false := by simpa using hv
          rw [← hinv hvf, ← h2]
          have : ¬ (e.dstIn < T.inCount e.dst ∧ e.srcOut < T.outCount e.src) := by
            intro hh
            exact hv (by simp [validConn, hs, hd, hh.1, hh.2])
          split
          · rename_i g o hg ho
            exfalso
            apply this
            constructor
            · unfold NodeInstance.inLocal2Global at hg
              split at hg
              · rename_i hlt; simp only [instOf, instAt] at hlt; omega
              · cases hg
            · unfold NodeInstance.outLocal2Global at ho
              split at ho
              · rename_i hlt; simp only [instOf, instAt] at hlt; omega
              · cases ho
          · rfl
    · have hvf : validConn T c0.ids e = false := by simp [validConn, hd]
      have hx : c.connect p e = some (c, p) := by
        unfold Conf.connect
        rw [hdst hd]
        cases c.instanceOf e.src <;> rfl
      rw [hx] at h
      cases h
      exact ⟨hc, hinv hvf⟩
  · have hvf : validConn T c0.ids e = false := by simp [validConn, hs]
    have hx : c.connect p e = some (c, p) := by
      unfold Conf.connect
      rw [hsrc hs]
    rw [hx] at h
    cases h
    exact ⟨hc, hinv hvf⟩

theorem connectAll_spec {T : NodeTable N V A} (hT : ∀ n, T.inCount n ≤ 32) {c0 : Conf N V A}
    {p0 : NodeProg N V A} (hl : c0.ids.length ≤ 256) {order : List N} (hnd : order.Nodup)
    (hord : ∀ n ∈ order, n ∈ c0.ids) (rest : List (Conn N)) :
    ∀ (es : List (Conn N)) (c : Conf N V A) (p : NodeProg N V A) (r : Conf N V A × NodeProg N V A),
      Rebuilt T c0 c → p = { p0 with prog := order.map (opFor T c0.paramModamt c0.ids es) } →
      rest.foldlM (fun (s : Conf N V A × NodeProg N V A) e => s.1.connect s.2 e) (c, p) = some r →
      Rebuilt T c0 r.1 ∧ r.2 = { p0 with prog := order.map (opFor T c0.paramModamt c0.ids (es ++ rest)) } := by
  induction rest with
  | nil =>
    intro es c p r hc hp h
    simp at h
    subst h
    simpa using ⟨hc, hp⟩
  | cons e rest ih =>
    intro es c p r hc hp h
    rw [List.foldlM_cons] at h
    cases hcon : c.connect p e with
    | none => simp [hcon] at h
    | some s =>
      obtain ⟨c', p'⟩ := s
      simp only [hcon, Option.bind_eq_bind, Option.bind_some] at h
      obtain ⟨h1, h2⟩ := connect_spec hT hl hnd hord hc hp hcon
      have := ih (es ++ [e]) c' p' r h1 h2 h
      simpa using this

end HexoDSP.Engine
