import Verif.Spec.BlockRun
import Verif.Lemmas.Block
/-! The tree made by `generate_tree` is the diagram: a map from the nodes of the tree to places of the diagram. -/

set_option linter.unusedSectionVars false
set_option linter.dupNamespace false

namespace HexoDSP.Block

/-- The places of a diagram that nodes of the tree stand for. -/
inductive Key where
  | root
  | area
  | res (p : Pos)
  | block (o : Pos)
  | zero

/-- What feeds an input with the name `i` whose left neighbour is the slot `p`. -/
def target (a : Area) (i : String) (p : Pos) : String × String × Key :=
  match a.refAtOrigin p with
  | none => (i, "", .zero)
  | some (b, o) =>
    match b.outputs.getD (p.2 - o.2).toNat none with
    | some name => (i, name, .block o)
    | none => (i, "", .zero)

/-- The child for a sink. -/
def sinkKid (s : Sink) : String × String × Key :=
  ("", "", match s.2.2 with
    | some _ => .res (s.1, s.2.1)
    | none => .block (s.1, s.2.1))

/-- The tree of a diagram with the effects `ss`. -/
def keyGraph (a : Area) (nullTyp : String) (ss : List Sink) : Graph Key where
  info
    | .root => (0, "<r>", "")
    | .area => (0, "<a>", "")
    | .res _ => (0, "<res>", "")
    | .zero => (0, nullTyp, "")
    | .block o => match a.blocks.lookup o with
      | some b => (b.id, b.typ, b.lbl)
      | none => (0, "", "")
  kids
    | .root => [("", "", .area)]
    | .area => ss.map sinkKid
    | .res p => [target a "" p]
    | .zero => []
    | .block o => match a.blocks.lookup o with
      | some b => (b.sources o).map (fun e => target a e.1 e.2)
      | none => []

/-- The node a job adds to. -/
def Job.out : Job → Nat
  | .node _ out => out
  | .output _ _ _ out => out
  | .sink _ _ out => out
  | .area _ out => out

/-- The child a job adds. -/
def Job.kid (a : Area) (κ : List Key) : Job → String × String × Key
  | .node n _ => ("", "", κ.getD n .zero)
  | .output _ p i _ => target a i p
  | .sink _ p _ => ("", "", .block p)
  | .area _ _ => ("", "", .area)

/-- A job that makes sense. -/
def Job.Valid (a : Area) (len : Nat) : Job → Prop
  | .node n out => n < len ∧ out < len
  | .output i _ _ out => i = 0 ∧ out < len
  | .sink i p out => i = 0 ∧ out < len ∧ ∃ b, (p, b) ∈ a.blocks
  | .area _ _ => False

/-- The children that a node will get. -/
def pend (a : Area) (κ : List Key) (js : List Job) (r : Nat) : List (String × String × Key) :=
  js.filterMap (fun j => if j.out = r then some (j.kid a κ) else none)

/-- What holds while the tree is made. -/
structure TreeInv (a : Area) (G : Graph Key) (g : Gen) (js : List Job) (κ : List Key) : Prop where
  len : κ.length = g.heap.length
  info : ∀ (r : Nat) (n : JNode) (k : Key), g.heap[r]? = some n → κ[r]? = some k → (n.id, n.typ, n.lbl) = G.info k
  kids : ∀ (r : Nat) (n : JNode) (k : Key), g.heap[r]? = some n → κ[r]? = some k →
    n.nodes.map (fun c => (c.1, c.2.1, κ.getD c.2.2 .zero)) ++ pend a κ js r = G.kids k
  refs : ∀ (r : Nat) (n : JNode), g.heap[r]? = some n → ∀ c ∈ n.nodes, c.2.2 < κ.length
  multi : ∀ o r, g.multi.lookup (0, o) = some r → κ[r]? = some (.block o)
  valid : ∀ j ∈ js, j.Valid a κ.length

theorem pend_append (a : Area) (κ : List Key) (js js' : List Job) (r : Nat) :
    pend a κ (js ++ js') r = pend a κ js r ++ pend a κ js' r := by
  simp [pend]

theorem pend_none (a : Area) (κ : List Key) {js : List Job} {r : Nat} (h : ∀ j ∈ js, j.out ≠ r) : pend a κ js r = [] := by
  unfold pend
  rw [List.filterMap_eq_nil_iff]
  intro j hj
  rw [if_neg (h j hj)]

theorem pend_all (a : Area) (κ : List Key) {js : List Job} {r : Nat} (h : ∀ j ∈ js, j.out = r) :
    pend a κ js r = js.map (Job.kid a κ) := by
  induction js with
  | nil => rfl
  | cons j js ih =>
    simp only [pend, List.filterMap_cons, h j List.mem_cons_self, if_true, List.map_cons]
    have := ih (fun j' hj' => h j' (List.mem_cons_of_mem _ hj'))
    unfold pend at this
    rw [this]

theorem getD_append_lt {κ : List Key} {n : Nat} (h : n < κ.length) (k : List Key) : (κ ++ k).getD n .zero = κ.getD n .zero := by
  rw [List.getD_eq_getElem?_getD, List.getD_eq_getElem?_getD, List.getElem?_append_left h]

theorem kid_append {a : Area} {κ : List Key} {j : Job} (h : j.Valid a κ.length) (k : List Key) :
    j.kid a (κ ++ k) = j.kid a κ := by
  cases j with
  | node n out => simp only [Job.kid]; rw [getD_append_lt h.1]
  | _ => rfl

theorem pend_grow {a : Area} {κ : List Key} {js : List Job} (h : ∀ j ∈ js, j.Valid a κ.length) (k : List Key) (r : Nat) :
    pend a (κ ++ k) js r = pend a κ js r := by
  unfold pend
  apply List.filterMap_congr
  intro j hj
  rw [kid_append (h j hj)]

theorem Valid.mono {a : Area} {n m : Nat} (h : n ≤ m) {j : Job} (hj : j.Valid a n) : j.Valid a m := by
  cases j with
  | node => exact ⟨Nat.lt_of_lt_of_le hj.1 h, Nat.lt_of_lt_of_le hj.2 h⟩
  | output => exact ⟨hj.1, Nat.lt_of_lt_of_le hj.2 h⟩
  | sink => exact ⟨hj.1, Nat.lt_of_lt_of_le hj.2.1 h, hj.2.2⟩
  | area => exact hj.elim

theorem Valid.out_lt {a : Area} {n : Nat} {j : Job} (hj : j.Valid a n) : j.out < n := by
  cases j with
  | node => exact hj.2
  | output => exact hj.2
  | sink => exact hj.2.1
  | area => exact hj.elim

/-- A new node whose children are still to come. -/
theorem inv_alloc {a : Area} {G : Graph Key} {g : Gen} {js : List Job} {κ : List Key} (h : TreeInv a G g js κ) (k : Key)
    {js' : List Job} (hout : ∀ j ∈ js', j.out = g.heap.length) (hv : ∀ j ∈ js', j.Valid a (κ.length + 1))
    (hk : js'.map (Job.kid a (κ ++ [k])) = G.kids k) :
    TreeInv a G (g.alloc (G.info k).1 (G.info k).2.1 (G.info k).2.2).1 (js' ++ js) (κ ++ [k]) := by
  have hlen := h.len
  have hget : ∀ (r : Nat) (n : JNode), (g.heap ++ [⟨(G.info k).1, (G.info k).2.1, (G.info k).2.2, []⟩])[r]? = some n →
      (g.heap[r]? = some n ∧ r < g.heap.length) ∨ (r = g.heap.length ∧ n = ⟨(G.info k).1, (G.info k).2.1, (G.info k).2.2, []⟩) := by
    intro r n hr
    rcases Nat.lt_or_ge r g.heap.length with hlt | hge
    · rw [List.getElem?_append_left hlt] at hr
      exact .inl ⟨hr, hlt⟩
    · rw [List.getElem?_append_right hge] at hr
      have : r - g.heap.length = 0 := by
        by_contra hne
        rw [List.getElem?_eq_none (by simp; omega)] at hr
        cases hr
      rw [this] at hr
      simp only [List.getElem?_cons_zero, Option.some.injEq] at hr
      exact .inr ⟨by omega, hr.symm⟩
  have hold : ∀ (r : Nat), r < g.heap.length → ∀ k', (κ ++ [k])[r]? = some k' → κ[r]? = some k' := by
    intro r hr k' hk'
    rwa [List.getElem?_append_left (by omega)] at hk'
  have hnew : ∀ k', (κ ++ [k])[g.heap.length]? = some k' → k' = k := by
    intro k' hk'
    rw [← hlen, List.getElem?_append_right (Nat.le_refl _), Nat.sub_self] at hk'
    simpa using hk'.symm
  constructor
  · simp [Gen.alloc, hlen]
  · intro r n k' hr hk'
    rcases hget r n hr with ⟨h1, h2⟩ | ⟨h1, h2⟩
    · exact h.info r n k' h1 (hold r h2 k' hk')
    · subst h1; rw [hnew k' hk', h2]
  · intro r n k' hr hk'
    rcases hget r n hr with ⟨h1, h2⟩ | ⟨h1, h2⟩
    · have h3 := h.kids r n k' h1 (hold r h2 k' hk')
      rw [pend_append, pend_none (js := js') a _ (by intro j hj; rw [hout j hj]; omega), pend_grow h.valid, List.nil_append]
      rw [← h3]
      congr 1
      apply List.map_congr_left
      intro c hc
      rw [getD_append_lt (h.refs r n h1 c hc)]
    · subst h1
      rw [hnew k' hk', h2, pend_append, pend_all a _ hout, hk,
        pend_none (js := js) a _ (by
          intro j hj he
          have := Valid.out_lt (h.valid j hj)
          omega)]
      simp
  · intro r n hr c hc
    rcases hget r n hr with ⟨h1, h2⟩ | ⟨h1, h2⟩
    · have := h.refs r n h1 c hc
      simp; omega
    · rw [h2] at hc; cases hc
  · intro o r hr
    have h1 := h.multi o r hr
    have h2 : r < κ.length := by
      by_contra hh
      rw [List.getElem?_eq_none (by omega)] at h1
      cases h1
    rw [List.getElem?_append_left h2]
    exact h1
  · intro j hj
    rw [List.length_append, List.length_singleton]
    rcases List.mem_append.1 hj with hj | hj
    · exact hv j hj
    · exact Valid.mono (Nat.le_succ _) (h.valid j hj)

/-- A job is done: the child is added. -/
theorem inv_add {a : Area} {G : Graph Key} {g : Gen} {js rest : List Job} {j : Job} {κ : List Key}
    (h : TreeInv a G g (js ++ j :: rest) κ) (hne : ∀ j' ∈ js, j'.out ≠ j.out) {i o : String} {n : Nat} {k : Key}
    (hkid : j.kid a κ = (i, o, k)) (hn : κ[n]? = some k) : TreeInv a G (g.add j.out i o n) (js ++ rest) κ := by
  have hnlt : n < κ.length := by
    by_contra hh
    rw [List.getElem?_eq_none (by omega)] at hn
    cases hn
  have hget : ∀ (r : Nat) (m : JNode), (g.add j.out i o n).heap[r]? = some m → ∃ m0, g.heap[r]? = some m0 ∧
      m = (if j.out = r then { m0 with nodes := m0.nodes ++ [(i, o, n)] } else m0) := by
    intro r m hr
    simp only [Gen.add, List.getElem?_modify] at hr
    cases h0 : g.heap[r]? with
    | none => rw [h0] at hr; cases hr
    | some m0 =>
      rw [h0] at hr
      refine ⟨m0, rfl, ?_⟩
      simp only [Option.map_eq_map, Option.map_some, Option.some.injEq] at hr
      rw [← hr]
  constructor
  · rw [h.len]; simp [Gen.add]
  · intro r m k' hr hk'
    obtain ⟨m0, h1, h2⟩ := hget r m hr
    rw [← h.info r m0 k' h1 hk', h2]
    split <;> rfl
  · intro r m k' hr hk'
    obtain ⟨m0, h1, h2⟩ := hget r m hr
    have h3 := h.kids r m0 k' h1 hk'
    rw [pend_append] at h3 ⊢
    by_cases hr' : j.out = r
    · rw [if_pos hr'] at h2
      have hp : pend a κ js r = [] := pend_none a κ (by rw [← hr']; exact hne)
      have hc : pend a κ (j :: rest) r = (i, o, k) :: pend a κ rest r := by
        simp only [pend, List.filterMap_cons, if_pos hr', hkid]
      rw [hp, List.nil_append, hc] at h3
      rw [hp, List.nil_append, h2, ← h3]
      simp only [List.map_append, List.map_cons, List.map_nil, List.append_assoc, List.cons_append, List.nil_append]
      rw [List.getD_eq_getElem?_getD, hn]
      rfl
    · rw [if_neg hr'] at h2
      have hc : pend a κ (j :: rest) r = pend a κ rest r := by
        simp only [pend, List.filterMap_cons, if_neg hr']
      rw [hc] at h3
      rw [h2]
      exact h3
  · intro r m hr c hc
    obtain ⟨m0, h1, h2⟩ := hget r m hr
    rw [h2] at hc
    split at hc
    · rcases List.mem_append.1 hc with hc | hc
      · exact h.refs r m0 h1 c hc
      · rw [List.mem_singleton] at hc; rw [hc]; exact hnlt
    · exact h.refs r m0 h1 c hc
  · exact h.multi
  · intro j' hj'
    apply h.valid
    rcases List.mem_append.1 hj' with h1 | h1
    · exact List.mem_append_left _ h1
    · exact List.mem_append_right _ (List.mem_cons_of_mem _ h1)

theorem inv_multi {a : Area} {G : Graph Key} {g : Gen} {js : List Job} {κ : List Key} (h : TreeInv a G g js κ) {o : Pos} {n : Nat}
    (hn : κ[n]? = some (.block o)) : TreeInv a G { g with multi := ((0, o), n) :: g.multi } js κ := by
  refine ⟨h.len, h.info, h.kids, h.refs, ?_, h.valid⟩
  intro o' r hr
  simp only [List.lookup_cons] at hr
  by_cases he : o' = o
  · subst he
    simp only [beq_self_eq_true] at hr
    cases hr
    exact hn
  · rw [beq_false_of_ne (by intro hh; exact he (Prod.mk.inj hh).2)] at hr
    exact h.multi o' r hr

/-- No blocks with areas inside. -/
def Area.Flat (a : Area) : Prop := ∀ e ∈ a.blocks, e.2.contains = (none, none)

theorem refAtOrigin_mem {a : Area} (ha : AreaOk a) {p o : Pos} {b : Block} (h : a.refAtOrigin p = some (b, o)) :
    (o, b) ∈ a.blocks ∧ Covers o b p := by
  unfold Area.refAtOrigin at h
  cases h1 : a.origin.lookup p with
  | none => rw [h1] at h; cases h
  | some o' =>
    rw [h1] at h
    simp only at h
    cases h2 : a.blocks.lookup o' with
    | none => rw [h2] at h; cases h
    | some b' =>
      rw [h2] at h
      simp only [Option.map_some, Option.some.injEq, Prod.mk.injEq] at h
      obtain ⟨rfl, rfl⟩ := h
      obtain ⟨b2, h3, h4⟩ := (ha.orig p o').1 h1
      have h5 := (mem_iff_lookup ha.load.keys o' b2).1 h3
      rw [h2] at h5
      cases h5
      exact ⟨h3, h4⟩

theorem refAtOrigin_of {a : Area} (ha : AreaOk a) {p o : Pos} {b : Block} (h : (o, b) ∈ a.blocks) (hc : Covers o b p) :
    a.refAtOrigin p = some (b, o) := by
  unfold Area.refAtOrigin
  rw [(ha.orig p o).2 ⟨b, h, hc⟩]
  simp only
  rw [(mem_iff_lookup ha.load.keys o b).1 h]
  rfl

theorem refAtOrigin_self {a : Area} (ha : AreaOk a) {o : Pos} {b : Block} (h : (o, b) ∈ a.blocks) :
    a.refAtOrigin o = some (b, o) := refAtOrigin_of ha h (covers_self (ha.load.rows _ h))

theorem blockJobs_flat {b : Block} (h : b.contains = (none, none)) (i : Nat) (o : Pos) (n : Nat) :
    Gen.blockJobs i b o n = (b.sources o).map (fun e => Job.output i e.2 e.1 n) := by
  unfold Gen.blockJobs Block.sources
  rw [h]
  simp

/-- The node of a block, made if needed; then its jobs are on the stack. -/
theorem inv_nodeFor {a : Area} (ha : AreaOk a) (hf : a.Flat) {nt : String} {ss : List Sink} {g : Gen} {js : List Job} {κ : List Key}
    (h : TreeInv a (keyGraph a nt ss) g js κ) {o : Pos} {b : Block} (hb : (o, b) ∈ a.blocks) :
    ∃ κ', TreeInv a (keyGraph a nt ss) (g.nodeFor 0 o b).1
      ((if (g.nodeFor 0 o b).2.2 then Gen.blockJobs 0 b o (g.nodeFor 0 o b).2.1 else []) ++ js) (κ ++ κ') ∧
      (κ ++ κ')[(g.nodeFor 0 o b).2.1]? = some (.block o) ∧
      (∀ j' ∈ (if (g.nodeFor 0 o b).2.2 then Gen.blockJobs 0 b o (g.nodeFor 0 o b).2.1 else []), ∀ j ∈ js, j'.out ≠ j.out) ∧
      (g.nodeFor 0 o b).1.multi = g.multi ∧ ((g.nodeFor 0 o b).2.2 = true ↔ g.multi.lookup (0, o) = none) := by
  unfold Gen.nodeFor
  cases hm : g.multi.lookup (0, o) with
  | some n =>
    refine ⟨[], ?_, ?_, ?_, rfl, ?_⟩
    · simpa using h
    · simpa using h.multi o n hm
    · intro j' hj'; simp at hj'
    · simp
  | none =>
    have hfl := hf _ hb
    have hlk := (mem_iff_lookup ha.load.keys o b).1 hb
    refine ⟨[.block o], ?_, ?_, ?_, rfl, by simp⟩
    · have := inv_alloc h (.block o) (js' := Gen.blockJobs 0 b o g.heap.length)
        (by
          intro j hj
          rw [blockJobs_flat hfl] at hj
          obtain ⟨e, -, rfl⟩ := List.mem_map.1 hj
          rfl)
        (by
          intro j hj
          rw [blockJobs_flat hfl] at hj
          obtain ⟨e, -, rfl⟩ := List.mem_map.1 hj
          exact ⟨rfl, by rw [h.len]; exact Nat.lt_succ_self _⟩)
        (by
          rw [blockJobs_flat hfl]
          simp only [List.map_map, keyGraph, hlk]
          rfl)
      have hi : (keyGraph a nt ss).info (.block o) = (b.id, b.typ, b.lbl) := by simp only [keyGraph, hlk]
      rw [hi] at this
      exact this
    · simp only [Gen.alloc]
      rw [← h.len, List.getElem?_append_right (Nat.le_refl _), Nat.sub_self]
      rfl
    · intro j' hj' j hj
      simp only [if_true] at hj'
      rw [blockJobs_flat hfl] at hj'
      obtain ⟨e, -, rfl⟩ := List.mem_map.1 hj'
      have h1 := Valid.out_lt (h.valid j hj)
      have h2 := h.len
      have h3 : (Job.output 0 e.2 e.1 g.heap.length).out = g.heap.length := rfl
      show (Job.output 0 e.2 e.1 g.heap.length).out ≠ j.out
      rw [h3]
      omega

/-- What is left to do. -/
def work (a : Area) (multi : List ((Nat × Pos) × Nat)) : Nat :=
  ((a.blocks.filter (fun e => (multi.lookup (0, e.1)).isNone)).map (fun e => e.2.inputRows.length + 1)).sum

theorem sum_filter_lt {α : Type} (f : α → Nat) (p q : α → Bool) (hpq : ∀ x, q x = true → p x = true) : ∀ (l : List α) (e : α), e ∈ l →
    p e = true → q e = false → ((l.filter q).map f).sum + f e ≤ ((l.filter p).map f).sum := by
  intro l
  have mono : ∀ l : List α, ((l.filter q).map f).sum ≤ ((l.filter p).map f).sum := by
    intro l
    induction l with
    | nil => simp
    | cons x l ih =>
      cases hq : q x with
      | true => simp only [List.filter_cons, hq, hpq x hq, if_true, List.map_cons, List.sum_cons]; omega
      | false =>
        cases hp : p x with
        | true => simp only [List.filter_cons, hq, hp, if_true, List.map_cons, List.sum_cons]; simp only [Bool.false_eq_true, if_false]; omega
        | false => simp only [List.filter_cons, hq, hp]; simpa using ih
  induction l with
  | nil => intro e he; cases he
  | cons x l ih =>
    intro e he hp hq
    rcases List.mem_cons.1 he with rfl | he
    · simp only [List.filter_cons, hp, hq, if_true, List.map_cons, List.sum_cons, Bool.false_eq_true, if_false]
      have := mono l
      omega
    · have := ih e he hp hq
      cases hq' : q x with
      | true => simp only [List.filter_cons, hq', hpq x hq', if_true, List.map_cons, List.sum_cons]; omega
      | false =>
        cases hp' : p x with
        | true => simp only [List.filter_cons, hq', hp', if_true, List.map_cons, List.sum_cons, Bool.false_eq_true, if_false]; omega
        | false => simp only [List.filter_cons, hq', hp', Bool.false_eq_true, if_false]; exact this

theorem work_less {a : Area} {multi : List ((Nat × Pos) × Nat)} {o : Pos} {b : Block} (hb : (o, b) ∈ a.blocks)
    (hm : multi.lookup (0, o) = none) (n : Nat) : work a (((0, o), n) :: multi) + (b.inputRows.length + 1) ≤ work a multi := by
  unfold work
  refine sum_filter_lt (fun e : Pos × Block => e.2.inputRows.length + 1) _ _ ?_ a.blocks (o, b) hb (by simp [hm]) (by simp)
  intro e he
  simp only [List.lookup_cons] at he
  by_cases heq : e.1 = o
  · rw [heq] at he; simp at he
  · rw [beq_false_of_ne (by intro hh; exact heq (Prod.mk.inj hh).2)] at he
    exact he

/-- One job, and less to do after it. -/
theorem step_inv {a : Area} (ha : AreaOk a) (hf : a.Flat) {nt : String} {ss : List Sink} {f : BlockFun} (hfa : f.areas[0]? = some a)
    {g : Gen} {rest : List Job} {j : Job} {κ : List Key} (h : TreeInv a (keyGraph a nt ss) g (j :: rest) κ) :
    ∃ g' js' κ', Gen.step f nt g rest j = .ok (g', js') ∧ TreeInv a (keyGraph a nt ss) g' js' (κ ++ κ') ∧
      js'.length + work a g'.multi < (j :: rest).length + work a g.multi := by
  have hval := h.valid j List.mem_cons_self
  have hlt : ∀ {n : Nat} {k : Key}, κ[n]? = some k → n < κ.length := by
    intro n k hn
    by_contra hh
    rw [List.getElem?_eq_none (by omega)] at hn
    cases hn
  -- a node for a block, with one more child for `j`
  have key : ∀ (o : Pos) (b : Block), (o, b) ∈ a.blocks → ∀ (g2 : Gen) (κ2 : List Key),
      TreeInv a (keyGraph a nt ss) g2
        ((if (g.nodeFor 0 o b).2.2 then Gen.blockJobs 0 b o (g.nodeFor 0 o b).2.1 else []) ++ rest) (κ ++ κ2) →
      g2.multi = g.multi → (κ ++ κ2)[(g.nodeFor 0 o b).2.1]? = some (.block o) →
      ((g.nodeFor 0 o b).2.2 = true ↔ g.multi.lookup (0, o) = none) →
      ∃ g' js' κ', (if (g.nodeFor 0 o b).2.2 then
          (Except.ok ({ g2 with multi := ((0, o), (g.nodeFor 0 o b).2.1) :: g2.multi }, Gen.blockJobs 0 b o (g.nodeFor 0 o b).2.1 ++ rest) :
            Except Err (Gen × List Job))
        else .ok (g2, rest)) = .ok (g', js') ∧ TreeInv a (keyGraph a nt ss) g' js' (κ ++ κ') ∧
        js'.length + work a g'.multi < (j :: rest).length + work a g.multi := by
    intro o b hb g2 κ2 hi hm hn hnew
    cases hnw : (g.nodeFor 0 o b).2.2 with
    | true =>
      rw [hnw] at hi
      simp only [if_true] at hi ⊢
      refine ⟨_, _, κ2, rfl, inv_multi hi hn, ?_⟩
      have := work_less hb (hnew.1 hnw) (g.nodeFor 0 o b).2.1
      rw [blockJobs_flat (hf _ hb)]
      simp only [List.length_append, List.length_map, List.length_cons, hm]
      have e : (b.sources o).length = b.inputRows.length := by simp [Block.sources]
      omega
    | false =>
      rw [hnw] at hi
      simp only [Bool.false_eq_true, if_false, List.nil_append] at hi ⊢
      refine ⟨g2, rest, κ2, rfl, hi, ?_⟩
      rw [hm, List.length_cons]
      omega
  cases j with
  | area => exact hval.elim
  | node n out =>
    refine ⟨_, _, [], rfl, ?_, ?_⟩
    · rw [List.append_nil]
      obtain ⟨k, hk⟩ : ∃ k, κ[n]? = some k := ⟨_, List.getElem?_eq_getElem hval.1⟩
      refine inv_add (js := []) (j := .node n out) h (by intro j hj; cases hj) (k := k) ?_ hk
      simp only [Job.kid]
      rw [List.getD_eq_getElem?_getD, hk]; rfl
    · simp only [Gen.add, List.length_cons]; omega
  | sink i p out =>
    obtain ⟨rfl, ho, b, hb⟩ := hval
    simp only [Gen.step, hfa, refAtOrigin_self ha hb]
    obtain ⟨κ', h1, h2, h3, h4, h5⟩ := inv_nodeFor ha hf h hb
    have hadd := inv_add (j := .sink 0 p out) h1
      (by intro j' hj'; exact h3 j' hj' _ List.mem_cons_self) (i := "") (o := "") (k := .block p) rfl h2
    exact key p b hb _ κ' hadd (by simpa [Gen.add] using h4) h2 h5
  | output i p inp out =>
    obtain ⟨rfl, ho⟩ := hval
    simp only [Gen.step, hfa]
    cases hr : a.refAtOrigin p with
    | none =>
      have h1 := inv_alloc h .zero (js' := []) (by intro j hj; cases hj) (by intro j hj; cases hj) rfl
      simp only [List.nil_append] at h1
      have hadd := inv_add (js := []) (j := .output 0 p inp out) h1 (by intro j hj; cases hj) (i := inp) (o := "") (k := .zero)
        (n := g.heap.length) (by simp only [Job.kid, target, hr])
        (by rw [← h.len, List.getElem?_append_right (Nat.le_refl _), Nat.sub_self]; rfl)
      refine ⟨_, _, [.zero], rfl, hadd, ?_⟩
      simp only [Gen.add, Gen.alloc, List.length_cons]
      omega
    | some bo =>
      obtain ⟨b, o⟩ := bo
      obtain ⟨hb, hc⟩ := refAtOrigin_mem ha hr
      obtain ⟨κ', h1, h2, h3, h4, h5⟩ := inv_nodeFor ha hf h hb
      simp only
      cases hout : b.outputs.getD (p.2 - o.2).toNat none with
      | some name =>
        have hadd := inv_add (j := .output 0 p inp out) h1
          (by intro j' hj'; exact h3 j' hj' _ List.mem_cons_self) (i := inp) (o := name) (k := .block o)
          (by simp only [Job.kid, target, hr, hout]) h2
        exact key o b hb _ κ' hadd (by simpa [Gen.add] using h4) h2 h5
      | none =>
        have hz := inv_alloc h1 .zero (js' := []) (by intro j hj; cases hj) (by intro j hj; cases hj) rfl
        simp only [List.nil_append] at hz
        have hadd := inv_add (j := .output 0 p inp out) hz
          (by intro j' hj'; exact h3 j' hj' _ List.mem_cons_self) (i := inp) (o := "") (k := .zero)
          (n := (g.nodeFor 0 o b).1.heap.length) (by simp only [Job.kid, target, hr, hout])
          (by rw [← h1.len, List.getElem?_append_right (Nat.le_refl _), Nat.sub_self]; rfl)
        rw [List.append_assoc] at hadd
        simp only
        refine key o b hb _ (κ' ++ [Key.zero]) hadd (by simpa [Gen.add, Gen.alloc] using h4) ?_ h5
        rw [← List.append_assoc, List.getElem?_append_left]
        · exact h2
        · by_contra hh
          rw [List.getElem?_eq_none (by omega)] at h2
          cases h2

theorem loop_inv {a : Area} (ha : AreaOk a) (hf : a.Flat) {nt : String} {ss : List Sink} {f : BlockFun} (hfa : f.areas[0]? = some a) :
    ∀ (fuel : Nat) {g : Gen} {js : List Job} {κ : List Key}, TreeInv a (keyGraph a nt ss) g js κ →
    js.length + work a g.multi ≤ fuel →
    ∃ g' κ', Gen.loop f nt fuel g js = some (.ok g') ∧ TreeInv a (keyGraph a nt ss) g' [] (κ ++ κ') := by
  intro fuel
  induction fuel with
  | zero =>
    intro g js κ h hm
    have : js = [] := List.length_eq_zero_iff.1 (by omega)
    subst this
    exact ⟨g, [], rfl, by simpa using h⟩
  | succ n ih =>
    intro g js κ h hm
    cases js with
    | nil => exact ⟨g, [], rfl, by simpa using h⟩
    | cons j rest =>
      obtain ⟨g', js', κ', h1, h2, h3⟩ := step_inv ha hf hfa h
      obtain ⟨g2, κ2, h4, h5⟩ := ih h2 (by omega)
      refine ⟨g2, κ' ++ κ2, ?_, by rw [← List.append_assoc]; exact h5⟩
      simp only [Gen.loop, h1]
      exact h4

end HexoDSP.Block
