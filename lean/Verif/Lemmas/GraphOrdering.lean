import Verif.Lemmas.Kahn
/-! The concrete ordering represents the abstract graph of its history. -/

namespace HexoDSP.GraphOrdering

set_option linter.unusedSectionVars false
variable {N : Type} [DecidableEq N]

/-- The representation relation. -/
structure Rep (o : Ordering N) (g : Graph N) : Prop where
  lens : o.nodes.length = o.inDegree.length
  count : o.nodeCount = g.nodes.length
  le : o.nodeCount ≤ o.nodes.length
  nodup : g.nodes.Nodup
  look : ∀ (a : N) (i : Nat), o.lookup a = some i ↔ g.nodes[i]? = some a
  slot : ∀ (i : Nat) (a : N), g.nodes[i]? = some a → ∃ nd : Node N, o.nodes[i]? = some nd ∧ nd.nodeId = some a ∧
    nd.edges.Nodup ∧ nd.edges.length = (g.successors a).length ∧
    ∀ j, j ∈ nd.edges ↔ ∃ b, g.nodes[j]? = some b ∧ (a, b) ∈ g.edges
  ends : ∀ a b, (a, b) ∈ g.edges → a ∈ g.nodes ∧ b ∈ g.nodes

theorem rep_empty (o : Ordering N) (h : o.nodes.length = o.inDegree.length) :
    Rep o.clear ⟨[], []⟩ := by
  refine ⟨h, rfl, by simp [Ordering.clear], by simp, ?_, ?_, ?_⟩
  · intro a i; simp [Ordering.clear, Ordering.lookup]
  · intro i a; simp
  · intro a b; simp

theorem rep_new : Rep (Ordering.new : Ordering N) ⟨[], []⟩ :=
  rep_empty Ordering.new (by simp only [Ordering.new, List.length_replicate])

theorem lookup_some_mem {o : Ordering N} {g : Graph N} (h : Rep o g) (a : N) :
    (∃ i, o.lookup a = some i) ↔ a ∈ g.nodes := by
  constructor
  · rintro ⟨i, hi⟩; exact List.mem_of_getElem? ((h.look a i).1 hi)
  · intro ha; obtain ⟨i, hi⟩ := List.mem_iff_getElem?.1 ha; exact ⟨i, (h.look a i).2 hi⟩

theorem succ_nil_of_not_mem {o : Ordering N} {g : Graph N} (h : Rep o g) (a : N) (ha : a ∉ g.nodes) :
    g.successors a = [] := by
  simp only [Graph.successors, List.map_eq_nil_iff, List.filter_eq_nil_iff, decide_eq_true_eq]
  rintro ⟨x, y⟩ hxy rfl
  exact ha (h.ends _ _ hxy).1

theorem rep_addNode {o : Ordering N} {g : Graph N} (h : Rep o g) (a : N) :
    Rep (o.addNode a).1 ⟨insertNew g.nodes a, g.edges⟩ ∧
      (insertNew g.nodes a)[(o.addNode a).2]? = some a := by
  unfold Ordering.addNode insertNew
  cases hl : o.lookup a with
  | some idx =>
    have ha := (h.look a idx).1 hl
    have hm : a ∈ g.nodes := List.mem_of_getElem? ha
    simp only [hm, if_true]
    exact ⟨h, ha⟩
  | none =>
    have hm : a ∉ g.nodes := by
      intro hm; obtain ⟨i, hi⟩ := (lookup_some_mem h a).2 hm; simp [hl] at hi
    simp only [hm, if_false]
    refine ⟨?_, by rw [h.count]; simp⟩
    have hlen2 : o.nodeCount < (if o.nodes.length < o.nodeCount + 1 then
        o.nodes ++ List.replicate (o.nodeCount + 1 - o.nodes.length) Node.new else o.nodes).length := by
      split <;> (try simp) <;> omega
    have hget : ∀ i, i < o.nodeCount → (if o.nodes.length < o.nodeCount + 1 then
        o.nodes ++ List.replicate (o.nodeCount + 1 - o.nodes.length) Node.new else o.nodes)[i]? = o.nodes[i]? := by
      intro i hi
      have := h.le
      split
      · rw [List.getElem?_append_left (by omega)]
      · rfl
    refine ⟨?_, by simp [h.count], ?_, ?_, ?_, ?_, ?_⟩
    · have := h.lens; simp only [List.length_set]; split <;> (try simp) <;> omega
    · simp only [List.length_set]; omega
    · rw [List.nodup_append]; refine ⟨h.nodup, by simp, ?_⟩
      intro x hx y hy; simp at hy; subst hy; rintro rfl; exact hm hx
    · intro b i
      simp only [Ordering.lookup, List.lookup_cons]
      by_cases hb : b = a
      · subst hb
        simp only [BEq.rfl, Option.some.injEq]
        constructor
        · rintro rfl; rw [h.count]; simp
        · intro hi
          rcases Nat.lt_trichotomy i g.nodes.length with h1 | h1 | h1
          · rw [List.getElem?_append_left h1] at hi; exact absurd (List.mem_of_getElem? hi) hm
          · rw [h.count, h1]
          · rw [List.getElem?_eq_none (by simp; omega)] at hi; simp at hi
      · have : (b == a) = false := by simpa using hb
        rw [this]
        change o.lookup b = some i ↔ _
        rw [h.look]
        constructor
        · intro hi
          rw [List.getElem?_append_left]; exact hi
          exact (List.getElem?_eq_some_iff.1 hi).1
        · intro hi
          rcases Nat.lt_trichotomy i g.nodes.length with h1 | h1 | h1
          · rwa [List.getElem?_append_left h1] at hi
          · rw [h1] at hi; simp at hi; exact absurd hi.symm hb
          · rw [List.getElem?_eq_none (by simp; omega)] at hi; simp at hi
    · intro i b hb
      have key : ∀ (j : Nat) (c : N), c ∈ g.nodes → ((g.nodes ++ [a])[j]? = some c ↔ g.nodes[j]? = some c) := by
        intro j c hc
        rcases Nat.lt_or_ge j g.nodes.length with h1 | h1
        · rw [List.getElem?_append_left h1]
        · rw [List.getElem?_eq_none (l := g.nodes) h1]
          rcases Nat.eq_or_lt_of_le h1 with h1 | h1
          · rw [← h1]; simp; rintro rfl; exact hm hc
          · rw [List.getElem?_eq_none (by simp; omega)]
      rcases Nat.lt_trichotomy i g.nodes.length with h1 | h1 | h1
      · rw [List.getElem?_append_left h1] at hb
        obtain ⟨nd, hnd, h2, h3, h4, h5⟩ := h.slot i b hb
        have hic : i < o.nodeCount := by rw [h.count]; exact h1
        refine ⟨nd, ?_, h2, h3, h4, ?_⟩
        · simp only; rw [List.getElem?_set_ne (by omega), hget i hic]; exact hnd
        · intro j; rw [h5 j]
          constructor
          · rintro ⟨c, hc, hbc⟩; exact ⟨c, (key j c (h.ends _ _ hbc).2).2 hc, hbc⟩
          · rintro ⟨c, hc, hbc⟩; exact ⟨c, (key j c (h.ends _ _ hbc).2).1 hc, hbc⟩
      · rw [h1] at hb; simp at hb; subst hb
        refine ⟨⟨some a, []⟩, ?_, rfl, by simp, ?_, ?_⟩
        · simp only; rw [h1, ← h.count, List.getElem?_set_self hlen2]
        · have := succ_nil_of_not_mem h a hm
          simp only [Graph.successors] at this ⊢
          rw [this]; simp
        · intro j; simp only [List.not_mem_nil, false_iff]
          rintro ⟨c, _, hac⟩; exact hm (h.ends _ _ hac).1
      · rw [List.getElem?_eq_none (by simp; omega)] at hb; simp at hb
    · intro x y hxy; have := h.ends x y hxy; simp [this.1, this.2]

/-- Slots are determined by node ids. -/
theorem getElem?_inj {l : List N} (h : l.Nodup) {i j : Nat} {a : N} (hi : l[i]? = some a) (hj : l[j]? = some a) :
    i = j := by
  obtain ⟨hi', h1⟩ := List.getElem?_eq_some_iff.1 hi
  obtain ⟨hj', h2⟩ := List.getElem?_eq_some_iff.1 hj
  exact (List.getElem_inj h).1 (h1.trans h2.symm)

theorem mem_successors (g : Graph N) (a b : N) : b ∈ g.successors a ↔ (a, b) ∈ g.edges := by
  simp only [Graph.successors, List.mem_map, List.mem_filter, decide_eq_true_eq]
  constructor
  · rintro ⟨⟨x, y⟩, ⟨h1, h2⟩, h3⟩; simp at h2 h3; subst h2 h3; exact h1
  · intro h; exact ⟨(a, b), ⟨h, rfl⟩, rfl⟩

theorem rep_addEdge {o : Ordering N} {g : Graph N} (h : Rep o g) (a b : N)
    (hfit : ((g.apply (.addEdge a b)).successors a).length ≤ maxNodeEdges) :
    ∃ o', o.addEdge a b = some o' ∧ Rep o' (g.apply (.addEdge a b)) := by
  obtain ⟨h1, hidx⟩ := rep_addNode h b
  simp only [Graph.apply] at hfit ⊢
  simp only [Ordering.addEdge]
  generalize ho1 : (o.addNode b).1 = o1 at *
  generalize hti : (o.addNode b).2 = ti at *
  generalize hns : insertNew g.nodes b = ns at *
  cases hl : o1.lookup a with
  | none =>
    have ha : a ∉ ns := by
      intro hm; obtain ⟨i, hi⟩ := (lookup_some_mem h1 a).2 hm; simp [hl] at hi
    simp only [ha, if_false]
    exact ⟨o1, rfl, h1⟩
  | some fi =>
    have hfi := (h1.look a fi).1 hl
    have ha : a ∈ ns := List.mem_of_getElem? hfi
    simp only [ha, if_true] at hfit ⊢
    obtain ⟨nd, hnd, h2, h3, h4, h5⟩ := h1.slot fi a hfi
    simp only [hnd]
    have htin : ti ∈ nd.edges ↔ (a, b) ∈ g.edges := by
      rw [h5 ti]
      constructor
      · rintro ⟨c, hc, hac⟩
        rw [hidx] at hc; simp at hc; subst hc; exact hac
      · intro hab; exact ⟨b, hidx, hab⟩
    by_cases hab : (a, b) ∈ g.edges
    · have hin := htin.2 hab
      simp only [Node.addEdge, hin, if_true, insertNew, hab]
      refine ⟨_, rfl, ?_⟩
      have : o1.nodes.set fi nd = o1.nodes := by
        apply List.ext_getElem?
        intro i
        by_cases hi : i = fi
        · subst hi
          rw [List.getElem?_set_self, hnd]
          exact (List.getElem?_eq_some_iff.1 hnd).1
        · rw [List.getElem?_set_ne (by omega)]
      rw [this]; exact h1
    · have hin : ti ∉ nd.edges := fun hc => hab (htin.1 hc)
      have hins : insertNew g.edges (a, b) = g.edges ++ [(a, b)] := by simp [insertNew, hab]
      rw [hins] at hfit ⊢
      have hsucc : ∀ x, (Graph.mk ns (g.edges ++ [(a, b)])).successors x =
          (Graph.mk ns g.edges).successors x ++ (if x = a then [b] else []) := by
        intro x
        simp only [Graph.successors, List.filter_append, List.map_append]
        by_cases hx : x = a
        · subst hx; simp
        · simp [hx, show ¬ a = x from fun hh => hx hh.symm]
      rw [hsucc] at hfit
      have hlt : nd.edges.length < maxNodeEdges := by
        rw [h4]; simp at hfit; omega
      simp only [Node.addEdge, hin, if_false, hlt, if_true]
      refine ⟨_, rfl, ?_⟩
      refine ⟨by simpa using h1.lens, h1.count, by simpa using h1.le, h1.nodup, h1.look, ?_, ?_⟩
      · intro i c hc
        by_cases hi : i = fi
        · subst hi
          rw [hfi] at hc; simp at hc; subst hc
          refine ⟨⟨nd.nodeId, nd.edges ++ [ti]⟩, ?_, h2, ?_, ?_, ?_⟩
          · simp only; rw [List.getElem?_set_self]; exact (List.getElem?_eq_some_iff.1 hnd).1
          · rw [List.nodup_append]; refine ⟨h3, by simp, ?_⟩
            intro x hx y hy; simp at hy; subst hy; rintro rfl; exact hin hx
          · rw [hsucc]; simp [h4]
          · intro j
            simp only [List.mem_append, h5 j, List.mem_singleton, Prod.mk.injEq, true_and]
            constructor
            · rintro (⟨c, h6, h7⟩ | rfl)
              · exact ⟨c, h6, Or.inl h7⟩
              · exact ⟨b, hidx, Or.inr rfl⟩
            · rintro ⟨c, h6, h7 | rfl⟩
              · exact Or.inl ⟨c, h6, h7⟩
              · exact Or.inr (getElem?_inj h1.nodup h6 hidx)
        · obtain ⟨nd', hnd', h6, h7, h8, h9⟩ := h1.slot i c hc
          have hca : c ≠ a := by
            rintro rfl; exact hi (getElem?_inj h1.nodup hc hfi)
          refine ⟨nd', ?_, h6, h7, ?_, ?_⟩
          · simp only; rw [List.getElem?_set_ne (by omega)]; exact hnd'
          · rw [hsucc, h8]; simp [hca]
          · intro j; rw [h9 j]; simp [hca]
      · intro x y hxy
        simp only [List.mem_append, List.mem_singleton] at hxy
        rcases hxy with hxy | hxy
        · exact h1.ends x y hxy
        · cases hxy; exact ⟨ha, List.mem_of_getElem? hidx⟩

/-! Consequences for the slot graph. -/

theorem rep_slots {o : Ordering N} {g : Graph N} (h : Rep o g) : Slots o.nodes o.nodeCount := by
  have hget : ∀ i, i < o.nodeCount → ∃ a, g.nodes[i]? = some a := by
    intro i hi; rw [h.count] at hi; exact ⟨g.nodes[i], List.getElem?_eq_getElem hi⟩
  refine ⟨h.le, ?_, ?_, ?_⟩
  · intro i hi
    obtain ⟨a, ha⟩ := hget i hi
    obtain ⟨nd, h1, h2, _⟩ := h.slot i a ha
    exact ⟨nd, a, h1, h2⟩
  · intro i hi
    obtain ⟨a, ha⟩ := hget i hi
    obtain ⟨nd, h1, h2, h3, _⟩ := h.slot i a ha
    simpa [adj, h1] using h3
  · intro i hi j hj
    obtain ⟨a, ha⟩ := hget i hi
    obtain ⟨nd, h1, h2, h3, _, h5⟩ := h.slot i a ha
    simp only [adj, h1] at hj
    obtain ⟨b, hb, _⟩ := (h5 j).1 hj
    rw [h.count]; exact (List.getElem?_eq_some_iff.1 hb).1

theorem rep_edge {o : Ordering N} {g : Graph N} (h : Rep o g) {i j : Nat} {a b : N}
    (hi : g.nodes[i]? = some a) (hj : g.nodes[j]? = some b) :
    j ∈ adj o.nodes i ↔ (a, b) ∈ g.edges := by
  obtain ⟨nd, h1, _, _, _, h5⟩ := h.slot i a hi
  simp only [adj, h1, h5 j]
  constructor
  · rintro ⟨c, hc, hac⟩; rw [hj] at hc; simp at hc; subst hc; exact hac
  · intro hab; exact ⟨b, hj, hab⟩

theorem trans_of_idx {o : Ordering N} {g : Graph N} (h : Rep o g) {i j : Nat}
    (ht : Relation.TransGen (IdxEdge o.nodes o.nodeCount) i j) :
    ∀ a b, g.nodes[i]? = some a → g.nodes[j]? = some b → Relation.TransGen g.Edge a b := by
  induction ht with
  | single he => intro a b ha hb; exact .single ((rep_edge h ha hb).1 he.2.2)
  | @tail j k _ he ih =>
    intro a b ha hb
    have : j < g.nodes.length := by rw [← h.count]; exact he.1
    have hj := List.getElem?_eq_getElem this
    exact .tail (ih a _ ha hj) ((rep_edge h hj hb).1 he.2.2)

theorem idx_of_trans {o : Ordering N} {g : Graph N} (h : Rep o g) {a b : N}
    (ht : Relation.TransGen g.Edge a b) :
    ∀ i j, g.nodes[i]? = some a → g.nodes[j]? = some b → Relation.TransGen (IdxEdge o.nodes o.nodeCount) i j := by
  have lt : ∀ i c, g.nodes[i]? = some c → i < o.nodeCount := by
    intro i c hc; rw [h.count]; exact (List.getElem?_eq_some_iff.1 hc).1
  induction ht with
  | single he => intro i j hi hj; exact .single ⟨lt i _ hi, lt j _ hj, (rep_edge h hi hj).2 he⟩
  | @tail b c _ he ih =>
    intro i k hi hk
    obtain ⟨j, hj⟩ := List.mem_iff_getElem?.1 (h.ends b c he).1
    exact .tail (ih i j hi hj) ⟨lt j _ hj, lt k _ hk, (rep_edge h hj hk).2 he⟩

/-- What `calculate_order` does on a represented graph. -/
theorem rep_calculateOrder {o : Ordering N} {g : Graph N} (h : Rep o g) (out : List N) :
    ∃ o' L, Rep o' g ∧
      ((¬ g.Cyclic ∧ o.calculateOrder out = some (o', out ++ L, true) ∧ L.Nodup ∧
          (∀ a, a ∈ L ↔ a ∈ g.nodes) ∧ (∀ a b, g.Edge a b → Before L a b)) ∨
       (g.Cyclic ∧ o.calculateOrder out = some (o', [], false))) := by
  have hS := rep_slots h
  have hlen0 : (o.inDegree.map (fun _ => 0)).length = o.nodes.length := by simp [h.lens]
  obtain ⟨deg, hc1, hc2, hc3⟩ := countInputs_spec (o.nodes.take o.nodeCount) (o.inDegree.map (fun _ => 0)) (by
    intro nd hnd
    obtain ⟨i, hi⟩ := List.mem_iff_getElem?.1 hnd
    have hlt : i < o.nodeCount := by
      have := (List.getElem?_eq_some_iff.1 hi).1
      simp at this; omega
    rw [List.getElem?_take, if_pos hlt] at hi
    have hadj : adj o.nodes i = nd.edges := by simp [adj, hi]
    rw [← hadj]
    refine ⟨hS.nodup i hlt, ?_⟩
    intro j hj; have := hS.lt i hlt j hj; have := hS.le; omega)
  have hdeg : ∀ j, j < o.nodeCount → deg[j]? = some (cnt o.nodes o.nodeCount [] j) := by
    intro j hj
    have : j < o.inDegree.length := by rw [← h.lens]; have := h.le; omega
    rw [hc3 j, countP_take o.nodes o.nodeCount h.le]
    simp [this]
  have hI := init_inner o.nodes o.nodeCount deg hdeg
  -- node ids of slots
  have hget : ∀ i, i < o.nodeCount → i < g.nodes.length := by intro i hi; rw [← h.count]; exact hi
  by_cases hz : o.nodeCount = 0
  · -- empty graph
    have hn : g.nodes = [] := by
      have := h.count; rw [hz] at this; exact List.length_eq_zero_iff.1 this.symm
    have hno : ∀ a b, ¬ g.Edge a b := by
      intro a b hab; have := (h.ends a b hab).1; simp [hn] at this
    refine ⟨{ o with inDegree := deg }, [], ?_, Or.inl ⟨?_, ?_, by simp, by simp [hn], ?_⟩⟩
    · exact ⟨by simp only [List.length_map] at hc2; rw [hc2]; exact h.lens, h.count, h.le, h.nodup, h.look, h.slot, h.ends⟩
    · rintro ⟨a, ha⟩
      cases ha with
      | single he => exact hno _ _ he
      | tail _ he => exact hno _ _ he
    · simp only [Ordering.calculateOrder, hc1]
      simp [kahnLoop, hz]
    · intro a b hab; exact absurd hab (hno a b)
  have hpos : 0 < g.nodes.length := by rw [← h.count]; omega
  let d : N := g.nodes[0]
  let idf : Nat → N := fun i => (g.nodes[i]?).getD d
  have hidf : ∀ i a, g.nodes[i]? = some a → idf i = a := by intro i a ha; simp [idf, ha]
  have hidf' : ∀ i, i < o.nodeCount → g.nodes[i]? = some (idf i) := by
    intro i hi; have := hget i hi; simp [idf, this]
  obtain ⟨deg', E, hk1, hk2, hk3⟩ := kahnLoop_spec o.nodes o.nodeCount hS idf (by
      intro i hi
      obtain ⟨nd, h1, h2, _⟩ := h.slot i _ (hidf' i hi)
      exact ⟨nd, h1, h2⟩) out (o.nodeCount + 1) deg [] _ hI (by simp)
  simp only [List.map_nil, List.append_nil, List.length_nil] at hk1
  have hEnd : E.Nodup := by simpa using hk3.nodup
  have hElt : ∀ j ∈ E, j < o.nodeCount := by simpa using hk3.lt
  have hTopo : Topo o.nodes o.nodeCount E := by simpa using hk3.topo
  refine ⟨{ o with inDegree := deg' }, E.map idf, ?_, ?_⟩
  · refine ⟨?_, h.count, h.le, h.nodup, h.look, h.slot, h.ends⟩
    simp only [List.length_map] at hc2 ⊢; rw [hk2, hc2]; exact h.lens
  by_cases hfull : E.length = o.nodeCount
  · -- every slot was emitted
    have hall : ∀ i, i < o.nodeCount → i ∈ E := by
      intro i hi
      have hsub : E ⊆ List.range o.nodeCount := by intro x hx; simpa using hElt x hx
      have hperm := (List.Nodup.length_le_of_subset hEnd hsub)
      apply Classical.byContradiction
      intro hni
      have h2 : (i :: E).Nodup := List.nodup_cons.2 ⟨hni, hEnd⟩
      have h3 := nodup_lt_length (i :: E) o.nodeCount h2 (by
        intro x hx; rcases List.mem_cons.1 hx with rfl | hx
        · exact hi
        · exact hElt x hx)
      simp at h3; omega
    refine Or.inl ⟨?_, ?_, ?_, ?_, ?_⟩
    · rintro ⟨a, ha⟩
      have ham : a ∈ g.nodes := by
        cases ha with
        | single he => exact (h.ends _ _ he).1
        | tail _ he => exact (h.ends _ _ he).2
      obtain ⟨i, hi⟩ := List.mem_iff_getElem?.1 ham
      have hilt : i < o.nodeCount := by rw [h.count]; exact (List.getElem?_eq_some_iff.1 hi).1
      exact topo_no_cycle o.nodes o.nodeCount E hTopo i (hall i hilt) (idx_of_trans h ha i i hi hi)
    · simp only [Ordering.calculateOrder, hc1, hk1]
      simp [hfull]
    · rw [List.nodup_iff_pairwise_ne, List.pairwise_map]
      have hE2 := hEnd
      rw [List.nodup_iff_pairwise_ne] at hE2
      refine List.Pairwise.imp_of_mem ?_ hE2
      intro x y hx hy hxy heq
      have h1 := hidf' x (hElt x hx)
      have h2 := hidf' y (hElt y hy)
      rw [heq] at h1
      exact hxy (getElem?_inj h.nodup h1 h2)
    · intro a
      simp only [List.mem_map]
      constructor
      · rintro ⟨i, hi, rfl⟩; exact List.mem_of_getElem? (hidf' i (hElt i hi))
      · intro ha
        obtain ⟨i, hi⟩ := List.mem_iff_getElem?.1 ha
        have hilt : i < o.nodeCount := by rw [h.count]; exact (List.getElem?_eq_some_iff.1 hi).1
        exact ⟨i, hall i hilt, hidf i a hi⟩
    · intro a b hab
      obtain ⟨i, hi⟩ := List.mem_iff_getElem?.1 (h.ends a b hab).1
      obtain ⟨j, hj⟩ := List.mem_iff_getElem?.1 (h.ends a b hab).2
      have hilt : i < o.nodeCount := by rw [h.count]; exact (List.getElem?_eq_some_iff.1 hi).1
      have hjlt : j < o.nodeCount := by rw [h.count]; exact (List.getElem?_eq_some_iff.1 hj).1
      obtain ⟨A, B, hAB⟩ := List.append_of_mem (hall j hjlt)
      have hiA := hTopo A j B hAB i hilt ((rep_edge h hi hj).2 hab)
      obtain ⟨A1, A2, rfl⟩ := List.append_of_mem hiA
      refine ⟨A1.map idf, A2.map idf, B.map idf, ?_⟩
      rw [hAB]; simp [hidf i a hi, hidf j b hj]
  · -- some slot was not emitted: there is a cycle
    refine Or.inr ⟨?_, ?_⟩
    · have hlt := nodup_lt_length E o.nodeCount hEnd hElt
      have hex : ∃ j, j < o.nodeCount ∧ j ∉ E := by
        apply Classical.byContradiction
        intro hno
        have hsub : List.range o.nodeCount ⊆ E := by
          intro x hx
          apply Classical.byContradiction
          intro hxE; exact hno ⟨x, by simpa using hx, hxE⟩
        have := List.Nodup.length_le_of_subset List.nodup_range hsub
        simp at this; omega
      obtain ⟨j0, hj0, hj0E⟩ := hex
      obtain ⟨c, hc⟩ := cycle_of_preds (IdxEdge o.nodes o.nodeCount)
        ((List.range o.nodeCount).filter (fun j => decide (j ∉ E))) j0 (by simp [hj0, hj0E]) (by
          intro j hj
          simp only [List.mem_filter, List.mem_range, decide_eq_true_eq] at hj
          have hnz : ¬ cnt o.nodes o.nodeCount E j = 0 := by
            have := hk3.zero j hj.1; simp at this; rw [this]; exact hj.2
          rw [cnt_eq_zero] at hnz
          have : ∃ i, i < o.nodeCount ∧ j ∈ adj o.nodes i ∧ i ∉ E := by
            apply Classical.byContradiction
            intro hno; apply hnz; intro i hi hij
            apply Classical.byContradiction
            intro hiE; exact hno ⟨i, hi, hij, hiE⟩
          obtain ⟨i, hi, hij, hiE⟩ := this
          exact ⟨i, by simp [hi, hiE], hi, hj.1, hij⟩)
      have hcl : c < o.nodeCount := by
        cases hc with
        | single he => exact he.1
        | tail _ he => exact he.2.1
      have := hidf' c hcl
      exact ⟨idf c, trans_of_idx h hc _ _ this this⟩
    · simp only [Ordering.calculateOrder, hc1, hk1]
      simp [hfull]

/-! Histories. -/

theorem graphOf_snoc (ops : List (Op N)) (op : Op N) : graphOf (ops ++ [op]) = (graphOf ops).apply op := by
  simp [graphOf]

theorem run_snoc (ops : List (Op N)) (op : Op N) : run (ops ++ [op]) = (run ops).bind (fun o => o.step op) := by
  simp [run, List.foldlM_append]

theorem run_rep (ops : List (Op N)) (hfit : Fits ops) : ∃ o, run ops = some o ∧ Rep o (graphOf ops) := by
  have key : ∀ ops' : List (Op N), (∀ pre post, ops'.reverse = pre ++ post → ∀ a, ((graphOf pre).successors a).length ≤ maxNodeEdges) →
      ∃ o, run ops'.reverse = some o ∧ Rep o (graphOf ops'.reverse) := by
    intro ops'
    induction ops' with
    | nil => intro _; exact ⟨Ordering.new, rfl, rep_new⟩
    | cons op ops' ih =>
      intro hf
      obtain ⟨o, h1, h2⟩ := ih (by
        intro pre post hpp a
        exact hf pre (post ++ [op]) (by simp [hpp]) a)
      simp only [List.reverse_cons]
      rw [run_snoc, h1, graphOf_snoc]
      simp only [Option.bind_some]
      cases op with
      | clear => exact ⟨_, rfl, rep_empty o h2.lens⟩
      | addNode a => exact ⟨_, rfl, (rep_addNode h2 a).1⟩
      | addEdge a b =>
        refine rep_addEdge h2 a b ?_
        rw [← graphOf_snoc]
        exact hf (ops'.reverse ++ [Op.addEdge a b]) [] (by simp) a
      | calcOrder =>
        obtain ⟨o', L, h3, h4⟩ := rep_calculateOrder h2 []
        rcases h4 with ⟨_, h4, _⟩ | ⟨_, h4⟩
        · exact ⟨o', by simp [Ordering.step, h4], h3⟩
        · exact ⟨o', by simp [Ordering.step, h4], h3⟩
  have := key ops.reverse (by simpa [Fits] using hfit)
  simpa using this

/-! Path search. -/

theorem mapM_spec {α β : Type} (f : α → Option β) (l : List α) (h : ∀ x ∈ l, ∃ y, f x = some y) :
    ∃ r, l.mapM f = some r ∧ ∀ y, y ∈ r ↔ ∃ x ∈ l, f x = some y := by
  induction l with
  | nil => exact ⟨[], rfl, by simp⟩
  | cons x l ih =>
    obtain ⟨y, hy⟩ := h x (by simp)
    obtain ⟨r, hr, hm⟩ := ih (fun z hz => h z (by simp [hz]))
    refine ⟨y :: r, by simp [hy, hr], ?_⟩
    intro z
    simp only [List.mem_cons, hm z]
    constructor
    · rintro (rfl | ⟨x', hx', hz⟩)
      · exact ⟨x, Or.inl rfl, hy⟩
      · exact ⟨x', Or.inr hx', hz⟩
    · rintro ⟨x', rfl | hx', hz⟩
      · rw [hy] at hz; left; simpa using hz.symm
      · exact Or.inr ⟨x', hx', hz⟩

theorem succIds_spec {o : Ordering N} {g : Graph N} (h : Rep o g) (a : N) :
    ∃ r, o.succIds a = some r ∧ ∀ b, b ∈ r ↔ g.Edge a b := by
  unfold Ordering.succIds
  cases hl : o.lookup a with
  | none =>
    refine ⟨[], rfl, ?_⟩
    intro b
    simp only [List.not_mem_nil, false_iff]
    intro hab
    obtain ⟨i, hi⟩ := (lookup_some_mem h a).2 (h.ends a b hab).1
    simp [hl] at hi
  | some i =>
    have hi := (h.look a i).1 hl
    obtain ⟨nd, h1, h2, h3, h4, h5⟩ := h.slot i a hi
    simp only [h1]
    have hf : ∀ (j : Nat) (b : N), g.nodes[j]? = some b → (o.nodes[j]?).bind (fun n => n.nodeId) = some b := by
      intro j b hb
      obtain ⟨nd', h6, h7, _⟩ := h.slot j b hb
      simp [h6, h7]
    obtain ⟨r, hr, hm⟩ := mapM_spec (fun j => (o.nodes[j]?).bind (fun n => n.nodeId)) nd.edges (by
      intro j hj
      obtain ⟨b, hb, _⟩ := (h5 j).1 hj
      exact ⟨b, hf j b hb⟩)
    refine ⟨r, hr, ?_⟩
    intro b
    rw [hm b]
    constructor
    · rintro ⟨j, hj, hb⟩
      obtain ⟨c, hc, hac⟩ := (h5 j).1 hj
      rw [hf j c hc] at hb; simp at hb; subst hb; exact hac
    · intro hab
      obtain ⟨j, hj⟩ := List.mem_iff_getElem?.1 (h.ends a b hab).2
      exact ⟨j, (h5 j).2 ⟨b, hj, hab⟩, hf j b hj⟩

theorem reach_tail {g : Graph N} {a b c : N} (h : g.Reachable a b) (he : g.Edge b c) : g.Reachable a c := by
  rcases h with rfl | h
  · exact Or.inr (.single he)
  · exact Or.inr (.tail h he)

theorem hasPathLoop_spec {o : Ordering N} {g : Graph N} (h : Rep o g) (src dst : N)
    (fuel : Nat) (visited stack : List N)
    (hnd : visited.Nodup) (hsub : ∀ x ∈ visited, x = src ∨ x ∈ g.nodes)
    (hfuel : g.nodes.length + 2 ≤ fuel + visited.length)
    (hreach : ∀ x ∈ stack, g.Reachable src x)
    (hclosed : ∀ v ∈ visited, v ≠ dst ∧ ∀ w, g.Edge v w → w ∈ visited ∨ w ∈ stack)
    (hsrc : src ∈ visited ∨ src ∈ stack) :
    ∃ ans, o.hasPathLoop dst fuel visited stack = some ans ∧
      (ans = .yes → g.Reachable src dst) ∧ (ans = .no → ¬ g.Reachable src dst) := by
  induction fuel generalizing visited stack with
  | zero =>
    have : visited.length ≤ (src :: g.nodes).length := by
      apply List.Nodup.length_le_of_subset hnd
      intro x hx; simpa using hsub x hx
    simp at this; omega
  | succ fuel ih =>
    cases stack with
    | nil =>
      refine ⟨.no, rfl, by simp, ?_⟩
      intro _ hr
      have hall : ∀ x, g.Reachable src x → x ∈ visited := by
        intro x hx
        rcases hx with rfl | hx
        · simpa using hsrc
        · induction hx with
          | single he =>
            have := (hclosed src (by simpa using hsrc)).2 _ he; simpa using this
          | tail _ he ih2 =>
            have := (hclosed _ ih2).2 _ he; simpa using this
      exact (hclosed dst (hall dst hr)).1 rfl
    | cons a stack =>
      simp only [Ordering.hasPathLoop]
      split
      · exact ⟨.unknown, rfl, by simp, by simp⟩
      · next hav =>
        split
        · next had => exact ⟨.yes, rfl, fun _ => had ▸ hreach a (by simp), by simp⟩
        · next had =>
          obtain ⟨r, hr, hm⟩ := succIds_spec h a
          simp only [hr]
          have hra := hreach a (by simp)
          apply ih
          · exact List.nodup_cons.2 ⟨hav, hnd⟩
          · intro x hx
            rcases List.mem_cons.1 hx with rfl | hx
            · rcases hra with rfl | hra
              · left; rfl
              · right
                cases hra with
                | single he => exact (h.ends _ _ he).2
                | tail _ he => exact (h.ends _ _ he).2
            · exact hsub x hx
          · simp; omega
          · intro x hx
            rcases List.mem_append.1 hx with hx | hx
            · exact reach_tail hra ((hm x).1 (by simpa using hx))
            · exact hreach x (by simp [hx])
          · intro v hv
            rcases List.mem_cons.1 hv with rfl | hv
            · refine ⟨had, ?_⟩
              intro w hw; right; simp [(hm w).2 hw]
            · refine ⟨(hclosed v hv).1, ?_⟩
              intro w hw
              rcases (hclosed v hv).2 w hw with h1 | h1
              · left; simp [h1]
              · rcases List.mem_cons.1 h1 with rfl | h1
                · left; simp
                · right; simp [h1]
          · rcases hsrc with h1 | h1
            · left; simp [h1]
            · rcases List.mem_cons.1 h1 with rfl | h1
              · left; simp
              · right; simp [h1]

theorem rep_hasPath {o : Ordering N} {g : Graph N} (h : Rep o g) (src dst : N) :
    ∃ ans, o.hasPath src dst = some ans ∧
      (ans = .yes → g.Reachable src dst) ∧ (ans = .no → ¬ g.Reachable src dst) := by
  apply hasPathLoop_spec h
  · simp
  · simp
  · rw [h.count]; simp
  · intro x hx; simp at hx; subst hx; exact Or.inl rfl
  · simp
  · simp

end HexoDSP.GraphOrdering
