import Verif.Lemmas.GraphOrdering
/-!
# Properties of the graph ordering (C04, C05, C06)

Histories `ops` of API calls (`clear`, `add_node`, `add_edge`, `calculate_order`) on a fresh
ordering; `graphOf ops` is the graph they describe (`Verif/Spec/GraphOrdering.lean`).
`Fits ops` is the capacity limit of the code: no node gets more than 64 distinct successors.
-/

namespace HexoDSP.GraphOrderingProps
open GraphOrdering

variable {N : Type} [DecidableEq N]

/-- **C04** No history within the capacity panics, and neither does ordering it. -/
theorem history_never_panics (ops : List (Op N)) (hfit : Fits ops) :
    ∃ o, run ops = some o ∧ ∀ out, (o.calculateOrder out).isSome := by
  obtain ⟨o, h1, h2⟩ := run_rep ops hfit
  refine ⟨o, h1, ?_⟩
  intro out
  obtain ⟨o', L, _, h | h⟩ := rep_calculateOrder h2 out
  · simp [h.2.1]
  · simp [h.2]

/-- **C04** A reported order contains every node once and nothing else, and every edge goes forward. -/
theorem order_is_topological (ops : List (Op N)) (hfit : Fits ops) (o o' : Ordering N) (order : List N)
    (hrun : run ops = some o) (h : o.calculateOrder [] = some (o', order, true)) :
    order.Nodup ∧ (∀ a, a ∈ order ↔ a ∈ (graphOf ops).nodes) ∧
      ∀ a b, (graphOf ops).Edge a b → Before order a b := by
  obtain ⟨o1, h1, h2⟩ := run_rep ops hfit
  rw [hrun] at h1; cases h1
  obtain ⟨o2, L, _, h3 | h3⟩ := rep_calculateOrder h2 []
  · rw [h3.2.1] at h; simp at h; rw [← h.2]; exact h3.2.2
  · rw [h3.2] at h; simp at h

/-- **C05** Ordering succeeds exactly when the graph has no directed cycle; otherwise the output is
cleared. -/
theorem order_succeeds_iff_acyclic (ops : List (Op N)) (hfit : Fits ops) (o o' : Ordering N)
    (out order : List N) (ok : Bool) (hrun : run ops = some o)
    (h : o.calculateOrder out = some (o', order, ok)) :
    (ok = true ↔ ¬ (graphOf ops).Cyclic) ∧ (ok = false → order = []) := by
  obtain ⟨o1, h1, h2⟩ := run_rep ops hfit
  rw [hrun] at h1; cases h1
  obtain ⟨o2, L, _, h3 | h3⟩ := rep_calculateOrder h2 out
  · rw [h3.2.1] at h; simp at h; rw [h.2.2]; simp [h3.1]
  · rw [h3.2] at h; simp at h; rw [h.2.2, h.2.1]; simp [h3.1]

/-- **C04** A caller that passes a non-empty vector gets the order appended to it. -/
theorem order_appends (ops : List (Op N)) (hfit : Fits ops) (o : Ordering N) (out : List N)
    (hrun : run ops = some o) (hac : ¬ (graphOf ops).Cyclic) :
    ∃ o' order, o.calculateOrder out = some (o', out ++ order, true) ∧
      ∀ a b, (graphOf ops).Edge a b → Before order a b := by
  obtain ⟨o1, h1, h2⟩ := run_rep ops hfit
  rw [hrun] at h1; cases h1
  obtain ⟨o2, L, _, h3 | h3⟩ := rep_calculateOrder h2 out
  · exact ⟨o2, L, h3.2.1, h3.2.2.2.2⟩
  · exact absurd h3.1 hac

/-- **C04** `clear` makes the ordering forget every earlier call. -/
theorem clear_forgets (pre post : List (Op N)) : graphOf (pre ++ .clear :: post) = graphOf post := by
  simp [graphOf, Graph.apply]

/-- **C06** The path search terminates without panic, `Some(true)` means reachable,
`Some(false)` means unreachable. -/
theorem has_path_truthful (ops : List (Op N)) (hfit : Fits ops) (o : Ordering N)
    (hrun : run ops = some o) (a b : N) :
    ∃ ans, o.hasPath a b = some ans ∧ (ans = .yes → (graphOf ops).Reachable a b) ∧
      (ans = .no → ¬ (graphOf ops).Reachable a b) := by
  obtain ⟨o1, h1, h2⟩ := run_rep ops hfit
  rw [hrun] at h1; cases h1
  exact rep_hasPath h2 a b

/-- The acyclic diamond `1 → 2 → 4`, `1 → 3 → 4` with an extra node 5. -/
def diamond : List (Op Nat) :=
  [.addNode 1, .addNode 2, .addNode 3, .addNode 5, .addEdge 1 2, .addEdge 1 3, .addEdge 2 4, .addEdge 3 4]

/-- **C06 (negation of completeness)** The search may refuse to answer (`None`) on acyclic graphs:
node 4 of a diamond is found twice before the unreachable node 5 is excluded. -/
theorem has_path_undecided_on_diamond :
    ¬ (graphOf diamond).Cyclic ∧ ¬ (graphOf diamond).Reachable 1 5 ∧
      (run diamond).bind (fun o => o.hasPath 1 5) = some .unknown := by
  have hmono : ∀ a b, Relation.TransGen (graphOf diamond).Edge a b → a < b ∧ b ≠ 5 := by
    intro a b h
    have hedge : ∀ a b, (graphOf diamond).Edge a b → a < b ∧ b ≠ 5 := by
      intro a b h
      have : (a, b) ∈ [(1, 2), (1, 3), (2, 4), (3, 4)] := h
      simp at this; omega
    induction h with
    | single h => exact hedge _ _ h
    | tail _ h ih => have := hedge _ _ h; omega
  refine ⟨?_, ?_, by decide +kernel⟩
  · rintro ⟨a, ha⟩; have := hmono a a ha; omega
  · rintro (h | h)
    · omega
    · exact (hmono 1 5 h).2 rfl

/-- **C04 (capacity)** The 65th distinct successor of a node makes `add_edge` panic. -/
theorem sixty_fifth_edge_panics :
    run (Op.addNode 0 :: (List.range 65).map (fun i => Op.addEdge 0 (i + 1))) = none := by
  decide +kernel

/-- **C04 (quirk)** An edge whose source has not been added yet is silently dropped. -/
theorem edge_from_unknown_dropped (ops : List (Op N)) (a b : N) (hab : a ≠ b)
    (ha : a ∉ (graphOf ops).nodes) :
    (graphOf (ops ++ [.addEdge a b])).edges = (graphOf ops).edges := by
  rw [graphOf_snoc]
  simp only [Graph.apply, insertNew]
  split <;> simp_all

/-! Non-vacuity: the diamond fits, runs, and is ordered. -/

theorem diamond_fits : Fits diamond := by
  intro pre post h a
  have hlen : (graphOf pre).edges.length ≤ pre.length := by
    clear h
    have : ∀ (l : List (Op Nat)) (g : Graph Nat), (l.foldl Graph.apply g).edges.length ≤ g.edges.length + l.length := by
      intro l
      induction l with
      | nil => intro g; simp
      | cons op l ih =>
        intro g
        have h1 := ih (g.apply op)
        have h2 : (g.apply op).edges.length ≤ g.edges.length + 1 := by
          cases op <;> simp only [Graph.apply] <;> (try simp)
          split
          · unfold insertNew; split <;> simp
          · omega
        simp only [List.foldl_cons, List.length_cons]; omega
    have := this pre ⟨[], []⟩
    simpa [graphOf] using this
  have hpre : pre.length ≤ 8 := by
    have := congrArg List.length h
    simp [diamond] at this; omega
  have : ((graphOf pre).successors a).length ≤ (graphOf pre).edges.length := by
    simp only [Graph.successors, List.length_map]
    exact List.length_filter_le _ _
  simp only [maxNodeEdges]; omega

example : Fits diamond ∧
    ((run diamond).bind (fun o => o.calculateOrder [])).map (fun r => r.2) = some ([1, 5, 2, 3, 4], true) :=
  ⟨diamond_fits, by decide +kernel⟩

/-- A cyclic history is rejected. -/
example : ((run [Op.addNode 1, .addNode 2, .addEdge 1 2, .addEdge 2 1]).bind
    (fun o => o.calculateOrder [7])).map (fun r => r.2) = some ([], false) := by decide +kernel

end HexoDSP.GraphOrderingProps
