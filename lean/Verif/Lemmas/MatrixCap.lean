import Verif.Lemmas.MatrixOps
import Mathlib.Data.List.Perm.Subperm
/-! A scan that does not panic shows that the capacity is kept. -/

set_option linter.unusedSectionVars false
namespace HexoDSP.Matrix
open CellDir (Pos)
open GraphOrdering

variable {N : Type} [DecidableEq N]

theorem addEdge_fits {o o' : Ordering N} {g : Graph N} (h : Rep o g) (a b : N) (he : o.addEdge a b = some o')
    (hg : ∀ x, (g.successors x).length ≤ maxNodeEdges) :
    ∀ x, ((g.apply (.addEdge a b)).successors x).length ≤ maxNodeEdges := by
  obtain ⟨h1, hidx⟩ := rep_addNode h b
  simp only [Graph.apply]
  simp only [Ordering.addEdge] at he
  generalize ho1 : (o.addNode b).1 = o1 at *
  generalize hti : (o.addNode b).2 = ti at *
  generalize hns : insertNew g.nodes b = ns at *
  by_cases ha : a ∈ ns
  · obtain ⟨fi, hl⟩ := (lookup_some_mem h1 a).2 ha
    have hfi := (h1.look a fi).1 hl
    obtain ⟨nd, hnd, h2, h3, h4, h5⟩ := h1.slot fi a hfi
    simp only [hl, hnd] at he
    simp only [ha, if_true]
    have htin : ti ∈ nd.edges ↔ (a, b) ∈ g.edges := by
      rw [h5 ti]
      constructor
      · rintro ⟨c, hc, hac⟩
        rw [hidx] at hc; simp at hc; subst hc; exact hac
      · intro hab; exact ⟨b, hidx, hab⟩
    by_cases hab : (a, b) ∈ g.edges
    · simp only [insertNew, hab, if_true]; exact hg
    · have hin : ti ∉ nd.edges := fun hc => hab (htin.1 hc)
      have hins : insertNew g.edges (a, b) = g.edges ++ [(a, b)] := by simp [insertNew, hab]
      rw [hins]
      intro x
      have hsucc : (Graph.mk ns (g.edges ++ [(a, b)])).successors x =
          (Graph.mk ns g.edges).successors x ++ (if x = a then [b] else []) := by
        simp only [Graph.successors, List.filter_append, List.map_append]
        by_cases hx : x = a
        · subst hx; simp
        · simp [hx, show ¬ a = x from fun hh => hx hh.symm]
      rw [hsucc]
      by_cases hx : x = a
      · subst hx
        simp only [Node.addEdge, hin, if_false] at he
        split at he
        · cases he
        · rename_i hq
          split at hq
          · rename_i hlt
            simp only [if_true, List.length_append, List.length_singleton]
            rw [h4] at hlt
            exact hlt
          · cases hq
      · simp only [hx, if_false, List.append_nil]
        exact hg x
  · simp only [ha, if_false]; exact hg

theorem fold_fits (ops : List (Op N)) (hops : ∀ op ∈ ops, (∃ a, op = .addNode a) ∨ ∃ a b, op = .addEdge a b) :
    ∀ {o o' : Ordering N} {g : Graph N}, Rep o g → (∀ x, (g.successors x).length ≤ maxNodeEdges) →
      ops.foldlM Ordering.step o = some o' → ∀ x, ((ops.foldl Graph.apply g).successors x).length ≤ maxNodeEdges := by
  induction ops with
  | nil => intro o o' g _ hg _; exact hg
  | cons op ops ih =>
    intro o o' g hr hg he
    simp only [List.foldlM_cons, Option.bind_eq_bind, Option.bind_eq_some_iff] at he
    obtain ⟨o1, h1, h2⟩ := he
    have hops' := fun op ho => hops op (List.mem_cons_of_mem _ ho)
    rcases hops op List.mem_cons_self with ⟨a, rfl⟩ | ⟨a, b, rfl⟩
    · simp only [Ordering.step, Option.some.injEq] at h1
      subst h1
      exact ih hops' (rep_addNode hr a).1 hg h2
    · have hf := addEdge_fits hr a b h1 hg
      obtain ⟨o2, h3, h4⟩ := rep_addEdge hr a b (hf a)
      have : some o2 = some o1 := h3.symm.trans h1
      cases this
      exact ih hops' h4 hf h2

/-- The scan of the grid panics if the capacity of the graph ordering is not kept. -/
theorem capacity_of_update {m m' : Matrix N} (hm : WF m) (he : m.updateGraph = some m') : m.WithinCapacity := by
  unfold Matrix.updateGraph at he
  rw [scan_eq hm _ (fun p hp => (mem_positions _ _ p).1 hp)] at he
  simp only [Option.map_map, Option.map_eq_some_iff] at he
  obtain ⟨o', ho, -⟩ := he
  have hops := allOps_adds m
  have hfit := fold_fits (allOps m) hops (rep_empty m.graph hm.graph) (by simp [Graph.successors]) ho
  intro a l hnd hl
  have hsub : ∀ b ∈ l, b ∈ (scanGraph m).successors a := by
    intro b hb
    exact (mem_successors _ _ _).2 ((scanGraph_edges a b).2 (hl b hb))
  exact Nat.le_trans (List.subperm_of_subset hnd hsub).length_le (hfit a)

theorem capacity_of_sync {m : Matrix N} (hm : WF m) (he : m.sync ≠ none) : m.WithinCapacity := by
  unfold Matrix.sync at he
  cases hu : m.updateGraph with
  | none => simp [hu] at he
  | some m' => exact capacity_of_update hm hu

theorem capacity_of_check {m : Matrix N} (hm : WF m) (he : m.check ≠ none) : m.WithinCapacity := by
  unfold Matrix.check at he
  cases hu : m.updateGraph with
  | none => simp [hu] at he
  | some m' => exact capacity_of_update hm hu

end HexoDSP.Matrix
