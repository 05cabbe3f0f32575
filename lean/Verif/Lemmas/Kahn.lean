import Verif.Spec.GraphOrdering
/-! Kahn's algorithm on slot indices: loop invariants. -/

namespace HexoDSP.GraphOrdering

set_option linter.unusedSectionVars false

variable {N : Type} [DecidableEq N]

/-- The successor slots of slot `i`. -/
def adj (nodes : List (Node N)) (i : Nat) : List Nat :=
  match nodes[i]? with
  | some nd => nd.edges
  | none => []

/-- Number of predecessors of `j` outside of `E`. -/
def cnt (nodes : List (Node N)) (n : Nat) (E : List Nat) (j : Nat) : Nat :=
  (List.range n).countP (fun i => decide (i ∉ E ∧ j ∈ adj nodes i))

/-- Every element's predecessors stand before it. -/
def Topo (nodes : List (Node N)) (n : Nat) (L : List Nat) : Prop :=
  ∀ A j B, L = A ++ j :: B → ∀ i, i < n → j ∈ adj nodes i → i ∈ A

/-- The slots below `n` are well formed. -/
structure Slots (nodes : List (Node N)) (n : Nat) : Prop where
  le : n ≤ nodes.length
  ids : ∀ i, i < n → ∃ nd a, nodes[i]? = some nd ∧ nd.nodeId = some a
  nodup : ∀ i, i < n → (adj nodes i).Nodup
  lt : ∀ i, i < n → ∀ j ∈ adj nodes i, j < n

theorem cnt_snoc (nodes : List (Node N)) (n : Nat) (E : List Nat) (i j : Nat) (hi : i < n) (hE : i ∉ E) :
    cnt nodes n E j = cnt nodes n (E ++ [i]) j + (if j ∈ adj nodes i then 1 else 0) := by
  unfold cnt
  have key : ∀ m, (List.range m).countP (fun i' => decide (i' ∉ E ∧ j ∈ adj nodes i')) =
      (List.range m).countP (fun i' => decide (i' ∉ E ++ [i] ∧ j ∈ adj nodes i'))
      + (if i < m ∧ j ∈ adj nodes i then 1 else 0) := by
    intro m
    induction m with
    | zero => simp
    | succ m ih =>
      rw [List.range_succ, List.countP_append, List.countP_append, ih]
      simp only [List.countP_singleton, List.mem_append, List.mem_singleton, decide_eq_true_eq]
      by_cases hm : m = i
      · subst hm
        by_cases hj : j ∈ adj nodes m <;> simp [hj, hE]
      · have h1 : (i < m + 1) ↔ i < m := by omega
        simp only [hm, h1, or_false]
        omega
  rw [key n]; simp [hi]

theorem cnt_eq_zero (nodes : List (Node N)) (n : Nat) (E : List Nat) (j : Nat) :
    cnt nodes n E j = 0 ↔ ∀ i, i < n → j ∈ adj nodes i → i ∈ E := by
  unfold cnt
  rw [List.countP_eq_zero]
  simp only [List.mem_range, decide_eq_true_eq, not_and]
  constructor
  · intro h i hi hj
    apply Classical.byContradiction
    intro hE; exact h i hi hE hj
  · intro h i hi hE hj; exact hE (h i hi hj)

/-- Inner loop: the pending edges `rs` of the node just emitted. -/
structure Inner (nodes : List (Node N)) (n : Nat) (E rs deg Q : List Nat) : Prop where
  nodup : (E ++ Q).Nodup
  lt : ∀ j ∈ E ++ Q, j < n
  deg : ∀ j, j < n → deg[j]? = some (cnt nodes n E j + (if j ∈ rs then 1 else 0))
  zero : ∀ j, j < n → (cnt nodes n E j + (if j ∈ rs then 1 else 0) = 0 ↔ j ∈ E ++ Q)
  topo : Topo nodes n (E ++ Q)

theorem topo_snoc (nodes : List (Node N)) (n : Nat) (L : List Nat) (r : Nat) (h : Topo nodes n L)
    (hr : ∀ i, i < n → r ∈ adj nodes i → i ∈ L) : Topo nodes n (L ++ [r]) := by
  intro A j B hAB i hi hj
  rcases List.eq_nil_or_concat B with rfl | ⟨B', b, rfl⟩
  · have : L = A ∧ r = j := by
      have := List.append_inj' hAB rfl
      simpa using this
    rw [← this.1]; apply hr i hi; rw [this.2]; exact hj
  · have : L = A ++ j :: B' ∧ [r] = [b] := by
      apply List.append_inj' (t₁ := [r]) (t₂ := [b]) _ rfl
      rw [hAB]; simp
    exact h A j B' this.1 i hi hj

theorem relax_inner (nodes : List (Node N)) (n : Nat) (E rs deg Q : List Nat)
    (hI : Inner nodes n E rs deg Q) (hnd : rs.Nodup) (hlt : ∀ r ∈ rs, r < n) :
    ∃ deg' Q', rs.foldlM relaxOne (deg, Q) = some (deg', Q') ∧ deg'.length = deg.length ∧
      Inner nodes n E [] deg' Q' := by
  induction rs generalizing deg Q with
  | nil => exact ⟨deg, Q, rfl, rfl, hI⟩
  | cons r rs ih =>
    have hrn : r < n := hlt r (by simp)
    have hr : r ∉ rs := (List.nodup_cons.1 hnd).1
    have hdr : deg[r]? = some (cnt nodes n E r + 1) := by
      have := hI.deg r hrn; simpa using this
    have hrl : r < deg.length := by
      rw [List.getElem?_eq_some_iff] at hdr; exact hdr.1
    simp only [List.foldlM_cons, relaxOne, hdr, Option.bind_eq_bind, Option.bind_some]
    have hrnot : r ∉ E ++ Q := by
      intro h; have := (hI.zero r hrn).2 h; simp at this
    have hlen : (deg.set r (cnt nodes n E r)).length = deg.length := by simp
    have hcase : Inner nodes n E rs (deg.set r (cnt nodes n E r))
        (if cnt nodes n E r = 0 then Q ++ [r] else Q) := by
      have hdeg : ∀ j, j < n → (deg.set r (cnt nodes n E r))[j]? = some (cnt nodes n E j + (if j ∈ rs then 1 else 0)) := by
        intro j hj
        by_cases h : j = r
        · subst h; simp [hrl, hr]
        · rw [List.getElem?_set_ne (by omega), hI.deg j hj]
          simp [h]
      by_cases hz : cnt nodes n E r = 0
      · simp only [hz, if_true] at hdeg ⊢
        refine ⟨?_, ?_, hdeg, ?_, ?_⟩
        · rw [← List.append_assoc, List.nodup_append]
          refine ⟨hI.nodup, by simp, ?_⟩
          intro a ha b hb; simp at hb; subst hb; rintro rfl; exact hrnot ha
        · intro j hj; rw [← List.append_assoc] at hj
          rcases List.mem_append.1 hj with h | h
          · exact hI.lt j h
          · simp at h; omega
        · intro j hj
          rw [← List.append_assoc, List.mem_append, ← hI.zero j hj]
          by_cases h : j = r
          · subst h; simp [hz, hr]
          · simp [h]
        · rw [← List.append_assoc]
          refine topo_snoc nodes n _ r hI.topo ?_
          intro i hi hj
          exact List.mem_append_left _ ((cnt_eq_zero nodes n E r).1 hz i hi hj)
      · simp only [hz, if_false] at hdeg ⊢
        refine ⟨hI.nodup, hI.lt, hdeg, ?_, hI.topo⟩
        intro j hj
        rw [← hI.zero j hj]
        by_cases h : j = r
        · subst h; simp [hz, hr]
        · simp [h]
    obtain ⟨deg', Q', h1, h2, h3⟩ := ih _ _ hcase (List.nodup_cons.1 hnd).2 (fun x hx => hlt x (by simp [hx]))
    exact ⟨deg', Q', h1, by rw [h2, hlen], h3⟩

theorem nodup_lt_length (L : List Nat) (n : Nat) (hnd : L.Nodup) (hlt : ∀ j ∈ L, j < n) : L.length ≤ n := by
  have := List.Nodup.length_le_of_subset (l₁ := L) (l₂ := List.range n) hnd (by intro x hx; simpa using hlt x hx)
  simpa using this

/-- The main loop. `idOf` gives the node id of a slot. -/
theorem kahnLoop_spec (nodes : List (Node N)) (n : Nat) (hS : Slots nodes n) (idOf : Nat → N)
    (hid : ∀ i, i < n → ∃ nd, nodes[i]? = some nd ∧ nd.nodeId = some (idOf i))
    (out0 : List N) (fuel : Nat) (deg E Q : List Nat) (hI : Inner nodes n E [] deg Q)
    (hf : n ≤ fuel + E.length) :
    ∃ deg' E', kahnLoop nodes fuel deg Q (out0 ++ E.map idOf) E.length
        = some (deg', out0 ++ E'.map idOf, E'.length) ∧ deg'.length = deg.length ∧
      Inner nodes n E' [] deg' [] := by
  induction fuel generalizing deg E Q with
  | zero =>
    cases Q with
    | nil => exact ⟨deg, E, rfl, rfl, hI⟩
    | cons i Q =>
      have := nodup_lt_length _ n hI.nodup hI.lt
      simp at this; omega
  | succ fuel ih =>
    cases Q with
    | nil => exact ⟨deg, E, rfl, rfl, hI⟩
    | cons i Q =>
      have hin : i < n := hI.lt i (by simp)
      obtain ⟨nd, hnd, hida⟩ := hid i hin
      have hadj : adj nodes i = nd.edges := by simp [adj, hnd]
      have hE : i ∉ E := by
        have := hI.nodup
        rw [List.nodup_append] at this
        intro h; exact this.2.2 i h i (by simp) rfl
      have hI' : Inner nodes n (E ++ [i]) nd.edges deg Q := by
        have hcnt := fun j => cnt_snoc nodes n E i j hin hE
        rw [hadj] at hcnt
        refine ⟨by simpa using hI.nodup, by simpa using hI.lt, ?_, ?_, by simpa using hI.topo⟩
        · intro j hj; rw [← hcnt j]; simpa using hI.deg j hj
        · intro j hj; rw [← hcnt j]; simpa using hI.zero j hj
      obtain ⟨deg', Q', h1, h2, h3⟩ := relax_inner nodes n _ _ _ _ hI'
        (by rw [← hadj]; exact hS.nodup i hin) (by rw [← hadj]; exact hS.lt i hin)
      obtain ⟨deg'', E', h4, h5, h6⟩ := ih deg' (E ++ [i]) Q' h3 (by simp; omega)
      refine ⟨deg'', E', ?_, by omega, h6⟩
      simp only [kahnLoop, hnd, hida, h1]
      rw [← h4]; simp

/-! Counting the inputs. -/

theorem count_edges (es : List Nat) (deg : List Nat) (h : ∀ j ∈ es, j < deg.length) :
    ∃ deg', es.foldlM (fun deg j => (deg[j]?).map (fun d => deg.set j (d + 1))) deg = some deg' ∧
      deg'.length = deg.length ∧ ∀ j, deg'[j]? = (deg[j]?).map (· + es.count j) := by
  induction es generalizing deg with
  | nil => exact ⟨deg, rfl, rfl, by intro j; simp⟩
  | cons e es ih =>
    have he : e < deg.length := h e (by simp)
    simp only [List.foldlM_cons, List.getElem?_eq_getElem he, Option.map_some, Option.bind_eq_bind, Option.bind_some]
    obtain ⟨deg', h1, h2, h3⟩ := ih (deg.set e (deg[e] + 1)) (by intro j hj; simpa using h j (by simp [hj]))
    refine ⟨deg', h1, by simpa using h2, ?_⟩
    intro j
    rw [h3 j]
    by_cases hj : j = e
    · subst hj; simp [he]; omega
    · rw [List.getElem?_set_ne (by omega)]
      simp [show ¬ e = j from fun h => hj h.symm]

theorem countInputs_spec (nodes : List (Node N)) (deg : List Nat)
    (h : ∀ nd ∈ nodes, nd.edges.Nodup ∧ ∀ j ∈ nd.edges, j < deg.length) :
    ∃ deg', countInputs nodes deg = some deg' ∧ deg'.length = deg.length ∧
      ∀ j, deg'[j]? = (deg[j]?).map (· + nodes.countP (fun nd => decide (j ∈ nd.edges))) := by
  induction nodes generalizing deg with
  | nil => exact ⟨deg, rfl, rfl, by intro j; simp⟩
  | cons nd nodes ih =>
    obtain ⟨d1, h1, h2, h3⟩ := count_edges nd.edges deg (h nd (by simp)).2
    obtain ⟨d2, h4, h5, h6⟩ := ih d1 (by intro nd' hnd'; rw [h2]; exact h nd' (by simp [hnd']))
    refine ⟨d2, ?_, by omega, ?_⟩
    · simp only [countInputs, List.foldlM_cons, Option.bind_eq_bind] at *
      rw [h1]; exact h4
    · intro j
      rw [h6 j, h3 j, List.countP_cons]
      have : nd.edges.count j = if decide (j ∈ nd.edges) then 1 else 0 := by
        rw [List.Nodup.count (h nd (by simp)).1]; simp
      rw [this]
      cases deg[j]? <;> simp; omega

theorem countP_take (nodes : List (Node N)) (n : Nat) (hn : n ≤ nodes.length) (j : Nat) :
    (nodes.take n).countP (fun nd => decide (j ∈ nd.edges)) = cnt nodes n [] j := by
  unfold cnt
  induction n with
  | zero => simp
  | succ n ih =>
    have hlt : n < nodes.length := by omega
    rw [List.range_succ, List.countP_append, ← ih (by omega), List.take_succ_eq_append_getElem hlt, List.countP_append]
    simp [adj, hlt]

/-- The initial queue satisfies the loop invariant. -/
theorem init_inner (nodes : List (Node N)) (n : Nat) (deg : List Nat)
    (hdeg : ∀ j, j < n → deg[j]? = some (cnt nodes n [] j)) :
    Inner nodes n [] [] deg ((List.range n).filter (fun idx => deg[idx]? = some 0)) := by
  have hmem : ∀ j, j ∈ (List.range n).filter (fun idx => deg[idx]? = some 0) ↔ j < n ∧ cnt nodes n [] j = 0 := by
    intro j
    simp only [List.mem_filter, List.mem_range, decide_eq_true_eq]
    constructor
    · rintro ⟨h1, h2⟩; rw [hdeg j h1] at h2; exact ⟨h1, by simpa using h2⟩
    · rintro ⟨h1, h2⟩; exact ⟨h1, by rw [hdeg j h1, h2]⟩
  refine ⟨?_, ?_, ?_, ?_, ?_⟩
  · rw [List.nil_append]; exact List.Pairwise.filter _ List.nodup_range
  · intro j hj; exact ((hmem j).1 (by simpa using hj)).1
  · intro j hj; simpa using hdeg j hj
  · intro j hj; simp only [List.nil_append]; rw [hmem j]; simp [hj]
  · intro A j B hAB i hi hj
    have : j ∈ (List.range n).filter (fun idx => deg[idx]? = some 0) := by
      rw [List.nil_append] at hAB; rw [hAB]; simp
    have := (cnt_eq_zero nodes n [] j).1 ((hmem j).1 this).2 i hi hj
    simp at this

/-! Cycles. -/

/-- The slot graph. -/
def IdxEdge (nodes : List (Node N)) (n : Nat) (i j : Nat) : Prop := i < n ∧ j < n ∧ j ∈ adj nodes i

/-- A finite non-empty set in which everything has a predecessor contains a cycle. -/
theorem cycle_of_preds {α : Type} (R : α → α → Prop) (S : List α) (a : α) (ha : a ∈ S)
    (h : ∀ j ∈ S, ∃ i ∈ S, R i j) : ∃ c, Relation.TransGen R c c := by
  classical
  apply Classical.byContradiction
  intro hno
  have hno : ∀ c, ¬ Relation.TransGen R c c := fun c hc => hno ⟨c, hc⟩
  have key : ∀ k j, j ∈ S → S.countP (fun i => decide (Relation.TransGen R i j)) ≤ k → False := by
    intro k
    induction k with
    | zero =>
      intro j hj hle
      obtain ⟨i, hi, hij⟩ := h j hj
      have : 0 < S.countP (fun i => decide (Relation.TransGen R i j)) :=
        List.countP_pos_iff.2 ⟨i, hi, by simpa using Relation.TransGen.single hij⟩
      omega
    | succ k ih =>
      intro j hj hle
      obtain ⟨i, hi, hij⟩ := h j hj
      apply ih i hi
      have hlt : S.countP (fun x => decide (Relation.TransGen R x i)) <
          S.countP (fun x => decide (Relation.TransGen R x j)) := by
        obtain ⟨s, t, rfl⟩ := List.append_of_mem hi
        rw [List.countP_append, List.countP_append, List.countP_cons, List.countP_cons]
        have h1 : ∀ l : List α, l.countP (fun x => decide (Relation.TransGen R x i)) ≤
            l.countP (fun x => decide (Relation.TransGen R x j)) := by
          intro l
          apply List.countP_mono_left
          intro x _ hx
          simp only [decide_eq_true_eq] at hx ⊢
          exact Relation.TransGen.tail hx hij
        have h2 : Relation.TransGen R i j := Relation.TransGen.single hij
        have h3 := h1 s
        have h4 := h1 t
        simp only [hno i, h2, decide_true, decide_false, if_true]
        simp; omega
      omega
  exact key _ a ha (Nat.le_refl _)

/-- In a topologically sorted list no element lies on a cycle. -/
theorem topo_no_cycle (nodes : List (Node N)) (n : Nat) (L : List Nat) (hT : Topo nodes n L) :
    ∀ c ∈ L, ¬ Relation.TransGen (IdxEdge nodes n) c c := by
  -- predecessors (transitively) stand before
  have key : ∀ i j, Relation.TransGen (IdxEdge nodes n) i j → ∀ A B, L = A ++ j :: B → i ∈ A := by
    intro i j h
    induction h with
    | single h => intro A B hAB; exact hT A _ B hAB i h.1 h.2.2
    | @tail b c _ h ih =>
      intro A B hAB
      have hb := hT A _ B hAB _ h.1 h.2.2
      obtain ⟨s, t, rfl⟩ := List.append_of_mem hb
      have := ih s (t ++ c :: B) (by rw [hAB]; simp)
      simp [this]
  have key2 : ∀ k A c B, A.length ≤ k → L = A ++ c :: B → ¬ Relation.TransGen (IdxEdge nodes n) c c := by
    intro k
    induction k with
    | zero =>
      intro A c B hA hL hc
      have := key c c hc A B hL
      have : 0 < A.length := List.length_pos_of_mem this
      omega
    | succ k ih =>
      intro A c B hA hL hc
      have := key c c hc A B hL
      obtain ⟨s, t, rfl⟩ := List.append_of_mem this
      exact ih s c (t ++ c :: B) (by simp at hA; omega) (by rw [hL]; simp) hc
  intro c hc
  obtain ⟨A, B, hAB⟩ := List.append_of_mem hc
  exact key2 A.length A c B (Nat.le_refl _) hAB

end HexoDSP.GraphOrdering
