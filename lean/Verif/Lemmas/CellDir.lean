import Verif.Spec.CellDir
/-! Helper lemmas about the hexagonal grid directions. -/

namespace HexoDSP.CellDir

theorem offsPos_flip (d : CellDir) (hd : d ≠ C) (p q : Pos) (h : d.offsPos p = some q) :
    d.flip.offsPos q = some p := by
  obtain ⟨x, y⟩ := p
  obtain ⟨u, v⟩ := q
  revert h
  cases d <;> simp only [offsPos, asOffs, flip] <;>
    by_cases hx : x % 2 = 0 <;> by_cases hu : u % 2 = 0 <;>
    simp [hx, hu] at hd ⊢ <;> omega

theorem hits_iff (d : CellDir) (a b : Pos) : hits d a b = true ↔ d.offsPos a = some b := by
  obtain ⟨x, y⟩ := a
  obtain ⟨u, v⟩ := b
  cases d <;> simp only [offsPos, asOffs, hits] <;>
    by_cases hx : x % 2 = 0 <;> simp [hx] <;> omega

theorem hits_inj (d e : CellDir) (a b : Pos) (hd : d ≠ C) (he : e ≠ C)
    (h1 : hits d a b = true) (h2 : hits e a b = true) : d = e := by
  obtain ⟨x, y⟩ := a
  obtain ⟨u, v⟩ := b
  simp only [hits, decide_eq_true_eq] at h1 h2
  have h3 : d.asOffs x = e.asOffs x := by
    apply Prod.ext <;> omega
  clear h1 h2
  revert h3 hd he
  by_cases hx : x % 2 = 0 <;> cases d <;> cases e <;> simp [asOffs, hx]

theorem areAdjacent_iff (a b : Pos) (d : CellDir) :
    areAdjacent a b = some d ↔ d ≠ C ∧ d.offsPos a = some b := by
  rw [← hits_iff]
  have hinj := fun e => hits_inj d e a b
  unfold areAdjacent
  cases d <;> grind

theorem pathLoop_length_le (n : Nat) (a b : Pos) : (pathLoop n a b).length ≤ n := by
  induction n generalizing a with
  | zero => simp [pathLoop]
  | succ n ih =>
    simp only [pathLoop]
    split
    · simp
    · split
      · simp; exact ih _
      · simp

theorem offsPos_some_iff (d : CellDir) (a q : Pos) : d.offsPos a = some q ↔
    (q.1 : Int) = a.1 + (d.asOffs a.1).1 ∧ (q.2 : Int) = a.2 + (d.asOffs a.1).2 := by
  rw [← hits_iff]; simp [hits]

theorem sqDist_shift (b a q : Pos) (sx sy : Int) (h1 : (q.1 : Int) = a.1 + sx) (h2 : (q.2 : Int) = a.2 + sy) :
    sqDist b q = sqDist b a - 2 * (sx * ((b.1 : Int) - a.1)) - 2 * (sy * ((b.2 : Int) - a.2)) + sx * sx + sy * sy := by
  simp only [sqDist, h1, h2]
  grind

/-- What the loop over the six edges computes. -/
theorem fold_nearer (a b : Pos) (es : List Nat) (acc : Int × CellDir × Pos) :
    let m := es.foldl (nearerStep a b) acc
    m.1 ≤ acc.1 ∧ (∀ e ∈ es, ∀ q, (ofEdge e).offsPos a = some q → m.1 ≤ sqDist b q) ∧
      (m = acc ∨ ∃ e ∈ es, m.2.1 = ofEdge e ∧ (ofEdge e).offsPos a = some m.2.2 ∧ m.1 = sqDist b m.2.2) := by
  induction es generalizing acc with
  | nil => simp
  | cons e es ih =>
    simp only [List.foldl_cons]
    have ih := ih (nearerStep a b acc e)
    simp only at ih
    generalize hm : es.foldl (nearerStep a b) (nearerStep a b acc e) = m at *
    obtain ⟨h1, h2, h3⟩ := ih
    have hstep : (nearerStep a b acc e).1 ≤ acc.1 ∧
        (∀ q, (ofEdge e).offsPos a = some q → (nearerStep a b acc e).1 ≤ sqDist b q) ∧
        (nearerStep a b acc e = acc ∨ ((nearerStep a b acc e).2.1 = ofEdge e ∧
          (ofEdge e).offsPos a = some (nearerStep a b acc e).2.2 ∧
          (nearerStep a b acc e).1 = sqDist b (nearerStep a b acc e).2.2)) := by
      unfold nearerStep
      cases ho : (ofEdge e).offsPos a with
      | none => simp
      | some q =>
        simp only
        split
        · refine ⟨by simp; omega, ?_, Or.inr ⟨rfl, by simp, rfl⟩⟩
          intro q' hq'; cases hq'; simp
        · refine ⟨by simp, ?_, Or.inl rfl⟩
          intro q' hq'; cases hq'; omega
    refine ⟨by omega, ?_, ?_⟩
    · intro e' he' q hq
      rcases List.mem_cons.1 he' with rfl | he'
      · have := hstep.2.1 q hq; omega
      · exact h2 e' he' q hq
    · rcases h3 with h3 | ⟨e', he', h3⟩
      · rcases hstep.2.2 with h4 | h4
        · left; rw [h3, h4]
        · right; exact ⟨e, by simp, by rw [h3]; exact h4⟩
      · right; exact ⟨e', by simp [he'], h3⟩

/-- Some neighbour is strictly nearer, and the code picks a nearest one. -/
theorem nearest_spec (a b : Pos) (hne : a ≠ b) (hd : sqDist b a ≤ 99999) :
    let m := nearest a b
    m.1 < 99999 ∧ m.2.1.offsPos a = some m.2.2 ∧ sqDist b m.2.2 < sqDist b a ∧ blockDist m.2.2 b < blockDist a b := by
  have hf := fold_nearer a b [0, 1, 2, 3, 4, 5] (99999, C, a)
  simp only at hf ⊢
  have hn : [0, 1, 2, 3, 4, 5].foldl (nearerStep a b) (99999, C, a) = nearest a b := rfl
  rw [hn] at hf
  generalize nearest a b = m at hf ⊢
  obtain ⟨-, hmin, hcase⟩ := hf
  obtain ⟨x, y⟩ := a
  obtain ⟨u, v⟩ := b
  generalize hK : sqDist (u, v) (x, y) = K at *
  -- distances of the candidate moves
  have cand : ∀ e ∈ [0, 1, 2, 3, 4, 5], ∀ q : Pos,
      (q.1 : Int) = x + ((ofEdge e).asOffs x).1 → (q.2 : Int) = y + ((ofEdge e).asOffs x).2 →
      m.1 ≤ K - 2 * (((ofEdge e).asOffs x).1 * ((u : Int) - x)) - 2 * (((ofEdge e).asOffs x).2 * ((v : Int) - y))
        + ((ofEdge e).asOffs x).1 * ((ofEdge e).asOffs x).1 + ((ofEdge e).asOffs x).2 * ((ofEdge e).asOffs x).2 := by
    intro e he q h1 h2
    have := hmin e he q ((offsPos_some_iff _ _ _).2 ⟨h1, h2⟩)
    rw [sqDist_shift (u, v) (x, y) q _ _ h1 h2, hK] at this
    exact this
  have hv1 : (v : Int) - y > 0 → m.1 ≤ K - 2 * ((v : Int) - y) + 1 := by
    intro _
    have := cand 2 (by simp) (x, y + 1) (by simp [ofEdge, asOffs]) (by simp [ofEdge, asOffs])
    simp [ofEdge, asOffs] at this; omega
  have hv2 : (v : Int) - y < 0 → m.1 ≤ K + 2 * ((v : Int) - y) + 1 := by
    intro _
    have := cand 5 (by simp) (x, y - 1) (by simp [ofEdge, asOffs]) (by simp [ofEdge, asOffs]; omega)
    simp [ofEdge, asOffs] at this; omega
  have hu1 : (u : Int) - x > 0 → m.1 ≤ K - 2 * ((u : Int) - x) + 1 := by
    intro _
    by_cases hx : x % 2 = 0
    · have := cand 1 (by simp) (x + 1, y) (by simp [ofEdge, asOffs]) (by simp [ofEdge, asOffs, hx])
      simp [ofEdge, asOffs, hx] at this; omega
    · have := cand 0 (by simp) (x + 1, y) (by simp [ofEdge, asOffs]) (by simp [ofEdge, asOffs, hx])
      simp [ofEdge, asOffs, hx] at this; omega
  have hu2 : (u : Int) - x < 0 → m.1 ≤ K + 2 * ((u : Int) - x) + 1 := by
    intro _
    by_cases hx : x % 2 = 0
    · have := cand 3 (by simp) (x - 1, y) (by simp [ofEdge, asOffs]; omega) (by simp [ofEdge, asOffs, hx])
      simp [ofEdge, asOffs, hx] at this; omega
    · have := cand 4 (by simp) (x - 1, y) (by simp [ofEdge, asOffs]; omega) (by simp [ofEdge, asOffs, hx])
      simp [ofEdge, asOffs, hx] at this; omega
  have hne' : u ≠ x ∨ v ≠ y := by
    rcases Nat.decEq u x with h | h
    · exact Or.inl h
    · right; rintro rfl; exact hne (by simp [h])
  have hlt : m.1 < K := by omega
  rcases hcase with hcase | ⟨e, he, h1, h2, h3⟩
  · rw [hcase] at hlt; simp at hlt; omega
  refine ⟨by omega, by rw [h1]; exact h2, by omega, ?_⟩
  obtain ⟨h4, h5⟩ := (offsPos_some_iff _ _ _).1 h2
  simp only at h4 h5
  rw [sqDist_shift (u, v) (x, y) m.2.2 _ _ h4 h5, hK] at h3
  unfold blockDist
  simp only
  clear cand hmin
  by_cases hx : x % 2 = 0 <;>
    · simp only [List.mem_cons, List.not_mem_nil, or_false] at he
      rcases he with rfl | rfl | rfl | rfl | rfl | rfl <;>
        simp [ofEdge, asOffs, hx] at h3 h4 h5 <;> omega

theorem pathLoop_correct (n : Nat) (a b : Pos) (hd : sqDist b a ≤ 99999) (hn : blockDist a b ≤ n) :
    walk a (pathLoop n a b) = some b ∧ (pathLoop n a b).length ≤ blockDist a b := by
  induction n generalizing a with
  | zero =>
    have : a = b := by
      obtain ⟨x, y⟩ := a; obtain ⟨u, v⟩ := b; simp only [blockDist] at hn
      simp only [Prod.mk.injEq]; omega
    simp [pathLoop, walk, this]
  | succ n ih =>
    simp only [pathLoop]
    split
    · next h => simp [walk, h]
    · next h =>
      have hs := nearest_spec a b h hd
      simp only at hs
      obtain ⟨h1, h2, h3, h4⟩ := hs
      rw [if_pos h1]
      have := ih (nearest a b).2.2 (by omega) (by omega)
      simp only [walk, h2, Option.bind_some, List.length_cons]
      exact ⟨this.1, by omega⟩

end HexoDSP.CellDir
