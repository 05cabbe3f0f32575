import Verif.Spec.Monitor
import Mathlib.Data.List.Induction
import Mathlib.Order.MinMax
import Mathlib.Tactic.Linarith
/-!
# Lemmas about the monitor
-/

set_option linter.unusedSectionVars false

namespace HexoDSP.MonitorLemmas
open HexoDSP.Monitor HexoDSP.MonitorSpec

/-! ## Min/max points -/

/-- Smallest and largest value, as computed. -/
def ends (ws : List ℚ) : ℚ × ℚ := (ws.foldl min 100, ws.foldl max (-100))

/-- The min/max state after a stream. -/
structure MM (xs : List ℚ) (m : MinMax) : Prop where
  cnt : m.cnt = xs.length % 900
  wp : m.wp = (xs.length / 900) % 160
  cur : (m.lo, m.hi) = ends (xs.drop (900 * (xs.length / 900)))
  points : ∀ k, k < xs.length / 900 → xs.length / 900 ≤ k + 160 → m.buf (k % 160) = ends (window xs k)
  blank : ∀ s, s < 160 → xs.length / 900 ≤ s → m.buf s = (0, 0)

theorem MM.new : MM [] MinMax.new where
  cnt := rfl
  wp := rfl
  cur := rfl
  points := fun k h => absurd h (by simp)
  blank := fun _ _ _ => rfl

theorem ends_snoc (ws : List ℚ) (x : ℚ) : ends (ws ++ [x]) = (min (ends ws).1 x, max (ends ws).2 x) := by
  simp [ends, List.foldl_append]

theorem window_snoc {xs : List ℚ} {x : ℚ} {k : Nat} (h : k < xs.length / 900) : window (xs ++ [x]) k = window xs k := by
  unfold window
  have h1 : 900 * k + 900 ≤ xs.length := by omega
  rw [List.drop_append_of_le_length (by omega), List.take_append_of_le_length (by rw [List.length_drop]; omega)]

theorem MM.sample {xs : List ℚ} {m : MinMax} (h : MM xs m) (x : ℚ) : MM (xs ++ [x]) (m.sample x).1 := by
  have hlen : (xs ++ [x]).length = xs.length + 1 := by simp
  have hlo : m.lo = (ends (xs.drop (900 * (xs.length / 900)))).1 := congrArg Prod.fst h.cur
  have hhi : m.hi = (ends (xs.drop (900 * (xs.length / 900)))).2 := congrArg Prod.snd h.cur
  have hc := h.cnt
  unfold MinMax.sample
  simp only
  split
  · next hge =>
    have hdiv : (xs.length + 1) / 900 = xs.length / 900 + 1 := by omega
    have hmod : (xs.length + 1) % 900 = 0 := by omega
    have hd : xs.length = 900 * (xs.length / 900) + 899 := by omega
    refine ⟨by rw [hlen, hmod], ?_, ?_, ?_, ?_⟩
    · rw [hlen, hdiv]; simp only; rw [h.wp]; omega
    · rw [hlen, hdiv]
      rw [List.drop_eq_nil_of_le (by rw [hlen]; omega)]; rfl
    · rw [hlen, hdiv]
      intro k hk hk2
      simp only
      by_cases hkn : k = xs.length / 900
      · subst hkn
        rw [if_pos h.wp.symm]
        have : window (xs ++ [x]) (xs.length / 900) = xs.drop (900 * (xs.length / 900)) ++ [x] := by
          unfold window
          rw [List.drop_append_of_le_length (by omega), List.take_of_length_le]
          rw [List.length_append, List.length_drop]; simp; omega
        rw [this, ends_snoc, hlo, hhi]
      · have hk' : k < xs.length / 900 := by omega
        rw [if_neg (by rw [h.wp]; omega), h.points k hk' (by omega), window_snoc hk']
    · rw [hlen, hdiv]
      intro s hs hs2
      simp only
      rw [if_neg (by rw [h.wp]; omega)]
      exact h.blank s hs (by omega)
  · next hlt =>
    have hdiv : (xs.length + 1) / 900 = xs.length / 900 := by omega
    refine ⟨by rw [hlen]; simp only; omega, by rw [hlen, hdiv]; exact h.wp, ?_, ?_, ?_⟩
    · rw [hlen, hdiv, List.drop_append_of_le_length (by omega), ends_snoc, ← hlo, ← hhi]
    · rw [hlen, hdiv]
      intro k hk hk2
      rw [window_snoc hk]
      exact h.points k hk hk2
    · rw [hlen, hdiv]
      exact h.blank

/-- Many samples. -/
def feedAll (m : MinMax) (xs : List ℚ) : MinMax := xs.foldl (fun m x => (m.sample x).1) m

theorem MM.feedAll : ∀ (ys : List ℚ) {xs : List ℚ} {m : MinMax}, MM xs m → MM (xs ++ ys) (feedAll m ys)
  | [], xs, m, h => by rw [List.append_nil]; exact h
  | y :: ys, xs, m, h => by
    have := MM.feedAll ys (h.sample y)
    rw [List.append_assoc] at this
    exact this

theorem sample_quiet (m : MinMax) (x : ℚ) (h : (m.sample x).2 = false) : (m.sample x).1.buf = m.buf ∧ (m.sample x).1.wp = m.wp := by
  unfold MinMax.sample at h ⊢
  simp only at h ⊢
  split at h
  · cases h
  · next hn => rw [if_neg hn]; exact ⟨rfl, rfl⟩

theorem foldl_min_key : ∀ (l : List ℚ) (b : ℚ), (l.foldl min b = b ∨ l.foldl min b ∈ l) ∧ l.foldl min b ≤ b ∧ ∀ z ∈ l, l.foldl min b ≤ z := by
  intro l
  induction l with
  | nil => intro b; simp
  | cons z l ih =>
    intro b
    obtain ⟨p, q, r⟩ := ih (min b z)
    rw [List.foldl_cons]
    refine ⟨?_, q.trans (min_le_left _ _), ?_⟩
    · rcases p with p | p
      · rcases min_choice b z with h | h
        · left; rw [p, h]
        · right; rw [p, h]; simp
      · right; exact List.mem_cons_of_mem _ p
    · intro w hw
      rcases List.mem_cons.1 hw with rfl | hw
      · exact q.trans (min_le_right _ _)
      · exact r w hw

theorem foldl_max_key : ∀ (l : List ℚ) (b : ℚ), (l.foldl max b = b ∨ l.foldl max b ∈ l) ∧ b ≤ l.foldl max b ∧ ∀ z ∈ l, z ≤ l.foldl max b := by
  intro l
  induction l with
  | nil => intro b; simp
  | cons z l ih =>
    intro b
    obtain ⟨p, q, r⟩ := ih (max b z)
    rw [List.foldl_cons]
    refine ⟨?_, (le_max_left _ _).trans q, ?_⟩
    · rcases p with p | p
      · rcases max_choice b z with h | h
        · left; rw [p, h]
        · right; rw [p, h]; simp
      · right; exact List.mem_cons_of_mem _ p
    · intro w hw
      rcases List.mem_cons.1 hw with rfl | hw
      · exact (le_max_right _ _).trans q
      · exact r w hw

theorem ends_extremes {ws : List ℚ} (hne : ws ≠ []) (h : ∀ x ∈ ws, -100 ≤ x ∧ x ≤ 100) : Extremes ws (ends ws) := by
  obtain ⟨x, hx⟩ := List.exists_mem_of_ne_nil ws hne
  obtain ⟨a1, a2, a3⟩ := foldl_min_key ws 100
  obtain ⟨b1, b2, b3⟩ := foldl_max_key ws (-100)
  refine ⟨?_, ?_, fun y hy => ⟨a3 y hy, b3 y hy⟩⟩
  · rcases a1 with a1 | a1
    · have : x = 100 := le_antisymm (h x hx).2 (a1 ▸ a3 x hx)
      show ws.foldl min 100 ∈ ws
      rw [a1, ← this]; exact hx
    · exact a1
  · rcases b1 with b1 | b1
    · have : x = -100 := le_antisymm (b1 ▸ b3 x hx) (h x hx).1
      show ws.foldl max (-100) ∈ ws
      rw [b1, ← this]; exact hx
    · exact b1

theorem shows_of_MM {xs : List ℚ} {m : MinMax} (h : MM xs m) (hq : ∀ x ∈ xs, -100 ≤ x ∧ x ≤ 100) : Shows xs ⟨m.buf, m.wp⟩ := by
  intro j hj
  have hwp := h.wp
  refine ⟨fun hn => ?_, fun hn => ?_⟩
  · have hidx : (m.wp + (159 - j)) % 160 = (xs.length / 900 - 1 - j) % 160 := by omega
    show Extremes _ (m.buf ((m.wp + (159 - j)) % 160))
    rw [hidx, h.points _ (by omega) (by omega)]
    refine ends_extremes ?_ ?_
    · intro he
      have := congrArg List.length he
      unfold window at this
      rw [List.length_take, List.length_drop, List.length_nil] at this
      omega
    · intro x hx
      exact hq x (List.mem_of_mem_drop (List.mem_of_mem_take hx))
  · show m.buf ((m.wp + (159 - j)) % 160) = _
    exact h.blank _ (Nat.mod_lt _ (by omega)) (by omega)

/-! ## Buffers -/

/-- The samples of a signal in a buffer. -/
def content (b : Buf) (i : Nat) : List ℚ := (List.range (b.len i)).map (fun k => b.blocks (i * 128 + k))

/-- A buffer is ready to be read and has the given content. -/
def Holds (b : Buf) (c : Nat → List ℚ) : Prop := ∀ i, i < 6 → b.rd i = 0 ∧ b.len i ≤ 128 ∧ content b i = c i

/-- A buffer is empty. -/
def Clean (b : Buf) : Prop := ∀ i, b.rd i = 0 ∧ b.len i = 0

theorem Clean.holds {b : Buf} (h : Clean b) : Holds b (fun _ => []) := fun i _ => by
  obtain ⟨a, c⟩ := h i
  exact ⟨a, by omega, by unfold content; rw [c]; rfl⟩

theorem feed_holds {b : Buf} {c : Nat → List ℚ} (h : Holds b c) {i : Nat} (hi : i < 6) {xs : List ℚ} (hx : xs.length ≤ 128) :
    ∃ b', b.feed i xs = some b' ∧ Holds b' (fun j => if j = i then xs else c j) := by
  unfold Buf.feed
  rw [if_neg (by omega)]
  refine ⟨_, rfl, ?_⟩
  intro j hj
  obtain ⟨h1, h2, h3⟩ := h j hj
  refine ⟨h1, ?_, ?_⟩
  · simp only; split <;> assumption
  · by_cases hji : j = i
    · subst hji
      simp only [content, if_true]
      apply List.ext_getElem
      · simp
      · intro k hk1 hk2
        simp only [List.getElem_map, List.getElem_range]
        rw [if_pos (by omega), show j * 128 + k - j * 128 = k by omega, List.getElem?_eq_getElem hk2]
        rfl
    · simp only [content, if_neg hji]
      rw [← h3]
      unfold content
      apply List.map_congr_left
      intro k hk
      have hk' := List.mem_range.1 hk
      split
      · next hle =>
        rw [List.getElem?_eq_none (by omega)]
        rfl
      · rfl

theorem process_spec : ∀ (left : Nat) (m : MinMax) (b : Buf) (i : Nat), i < 6 → b.rd i + left = b.len i → b.len i ≤ 128 →
    ∃ nd b', MinMax.process left m b i = some (nd, feedAll m ((List.range left).map (fun k => b.blocks (i * 128 + (b.rd i + k)))), b') ∧
      b'.len = b.len ∧ b'.blocks = b.blocks ∧ (∀ j, j ≠ i → b'.rd j = b.rd j) ∧
      (nd = false → (feedAll m ((List.range left).map (fun k => b.blocks (i * 128 + (b.rd i + k))))).buf = m.buf ∧
        (feedAll m ((List.range left).map (fun k => b.blocks (i * 128 + (b.rd i + k))))).wp = m.wp)
  | 0, m, b, i, hi, hl, h128 => by
    refine ⟨false, b, ?_, rfl, rfl, fun _ _ => rfl, fun _ => ⟨rfl, rfl⟩⟩
    unfold MinMax.process
    rw [if_neg (by omega)]
    rfl
  | left + 1, m, b, i, hi, hl, h128 => by
    rw [MinMax.process]
    have hn : b.nextSample i = some (some (b.blocks (i * 128 + b.rd i)), { b with rd := fun j => if j = i then b.rd i + 1 else b.rd j }) := by
      unfold Buf.nextSample
      rw [if_neg (by omega), if_neg (by omega), if_pos (by omega)]
    rw [hn]
    simp only
    obtain ⟨nd, b', h1, h2, h3, h4, h5⟩ := process_spec left (m.sample (b.blocks (i * 128 + b.rd i))).1
      { b with rd := fun j => if j = i then b.rd i + 1 else b.rd j } i hi (by simp only [if_true]; omega) h128
    simp only [if_true] at h1 h5
    have hlist : (List.range (left + 1)).map (fun k => b.blocks (i * 128 + (b.rd i + k))) =
        b.blocks (i * 128 + b.rd i) :: (List.range left).map (fun k => b.blocks (i * 128 + (b.rd i + 1 + k))) := by
      rw [List.range_succ_eq_map, List.map_cons, List.map_map]
      congr 1
      apply List.map_congr_left
      intro k _
      simp only [Function.comp]
      congr 1; omega
    rw [hlist, h1]
    refine ⟨_, b', rfl, h2, h3, ?_, ?_⟩
    · intro j hj
      rw [h4 j hj]
      simp only [if_neg hj]
    · intro hf
      obtain ⟨f1, f2⟩ := Bool.or_eq_false_iff.1 hf
      obtain ⟨g1, g2⟩ := sample_quiet m _ f1
      obtain ⟨k1, k2⟩ := h5 f2
      exact ⟨k1.trans g1, k2.trans g2⟩

theorem processFrom_spec : ∀ (is : List Nat) (ps : Nat → MinMax) (nd : Bool) (b : Buf), is.Nodup →
    (∀ i ∈ is, i < 6 ∧ b.rd i = 0 ∧ b.len i ≤ 128) →
    ∃ ps' nd' b', processFrom is ps nd b = some (ps', nd', b') ∧
      (∀ i ∈ is, ps' i = feedAll (ps i) (content b i)) ∧ (∀ i, i ∉ is → ps' i = ps i) ∧
      (nd' = false → nd = false ∧ ∀ i, (ps' i).buf = (ps i).buf ∧ (ps' i).wp = (ps i).wp)
  | [], ps, nd, b, _, _ => ⟨ps, nd, b, rfl, fun i hi => (List.not_mem_nil hi).elim, fun _ _ => rfl, fun h => ⟨h, fun _ => ⟨rfl, rfl⟩⟩⟩
  | i :: is, ps, nd, b, hnd, h => by
    obtain ⟨hi6, hrd, hlen⟩ := h i List.mem_cons_self
    obtain ⟨hni, hnd'⟩ := List.nodup_cons.1 hnd
    rw [processFrom]
    obtain ⟨n1, b1, e1, e2, e3, e4, e5⟩ := process_spec (b.len i) (ps i) b i hi6 (by omega) hlen
    have hc : (List.range (b.len i)).map (fun k => b.blocks (i * 128 + (b.rd i + k))) = content b i := by
      unfold content
      apply List.map_congr_left
      intro k _
      rw [hrd, Nat.zero_add]
    rw [hc] at e1 e5
    rw [e1]
    simp only
    obtain ⟨ps', nd', b', f1, f2, f3, f4⟩ := processFrom_spec is (fun k => if k = i then feedAll (ps i) (content b i) else ps k) (nd || n1) b1 hnd'
      (by
        intro j hj
        obtain ⟨p1, p2, p3⟩ := h j (List.mem_cons_of_mem _ hj)
        have hji : j ≠ i := fun e => hni (e ▸ hj)
        exact ⟨p1, by rw [e4 j hji]; exact p2, by rw [e2]; exact p3⟩)
    refine ⟨ps', nd', b', f1, ?_, ?_, ?_⟩
    · intro j hj
      rcases List.mem_cons.1 hj with rfl | hj
      · rw [f3 j hni]; simp only [if_true]
      · have hji : j ≠ i := fun e => hni (e ▸ hj)
        rw [f2 j hj]
        simp only [if_neg hji]
        unfold content
        rw [e2, e3]
    · intro j hj
      rw [f3 j (fun h => hj (List.mem_cons_of_mem _ h))]
      have hji : j ≠ i := fun e => hj (e ▸ List.mem_cons_self)
      rw [if_neg hji]
    · intro hf
      obtain ⟨g1, g2⟩ := f4 hf
      obtain ⟨g3, g4⟩ := Bool.or_eq_false_iff.1 g1
      refine ⟨g3, fun j => ?_⟩
      obtain ⟨k1, k2⟩ := g2 j
      rw [k1, k2]
      by_cases hji : j = i
      · simp only [if_pos hji]
        rw [hji]
        exact e5 g4
      · simp only [if_neg hji]
        exact ⟨trivial, trivial⟩

end HexoDSP.MonitorLemmas
