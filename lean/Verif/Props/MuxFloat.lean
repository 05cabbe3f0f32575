import Verif.Model.MuxFloat
import Verif.Props.ScopeClock
/-!
# The multiplexer divides its range with `f32` numbers (C149)
-/

set_option linter.unusedSectionVars false

namespace HexoDSP.MuxFloatProps
open HexoDSP HexoDSP.SinSpec HexoDSP.FloatLemmas HexoDSP.FormFMFloatProps HexoDSP.MuxFloat

variable {rn : ℚ → ℚ}

/-- The number that is rounded down to the index. -/
theorem place (hr : Nearest rn) {n : ℕ} (h1 : 1 ≤ n) (h9 : n ≤ 9) {x : ℚ} (x0 : 0 ≤ x) (x1 : x ≤ 1) :
    |rn (n * rn (x - rn (1 / 100000))) - n * (x - 1 / 100000)| ≤ n * (1 / 1000000) := by
  have n1 : (1 : ℚ) ≤ n := by exact_mod_cast h1
  have n9 : (n : ℚ) ≤ 9 := by exact_mod_cast h9
  obtain ⟨a1, a2⟩ := ScopeClockProps.rel hr (x := 1 / 100000) (by norm_num) (by norm_num)
  generalize rn (1 / 100000) = a at *
  have b := rn_err hr (x := x - a) (j := 0) (by norm_num) (by norm_num) (by norm_num at a1 a2 ⊢; rw [abs_le]; constructor <;> linarith)
  have e1 : (2 : ℚ) ^ ((0 : ℤ) - 25) = 1 / 2 ^ 25 := by norm_num
  rw [e1] at b
  generalize rn (x - a) = y at *
  obtain ⟨b1, b2⟩ := abs_le.1 b
  norm_num at a1 a2 b1 b2
  have y0 : -(1 / 10) ≤ y := by linarith
  have y1 : y ≤ 1 := by linarith
  have m : |(n : ℚ) * y| ≤ (2 : ℚ) ^ (4 : ℤ) := by
    rw [abs_mul, abs_of_pos (by linarith : (0 : ℚ) < n)]
    have : |y| ≤ 1 := abs_le.2 ⟨by linarith, y1⟩
    have := mul_le_mul n9 this (abs_nonneg _) (by norm_num)
    norm_num at this ⊢
    linarith
  have c := rn_err hr (by norm_num) (by norm_num) m
  have e2 : (2 : ℚ) ^ ((4 : ℤ) - 25) = 1 / 2 ^ 21 := by norm_num
  rw [e2] at c
  obtain ⟨c1, c2⟩ := abs_le.1 c
  norm_num at c1 c2
  have d1 : (n : ℚ) * (x - 1 / 100000 - 1 / 2500000) ≤ n * y := mul_le_mul_of_nonneg_left (by linarith) (by linarith)
  have d2 : (n : ℚ) * y ≤ n * (x - 1 / 100000 + 1 / 2500000) := mul_le_mul_of_nonneg_left (by linarith) (by linarith)
  generalize rn (n * y) = z at *
  rw [abs_le]
  constructor <;> linarith

/-- The index, without saturation and remainder. -/
theorem index (hr : Nearest rn) {n : ℕ} (h1 : 1 ≤ n) (h9 : n ≤ 9) {x : ℚ} (x0 : 0 ≤ x) (x1 : x ≤ 1) :
    selectIdx rn n x = ⌊rn (n * rn (x - rn (1 / 100000)))⌋.toNat ∧ selectIdx rn n x < n := by
  have n1 : (1 : ℚ) ≤ n := by exact_mod_cast h1
  obtain ⟨p1, p2⟩ := abs_le.1 (place hr h1 h9 x0 x1)
  unfold selectIdx Mux.satU8
  generalize rn (n * rn (x - rn (1 / 100000))) = z at *
  have nx : (n : ℚ) * x ≤ n * 1 := mul_le_mul_of_nonneg_left x1 (by linarith)
  have zn : z < n := by linarith
  have : ⌊z⌋ < n := by rw [Int.floor_lt]; exact_mod_cast zn
  have k : ⌊z⌋.toNat < n := by omega
  rw [min_eq_left (by omega), Nat.mod_eq_of_lt k]
  exact ⟨rfl, k⟩

/-- **C149** A `slct` signal from 0 to 1 selects, with `f32` arithmetic, one of the `n` inputs in use, and the one in whose part of the range it lies: the range is divided evenly, up to 0.00002. -/
theorem divides_range (hr : Nearest rn) {n : ℕ} (h1 : 1 ≤ n) (h9 : n ≤ 9) {x : ℚ} (x0 : 0 ≤ x) (x1 : x ≤ 1) :
    selectIdx rn n x < n ∧ (selectIdx rn n x : ℚ) / n ≤ x ∧ x ≤ ((selectIdx rn n x : ℚ) + 1) / n + 1 / 50000 := by
  have n1 : (1 : ℚ) ≤ n := by exact_mod_cast h1
  have n0 : (0 : ℚ) < n := by linarith
  obtain ⟨e, k⟩ := index hr h1 h9 x0 x1
  refine ⟨k, ?_⟩
  obtain ⟨p1, p2⟩ := abs_le.1 (place hr h1 h9 x0 x1)
  rw [e]
  generalize rn (n * rn (x - rn (1 / 100000))) = z at *
  have nx : 0 ≤ (n : ℚ) * x := by positivity
  have f2 := Int.lt_floor_add_one z
  rcases le_or_gt 0 ⌊z⌋ with h | h
  · have c : ((⌊z⌋.toNat : ℕ) : ℚ) = (⌊z⌋ : ℚ) := by exact_mod_cast Int.toNat_of_nonneg h
    have f1 := Int.floor_le z
    rw [c, div_le_iff₀ n0, ← sub_le_iff_le_add, le_div_iff₀ n0]
    constructor <;> linarith
  · rw [Int.toNat_eq_zero.2 h.le]
    have : z < 0 := by have := Int.floor_lt.1 h; simpa using this
    rw [← sub_le_iff_le_add, le_div_iff₀ n0]
    simp
    refine ⟨x0, by linarith⟩

/-- **C149** A rising signal never goes back to an input with a lower number. -/
theorem rises (hr : Nearest rn) {n : ℕ} (h1 : 1 ≤ n) (h9 : n ≤ 9) {x y : ℚ} (x0 : 0 ≤ x) (hxy : x ≤ y) (y1 : y ≤ 1) : selectIdx rn n x ≤ selectIdx rn n y := by
  rw [(index hr h1 h9 x0 (hxy.trans y1)).1, (index hr h1 h9 (x0.trans hxy) y1).1]
  have := rn_mono hr (show x - rn (1 / 100000) ≤ y - rn (1 / 100000) by linarith)
  exact Int.toNat_le_toNat (Int.floor_le_floor (rn_mono hr (mul_le_mul_of_nonneg_left this (Nat.cast_nonneg _))))

/-- **C149** Every input can be selected: by the middle of its part, as `f32`; 0 selects the first and 1 the last. -/
theorem all_reached (hr : Nearest rn) {n : ℕ} (h1 : 1 ≤ n) (h9 : n ≤ 9) :
    (∀ k, k < n → selectIdx rn n (rn (((k : ℚ) + 1 / 2) / n)) = k) ∧ selectIdx rn n 0 = 0 ∧ selectIdx rn n 1 = n - 1 := by
  have n1 : (1 : ℚ) ≤ n := by exact_mod_cast h1
  have n9 : (n : ℚ) ≤ 9 := by exact_mod_cast h9
  have n0 : (0 : ℚ) < n := by linarith
  refine ⟨fun k hk => ?_, ?_, ?_⟩
  · have k0 : (0 : ℚ) ≤ k := Nat.cast_nonneg _
    have k1 : (k : ℚ) + 1 ≤ n := by exact_mod_cast hk
    have a0 : 0 ≤ ((k : ℚ) + 1 / 2) / n := by positivity
    have a1 : ((k : ℚ) + 1 / 2) / n ≤ 1 := by rw [div_le_one n0]; linarith
    have b := rn_err hr (x := ((k : ℚ) + 1 / 2) / n) (j := 0) (by norm_num) (by norm_num) (by rw [abs_of_nonneg a0]; simpa using a1)
    have e1 : (2 : ℚ) ^ ((0 : ℤ) - 25) = 1 / 2 ^ 25 := by norm_num
    rw [e1] at b
    obtain ⟨b1, b2⟩ := abs_le.1 b
    obtain ⟨d0, d1, d2⟩ := divides_range hr h1 h9 (rn_ge hr f32_zero a0) (rn_le hr one32 a1)
    generalize rn (((k : ℚ) + 1 / 2) / n) = x at *
    generalize selectIdx rn n x = m at *
    have c : ((k : ℚ) + 1 / 2) / n * n = k + 1 / 2 := by field_simp
    rw [div_le_iff₀ n0] at d1
    rw [← sub_le_iff_le_add, le_div_iff₀ n0] at d2
    have u1 := mul_le_mul_of_nonneg_right (sub_le_iff_le_add.1 b2) n0.le
    have u2 := mul_le_mul_of_nonneg_right (neg_le_sub_iff_le_add.1 b1) n0.le
    rw [add_mul, c] at u1 u2
    norm_num at u1 u2
    have l1 : (m : ℚ) < k + 1 := by linarith
    have l2 : (k : ℚ) < m + 1 := by linarith
    have : m < k + 1 := by exact_mod_cast l1
    have : k < m + 1 := by exact_mod_cast l2
    omega
  · obtain ⟨_, d, _⟩ := divides_range hr h1 h9 (le_refl 0) (by norm_num : (0 : ℚ) ≤ 1)
    rw [div_le_iff₀ n0, zero_mul] at d
    exact_mod_cast le_antisymm d (Nat.cast_nonneg _)
  · obtain ⟨a, _, d⟩ := divides_range hr h1 h9 (by norm_num : (0 : ℚ) ≤ 1) (le_refl 1)
    rw [← sub_le_iff_le_add, le_div_iff₀ n0] at d
    generalize selectIdx rn n 1 = m at *
    have : (n : ℚ) < m + 2 := by linarith
    have : n < m + 2 := by exact_mod_cast this
    omega

/-- **C149** With exact numbers this is the selection of C47. -/
theorem same_selection (n : ℕ) (x : ℚ) : selectIdx id n x = Mux.selectIdx n x := rfl

-- three inputs, a third of the range as f32
example : ∃ rn, Nearest rn ∧ selectIdx rn 3 (rn (1 / 3)) < 3 ∧ 0 ≤ rn (1 / 3) ∧ rn (1 / 3) ≤ 1 := by
  obtain ⟨rn, hr⟩ := nearest_exists
  have a : 0 ≤ rn (1 / 3) := rn_ge hr f32_zero (by norm_num)
  have b : rn (1 / 3) ≤ 1 := rn_le hr one32 (by norm_num)
  exact ⟨rn, hr, (divides_range hr (by norm_num) (by norm_num) a b).1, a, b⟩

end HexoDSP.MuxFloatProps
