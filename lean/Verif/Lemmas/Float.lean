import Verif.Spec.Float
import Mathlib.Order.Interval.Set.Infinite
import Mathlib.Data.Int.Interval
import Mathlib.Data.Set.Finite.Lattice
import Mathlib.Order.Preorder.Finite
import Mathlib.Data.Finite.Prod
import Mathlib.Tactic.Linarith
import Mathlib.Tactic.Ring
import Mathlib.Tactic.FieldSimp
import Mathlib.Tactic.Positivity
import Mathlib.Tactic.NormNum
import Mathlib.Algebra.Order.Round
import Mathlib.Algebra.Order.Archimedean.Basic

namespace HexoDSP.FloatLemmas
open HexoDSP.SinSpec HexoDSP.FloatSpec

variable {rn : ℚ → ℚ}

theorem f32_zero : F32 0 := ⟨0, 0, by norm_num, by norm_num, by norm_num, by simp⟩

theorem f32_neg {x : ℚ} (h : F32 x) : F32 (-x) := by
  obtain ⟨m, e, h1, h2, h3, rfl⟩ := h
  exact ⟨-m, e, by rwa [abs_neg], h2, h3, by push_cast; ring⟩

/-- A multiple of a power of two, also if the factor is `2^24`. -/
theorem f32_scaled {m e : ℤ} (hm : |m| ≤ 2 ^ 24) (h1 : -149 ≤ e) (h2 : e ≤ 103) : F32 (m * (2 : ℚ) ^ e) := by
  rcases lt_or_eq_of_le hm with h | h
  · exact ⟨m, e, h, h1, by omega, rfl⟩
  · have e2 : (2 : ℚ) ^ (e + 1) = 2 * (2 : ℚ) ^ e := by rw [zpow_add₀ (by norm_num)]; ring
    rcases abs_eq (by norm_num : (0 : ℤ) ≤ 2 ^ 24) |>.1 h with rfl | rfl
    · exact ⟨2 ^ 23, e + 1, by norm_num, by omega, by omega, by rw [e2]; push_cast; ring⟩
    · exact ⟨-2 ^ 23, e + 1, by norm_num, by omega, by omega, by rw [e2]; push_cast; ring⟩

theorem rn_ge (hr : Nearest rn) {a x : ℚ} (ha : F32 a) (h : a ≤ x) : a ≤ rn x := by
  by_contra hc
  have hc := not_le.1 hc
  have n := (hr x).2 a ha
  rw [abs_of_nonpos (by linarith : a - x ≤ 0), abs_of_neg (by linarith : rn x - x < 0)] at n
  linarith

theorem rn_le (hr : Nearest rn) {a x : ℚ} (ha : F32 a) (h : x ≤ a) : rn x ≤ a := by
  by_contra hc
  have hc := not_le.1 hc
  have n := (hr x).2 a ha
  rw [abs_of_nonneg (by linarith : 0 ≤ a - x), abs_of_pos (by linarith : 0 < rn x - x)] at n
  linarith

theorem rn_fix (hr : Nearest rn) {x : ℚ} (h : F32 x) : rn x = x :=
  le_antisymm (rn_le hr h le_rfl) (rn_ge hr h le_rfl)

/-- The error of a rounding, by the size of the number. -/
theorem rn_err (hr : Nearest rn) {x : ℚ} {j : ℤ} (h1 : -125 ≤ j) (h2 : j ≤ 127) (hx : |x| ≤ (2 : ℚ) ^ j) : |rn x - x| ≤ (2 : ℚ) ^ (j - 25) := by
  have hp : (0 : ℚ) < (2 : ℚ) ^ (j - 24) := zpow_pos (by norm_num) _
  have e1 : (2 : ℚ) ^ j = 2 ^ 24 * (2 : ℚ) ^ (j - 24) := by
    rw [show j = 24 + (j - 24) by ring, zpow_add₀ (by norm_num), show 24 + (j - 24) - 24 = j - 24 by ring]; norm_num
  have e2 : (2 : ℚ) ^ (j - 24) = 2 * (2 : ℚ) ^ (j - 25) := by
    rw [show j - 24 = 1 + (j - 25) by ring, zpow_add₀ (by norm_num)]; norm_num
  set q := x / (2 : ℚ) ^ (j - 24) with hq
  have hxq : x = q * (2 : ℚ) ^ (j - 24) := by rw [hq]; field_simp
  have hqb : |q| ≤ 2 ^ 24 := by
    rw [hxq, abs_mul, abs_of_pos hp, e1] at hx
    exact le_of_mul_le_mul_right hx hp
  have hround := abs_sub_round q
  have hm : |round q| ≤ 2 ^ 24 := by
    obtain ⟨a, b⟩ := abs_le.1 hqb
    obtain ⟨c, d⟩ := abs_le.1 hround
    refine abs_le.2 ⟨?_, ?_⟩
    · by_contra hc
      have : round q ≤ -2 ^ 24 - 1 := by omega
      have : (round q : ℚ) ≤ -2 ^ 24 - 1 := by exact_mod_cast this
      linarith
    · by_contra hc
      have : (2 : ℤ) ^ 24 + 1 ≤ round q := by omega
      have : (2 : ℚ) ^ 24 + 1 ≤ round q := by exact_mod_cast this
      linarith
  have hF : F32 ((round q : ℤ) * (2 : ℚ) ^ (j - 24)) := f32_scaled hm (by omega) (by omega)
  have := (hr x).2 _ hF
  refine this.trans ?_
  rw [hxq, ← sub_mul, abs_mul, abs_of_pos hp, abs_sub_comm, e2]
  have hp2 : (0 : ℚ) < (2 : ℚ) ^ (j - 25) := zpow_pos (by norm_num) _
  nlinarith

/-- Where the rounding goes, if it is not a tie. -/
theorem rn_unique (hr : Nearest rn) {x : ℚ} {m e : ℤ} (h1 : 2 ^ 23 < |m|) (h2 : |m| < 2 ^ 24) (h3 : -149 ≤ e) (h4 : e ≤ 104)
    (hx : 2 * |x - m * (2 : ℚ) ^ e| < (2 : ℚ) ^ e) : rn x = m * (2 : ℚ) ^ e := by
  have hp : (0 : ℚ) < (2 : ℚ) ^ e := zpow_pos (by norm_num) _
  have hy : F32 (m * (2 : ℚ) ^ e) := ⟨m, e, h2, h3, h4, rfl⟩
  have hn := (hr x).2 _ hy
  rw [abs_sub_comm (m * (2 : ℚ) ^ e) x] at hn
  have hzy : |rn x - m * (2 : ℚ) ^ e| < (2 : ℚ) ^ e := by
    have := abs_add_le (rn x - x) (x - m * (2 : ℚ) ^ e)
    rw [sub_add_sub_cancel] at this
    linarith
  obtain ⟨m', e', g1, g2, g3, hz⟩ := (hr x).1
  rw [hz] at hzy ⊢
  by_cases he : e ≤ e'
  · obtain ⟨d, rfl⟩ : ∃ d : ℕ, e' = e + d := ⟨(e' - e).toNat, by omega⟩
    have e1 : (m' : ℚ) * (2 : ℚ) ^ (e + (d : ℤ)) = ((m' * 2 ^ d : ℤ) : ℚ) * (2 : ℚ) ^ e := by
      rw [zpow_add₀ (by norm_num), zpow_natCast]; push_cast; ring
    rw [e1] at hzy ⊢
    rw [← sub_mul, abs_mul, abs_of_pos hp] at hzy
    have h5 : |((m' * 2 ^ d : ℤ) : ℚ) - m| < 1 := by
      by_contra hc
      have := mul_le_mul_of_nonneg_right (not_lt.1 hc) hp.le
      linarith
    have h6 : |m' * 2 ^ d - m| < 1 := by exact_mod_cast h5
    have h7 : m' * 2 ^ d = m := by
      have := Int.abs_lt_one_iff.1 h6
      omega
    rw [h7]
  · exfalso
    have hp' : (0 : ℚ) < (2 : ℚ) ^ e' := zpow_pos (by norm_num) _
    have hle : 2 * (2 : ℚ) ^ e' ≤ (2 : ℚ) ^ e := by
      have := zpow_le_zpow_right₀ (by norm_num : (1 : ℚ) ≤ 2) (show e' + 1 ≤ e by omega)
      rw [zpow_add₀ (by norm_num)] at this
      linarith
    have hm' : |(m' : ℚ)| ≤ 2 ^ 24 - 1 := by
      rw [← Int.cast_abs]
      exact_mod_cast (by omega : |m'| ≤ 2 ^ 24 - 1)
    have hm : (2 : ℚ) ^ 23 + 1 ≤ |(m : ℚ)| := by
      rw [← Int.cast_abs]
      exact_mod_cast (by omega : 2 ^ 23 + 1 ≤ |m|)
    have h5 : |(m' : ℚ) * (2 : ℚ) ^ e'| ≤ (2 ^ 24 - 1) * (2 : ℚ) ^ e' := by
      rw [abs_mul, abs_of_pos hp']
      exact mul_le_mul_of_nonneg_right hm' hp'.le
    have h6 : (2 ^ 23 + 1) * (2 : ℚ) ^ e ≤ |(m : ℚ) * (2 : ℚ) ^ e| := by
      rw [abs_mul, abs_of_pos hp]
      exact mul_le_mul_of_nonneg_right hm hp.le
    have h7 := abs_sub_abs_le_abs_sub ((m : ℚ) * (2 : ℚ) ^ e) (m' * (2 : ℚ) ^ e')
    rw [abs_sub_comm] at h7
    linarith

/-- There is a rounding to the nearest. -/
theorem nearest_exists : ∃ rn, Nearest rn := by
  have hfin : {x : ℚ | F32 x}.Finite := by
    apply (((Set.finite_Ioo (-2 ^ 24 : ℤ) (2 ^ 24)).prod (Set.finite_Icc (-149 : ℤ) 104)).image (fun p : ℤ × ℤ => (p.1 : ℚ) * (2 : ℚ) ^ p.2)).subset
    rintro x ⟨m, e, h1, h2, h3, rfl⟩
    obtain ⟨a, b⟩ := abs_lt.1 h1
    exact ⟨(m, e), ⟨⟨a, b⟩, ⟨h2, h3⟩⟩, rfl⟩
  have hmin : ∀ x : ℚ, ∃ y, F32 y ∧ ∀ z, F32 z → |y - x| ≤ |z - x| := by
    intro x
    obtain ⟨y, hy, h⟩ := hfin.exists_minimalFor (fun y => |y - x|) _ ⟨0, f32_zero⟩
    refine ⟨y, hy, fun z hz => ?_⟩
    rcases le_total |y - x| |z - x| with hc | hc
    · exact hc
    · exact h hz hc
  choose rn hrn using hmin
  exact ⟨rn, hrn⟩

end HexoDSP.FloatLemmas
