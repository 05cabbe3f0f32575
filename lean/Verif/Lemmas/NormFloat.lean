import Verif.Lemmas.Float
import Verif.Model.NormFloat
import Verif.Spec.NormFloat
import Mathlib.Algebra.Order.Ring.Int
import Mathlib.Data.Nat.Log
import Mathlib.Algebra.Ring.Int.Parity

namespace HexoDSP.NormFloatLemmas
open HexoDSP.SinSpec HexoDSP.FloatLemmas HexoDSP.NormFloatSpec HexoDSP.Table

variable {rn : ℚ → ℚ}

/-- A number lies in one of the intervals between two powers of two. -/
theorem binade {x : ℚ} (hx : x ≠ 0) : ∃ j : ℤ, (2 : ℚ) ^ (j - 1) ≤ |x| ∧ |x| < (2 : ℚ) ^ j := by
  obtain ⟨n, h1, h2⟩ := exists_mem_Ico_zpow (abs_pos.2 hx) (by norm_num : (1 : ℚ) < 2)
  exact ⟨n + 1, by simpa using h1, h2⟩

/-- The relative error of a rounding. -/
theorem rn_rel (hr : Nearest rn) {x : ℚ} (h1 : (2 : ℚ) ^ (-126 : ℤ) ≤ |x|) (h2 : |x| < (2 : ℚ) ^ (127 : ℤ)) : |rn x - x| ≤ |x| / 2 ^ 24 := by
  have hx : x ≠ 0 := by
    rintro rfl
    have : (0 : ℚ) < (2 : ℚ) ^ (-126 : ℤ) := zpow_pos (by norm_num) _
    rw [abs_zero] at h1
    linarith
  obtain ⟨j, g1, g2⟩ := binade hx
  have b1 : -126 < j := (zpow_lt_zpow_iff_right₀ (by norm_num : (1 : ℚ) < 2)).1 (h1.trans_lt g2)
  have b2 : j - 1 < 127 := (zpow_lt_zpow_iff_right₀ (by norm_num : (1 : ℚ) < 2)).1 (g1.trans_lt h2)
  have := rn_err hr (x := x) (j := j) (by omega)  (by omega) g2.le
  refine this.trans ?_
  have e : (2 : ℚ) ^ (j - 1) = (2 : ℚ) ^ (j - 25) * 2 ^ 24 := by
    rw [show j - 1 = (j - 25) + 24 by ring, zpow_add₀ (by norm_num)]; norm_num
  rw [le_div_iff₀ (by norm_num), ← e]
  exact g1

/-- A number that is not very small, with all 24 digits. -/
theorem normal {x : ℚ} (h : F32 x) (h1 : (2 : ℚ) ^ (-126 : ℤ) ≤ |x|) :
    ∃ m e : ℤ, 2 ^ 23 ≤ |m| ∧ |m| < 2 ^ 24 ∧ -149 ≤ e ∧ e ≤ 104 ∧ x = m * (2 : ℚ) ^ e := by
  obtain ⟨m, e, a1, a2, a3, rfl⟩ := h
  have hm : m ≠ 0 := by
    rintro rfl
    have : (0 : ℚ) < (2 : ℚ) ^ (-126 : ℤ) := zpow_pos (by norm_num) _
    simp at h1
    linarith
  have hn : m.natAbs ≠ 0 := by omega
  set l := Nat.log 2 m.natAbs with hl
  have l1 : 2 ^ l ≤ m.natAbs := Nat.pow_log_le_self 2 hn
  have l2 : m.natAbs < 2 ^ (l + 1) := Nat.lt_pow_succ_log_self (by norm_num) _
  have l3 : l < 24 := by
    by_contra hc
    have : 2 ^ 24 ≤ 2 ^ l := Nat.pow_le_pow_right (by norm_num) (by omega : 24 ≤ l)
    have := abs_lt.1 a1
    omega
  have ek : ∃ k : ℕ, k + l = 23 := ⟨23 - l, by omega⟩
  obtain ⟨k, hk⟩ := ek
  have p1 : 2 ^ k * 2 ^ l = 2 ^ 23 := by rw [← pow_add, hk]
  have q1 : (2 : ℤ) ^ l ≤ |m| := by rw [Int.abs_eq_natAbs]; exact_mod_cast l1
  have q2 : |m| < (2 : ℤ) ^ (l + 1) := by rw [Int.abs_eq_natAbs]; exact_mod_cast l2
  have kp : (0 : ℤ) < 2 ^ k := by positivity
  have am : |m * 2 ^ k| = |m| * 2 ^ k := by rw [abs_mul, abs_of_pos kp]
  have p2 : (2 : ℤ) ^ l * 2 ^ k = 2 ^ 23 := by rw [mul_comm]; exact_mod_cast p1
  refine ⟨m * 2 ^ k, e - k, ?_, ?_, ?_, by omega, ?_⟩
  · rw [am, ← p2]; exact mul_le_mul_of_nonneg_right q1 kp.le
  · rw [am, show (2 : ℤ) ^ 24 = 2 ^ (l + 1) * 2 ^ k by
      rw [pow_succ (2 : ℤ) l, mul_right_comm, p2]; norm_num]
    exact mul_lt_mul_of_pos_right q2 kp
  · have hp : (0 : ℚ) < (2 : ℚ) ^ e := zpow_pos (by norm_num) _
    have : |(m : ℚ) * (2 : ℚ) ^ e| < (2 : ℚ) ^ ((l : ℤ) + 1 + e) := by
      rw [abs_mul, abs_of_pos hp, zpow_add₀ (by norm_num)]
      refine mul_lt_mul_of_pos_right ?_ hp
      rw [← Int.cast_abs, show ((l : ℤ) + 1) = ((l + 1 : ℕ) : ℤ) by push_cast; ring, zpow_natCast]
      exact_mod_cast q2
    have := (zpow_lt_zpow_iff_right₀ (by norm_num : (1 : ℚ) < 2)).1 (h1.trans_lt this)
    omega
  · push_cast
    rw [zpow_sub₀ (by norm_num), zpow_natCast]
    field_simp

/-- An odd number with more than 24 digits is none of them. -/
theorem odd_not_f32 {o a : ℤ} (ho : Odd o) (hb : 2 ^ 24 ≤ |o|) : ¬ F32 (o * (2 : ℚ) ^ a) := by
  rintro ⟨m, e, a1, a2, a3, h⟩
  by_cases he : e ≤ a
  · obtain ⟨d, rfl⟩ : ∃ d : ℕ, a = e + d := ⟨(a - e).toNat, by omega⟩
    rw [zpow_add₀ (by norm_num), zpow_natCast] at h
    have hp : (2 : ℚ) ^ e ≠ 0 := (zpow_pos (by norm_num) _).ne'
    have h' : (o : ℚ) * 2 ^ d = m := by
      apply mul_right_cancel₀ hp; rw [← h]; ring
    have h'' : o * 2 ^ d = m := by exact_mod_cast h'
    rw [← h'', abs_mul, abs_of_pos (by positivity : (0 : ℤ) < 2 ^ d)] at a1
    have : (1 : ℤ) ≤ 2 ^ d := by exact_mod_cast Nat.one_le_two_pow
    nlinarith [abs_nonneg o]
  · obtain ⟨d, rfl⟩ : ∃ d : ℕ, e = a + (d + 1) := ⟨(e - a - 1).toNat, by omega⟩
    rw [zpow_add₀ (by norm_num), show (d : ℤ) + 1 = ((d + 1 : ℕ) : ℤ) by push_cast; ring, zpow_natCast] at h
    have hp : (2 : ℚ) ^ a ≠ 0 := (zpow_pos (by norm_num) _).ne'
    have h' : (o : ℚ) = m * 2 ^ (d + 1) := by
      apply mul_right_cancel₀ hp; rw [h]; ring
    have h'' : o = m * 2 ^ (d + 1) := by exact_mod_cast h'
    rw [h'', pow_succ] at ho
    have : Even (m * (2 ^ d * 2)) := ⟨m * 2 ^ d, by ring⟩
    exact (Int.not_even_iff_odd.2 ho) this

/-- What is stored when a number has been multiplied and divided does not change when that is done again. -/
theorem scale_settles (hr : Nearest rn) {c1 k : ℕ} (hc : Odd c1) (hc1 : c1 < 2 ^ 24) (hk : k ≤ 10) {x' y : ℚ} (hy : F32 y)
    (hx' : x' = rn (y / (c1 * 2 ^ k))) (h1 : (2 : ℚ) ^ (-126 : ℤ) ≤ |x'|) (h2 : |x'| < (2 : ℚ) ^ (90 : ℤ)) :
    rn (rn (x' * (c1 * 2 ^ k)) / (c1 * 2 ^ k)) = x' := by
  have hF : F32 x' := hx' ▸ (hr _).1
  have c0 : 0 < c1 := hc.pos
  have cq : (0 : ℚ) < c1 * 2 ^ k := by positivity
  obtain ⟨m, e, a1, a2, a3, a4, hx⟩ := normal hF h1
  have hp : (0 : ℚ) < (2 : ℚ) ^ e := zpow_pos (by norm_num) _
  have e67 : e < 67 := by
    have : (2 : ℚ) ^ (23 + e) ≤ |x'| := by
      rw [hx, abs_mul, abs_of_pos hp, zpow_add₀ (by norm_num)]
      refine mul_le_mul_of_nonneg_right ?_ hp.le
      rw [← Int.cast_abs]
      exact_mod_cast a1
    have := (zpow_lt_zpow_iff_right₀ (by norm_num : (1 : ℚ) < 2)).1 (this.trans_lt h2)
    omega
  rcases eq_or_lt_of_le a1 with a1 | a1
  · -- a power of two
    have hz : F32 (x' * (c1 * 2 ^ k)) := by
      have hs : |(c1 : ℤ) * (m / 2 ^ 23)| < 2 ^ 24 := by
        rcases abs_eq (by norm_num : (0 : ℤ) ≤ 2 ^ 23) |>.1 a1.symm with rfl | rfl <;> norm_num <;> exact_mod_cast hc1
      refine ⟨c1 * (m / 2 ^ 23), e + 23 + k, hs, by omega, by omega, ?_⟩
      have hm : (m : ℚ) = ((m / 2 ^ 23 : ℤ) : ℚ) * 2 ^ 23 := by
        rcases abs_eq (by norm_num : (0 : ℤ) ≤ 2 ^ 23) |>.1 a1.symm with rfl | rfl <;> norm_num
      rw [hx, hm, zpow_add₀ (by norm_num), zpow_add₀ (by norm_num), zpow_natCast]
      push_cast
      norm_num
      ring
    rw [rn_fix hr hz, mul_div_assoc, div_self cq.ne', mul_one]
    exact rn_fix hr hF
  · set z := rn (x' * (c1 * 2 ^ k)) with hz
    have hzF : F32 z := (hr _).1
    have n1 : |z - x' * (c1 * 2 ^ k)| ≤ |y - x' * (c1 * 2 ^ k)| := (hr _).2 y hy
    -- the distance of `y / c` from `x'`
    have up : F32 (x' + (2 : ℚ) ^ e) := by
      rw [hx, show (m : ℚ) * (2 : ℚ) ^ e + (2 : ℚ) ^ e = ((m + 1 : ℤ) : ℚ) * (2 : ℚ) ^ e by push_cast; ring]
      exact f32_scaled (by rw [abs_le]; have := abs_lt.1 a2; omega) a3 (by omega)
    have dn : F32 (x' - (2 : ℚ) ^ e) := by
      rw [hx, show (m : ℚ) * (2 : ℚ) ^ e - (2 : ℚ) ^ e = ((m - 1 : ℤ) : ℚ) * (2 : ℚ) ^ e by push_cast; ring]
      exact f32_scaled (by rw [abs_le]; have := abs_lt.1 a2; omega) a3 (by omega)
    have hn := (hr (y / (c1 * 2 ^ k))).2
    rw [← hx'] at hn
    have d1 : 2 * |y / (c1 * 2 ^ k) - x'| ≤ (2 : ℚ) ^ e := by
      by_contra hcon
      have hcon := not_le.1 hcon
      rw [abs_sub_comm] at hcon
      rcases le_total (y / (c1 * 2 ^ k)) x' with hle | hle
      · have := hn _ dn
        rw [abs_of_nonneg (by linarith : 0 ≤ x' - y / (c1 * 2 ^ k))] at this hcon
        rcases abs_cases (x' - (2 : ℚ) ^ e - y / (c1 * 2 ^ k)) with ⟨q, _⟩ | ⟨q, _⟩ <;> rw [q] at this <;> linarith
      · have := hn _ up
        rw [abs_of_nonpos (by linarith : x' - y / (c1 * 2 ^ k) ≤ 0)] at this hcon
        rcases abs_cases (x' + (2 : ℚ) ^ e - y / (c1 * 2 ^ k)) with ⟨q, _⟩ | ⟨q, _⟩ <;> rw [q] at this <;> linarith
    have sc : ∀ w : ℚ, |w / (c1 * 2 ^ k) - x'| * (c1 * 2 ^ k) = |w - x' * (c1 * 2 ^ k)| := by
      intro w
      rw [show w - x' * (c1 * 2 ^ k) = (w / (c1 * 2 ^ k) - x') * (c1 * 2 ^ k) by field_simp, abs_mul, abs_of_pos cq]
    have d2 : 2 * |z / (c1 * 2 ^ k) - x'| ≤ (2 : ℚ) ^ e := by
      have : |z / (c1 * 2 ^ k) - x'| ≤ |y / (c1 * 2 ^ k) - x'| := by
        refine le_of_mul_le_mul_right ?_ cq
        rw [sc, sc]
        exact n1
      linarith
    have d3 : 2 * |z / (c1 * 2 ^ k) - x'| ≠ (2 : ℚ) ^ e := by
      intro heq
      have key : ∀ s : ℤ, (s = 1 ∨ s = -1) → z / (c1 * 2 ^ k) - x' = s * (2 : ℚ) ^ (e - 1) → False := by
        intro s hs h
        have hzz : z = (((c1 : ℤ) * (2 * m + s) : ℤ) : ℚ) * (2 : ℚ) ^ (e - 1 + k) := by
          have hz1 : z = (x' + s * (2 : ℚ) ^ (e - 1)) * (c1 * 2 ^ k) := by
            rw [← h]; field_simp; ring
          rw [hz1, hx, zpow_add₀ (by norm_num), zpow_natCast, show (2 : ℚ) ^ e = 2 * (2 : ℚ) ^ (e - 1) by
            rw [show e = 1 + (e - 1) by ring, zpow_add₀ (by norm_num)]; norm_num]
          push_cast
          ring
        have ho : Odd (2 * m + s) := by
          rcases hs with rfl | rfl
          · exact ⟨m, rfl⟩
          · exact ⟨m - 1, by ring⟩
        have hb : (2 : ℤ) ^ 24 ≤ |2 * m + s| := by
          rw [le_abs]; rw [lt_abs] at a1
          rcases hs with rfl | rfl <;> omega
        have c1' : (1 : ℤ) ≤ c1 := by exact_mod_cast c0
        refine odd_not_f32 (o := (c1 : ℤ) * (2 * m + s)) (a := e - 1 + k) ?_ ?_ (hzz ▸ hzF)
        · exact Odd.mul (by exact_mod_cast hc) ho
        · rw [abs_mul, abs_of_pos (by omega : (0 : ℤ) < c1)]
          nlinarith [abs_nonneg (2 * m + s)]
      have e1 : (2 : ℚ) ^ e = 2 * (2 : ℚ) ^ (e - 1) := by
        rw [show e = 1 + (e - 1) by ring, zpow_add₀ (by norm_num)]; norm_num
      rcases abs_cases (z / (c1 * 2 ^ k) - x') with ⟨q, _⟩ | ⟨q, _⟩
      · exact key 1 (.inl rfl) (by push_cast; linarith)
      · exact key (-1) (.inr rfl) (by push_cast; linarith)
    have d4 := lt_of_le_of_ne d2 d3
    rw [hx] at d4 ⊢
    exact rn_unique hr a1 a2 a3 a4 d4

/-- The relative error of a square root. -/
theorem sq_rel {sq : ℚ → ℚ} (hq : RoundedSqrt sq) {x : ℚ} (h1 : (2 : ℚ) ^ (-200 : ℤ) ≤ x) (h2 : x < (2 : ℚ) ^ (200 : ℤ)) :
    |(sq x : ℝ) - √(x : ℝ)| ≤ √(x : ℝ) / 2 ^ 24 := by
  have x0 : (0 : ℚ) < x := lt_of_lt_of_le (zpow_pos (by norm_num) _) h1
  have h1' : ((2 : ℝ) ^ (-100 : ℤ)) ≤ √(x : ℝ) := by
    apply Real.le_sqrt_of_sq_le
    have h : (2 : ℝ) ^ (-200 : ℤ) ≤ (x : ℝ) := by
      have := (Rat.cast_le (K := ℝ)).2 h1
      rwa [Rat.cast_zpow, Rat.cast_ofNat] at this
    rw [← zpow_natCast, ← zpow_mul]
    exact h
  have h2' : √(x : ℝ) < (2 : ℝ) ^ (100 : ℤ) := by
    have h : (x : ℝ) < (2 : ℝ) ^ (200 : ℤ) := by
      have := (Rat.cast_lt (K := ℝ)).2 h2
      rwa [Rat.cast_zpow, Rat.cast_ofNat] at this
    rw [Real.sqrt_lt' (by positivity), ← zpow_natCast, ← zpow_mul]
    exact h
  set r := √(x : ℝ) with hr
  have r0 : 0 < r := lt_of_lt_of_le (zpow_pos (by norm_num) _) h1'
  obtain ⟨n, g1, g2⟩ := exists_mem_Ico_zpow r0 (by norm_num : (1 : ℝ) < 2)
  have b1 : -100 < n + 1 := (zpow_lt_zpow_iff_right₀ (by norm_num : (1 : ℝ) < 2)).1 (h1'.trans_lt g2)
  have b2 : n < 100 := (zpow_lt_zpow_iff_right₀ (by norm_num : (1 : ℝ) < 2)).1 (g1.trans_lt h2')
  have hp : (0 : ℝ) < (2 : ℝ) ^ (n - 23) := zpow_pos (by norm_num) _
  set q := r / (2 : ℝ) ^ (n - 23) with hqd
  have hrq : r = q * (2 : ℝ) ^ (n - 23) := by rw [hqd]; field_simp
  have e1 : (2 : ℝ) ^ (n + 1) = 2 ^ 24 * (2 : ℝ) ^ (n - 23) := by
    rw [show n + 1 = 24 + (n - 23) by ring, zpow_add₀ (by norm_num)]; norm_num
  have e2 : (2 : ℝ) ^ n = 2 ^ 23 * (2 : ℝ) ^ (n - 23) := by
    conv_lhs => rw [show n = 23 + (n - 23) by ring, zpow_add₀ (by norm_num)]
    norm_num
  have q1 : (2 : ℝ) ^ 23 ≤ q := by
    rw [hrq, e2] at g1
    exact le_of_mul_le_mul_right g1 hp
  have q2 : q < (2 : ℝ) ^ 24 := by
    rw [hrq, e1] at g2
    exact lt_of_mul_lt_mul_right g2 hp.le
  have hround := abs_sub_round q
  obtain ⟨c, d⟩ := abs_le.1 hround
  have hm : |round q| ≤ 2 ^ 24 := by
    refine abs_le.2 ⟨?_, ?_⟩
    · by_contra hc
      have : round q ≤ -2 ^ 24 - 1 := by omega
      have : (round q : ℝ) ≤ -2 ^ 24 - 1 := by exact_mod_cast this
      linarith
    · by_contra hc
      have : (2 : ℤ) ^ 24 + 1 ≤ round q := by omega
      have : (2 : ℝ) ^ 24 + 1 ≤ round q := by exact_mod_cast this
      linarith
  have hF : F32 ((round q : ℤ) * (2 : ℚ) ^ (n - 23)) := f32_scaled hm (by omega) (by omega)
  refine ((hq x x0.le).2 _ hF).trans ?_
  push_cast
  rw [← hr, hrq, ← sub_mul, abs_mul, abs_of_pos hp, abs_sub_comm]
  rw [le_div_iff₀ (by norm_num)]
  have : |q - round q| * 2 ^ 24 ≤ q := by linarith
  nlinarith

theorem zero_rn (hr : Nearest rn) : rn 0 = 0 := rn_fix hr f32_zero

theorem pow60 : (0 : ℚ) < (2 : ℚ) ^ (-60 : ℤ) := zpow_pos (by norm_num) _

/-- What multiplying and dividing leaves is close. -/
theorem scale_near (hr : Nearest rn) {c x : ℚ} (c1 : 1 ≤ c) (c2 : c ≤ 2 ^ 13) (hx : Ordinary x) :
    |rn (rn (x * c) / c) - x| ≤ |x| / 2 ^ 22 := by
  rcases hx with rfl | ⟨h1, h2⟩
  · simp [zero_rn hr]
  have c0 : 0 < c := by linarith
  have x0 : 0 < |x| := lt_of_lt_of_le pow60 h1
  have b1 : (2 : ℚ) ^ (-126 : ℤ) ≤ (2 : ℚ) ^ (-60 : ℤ) / 2 := by norm_num
  have b2 : (2 : ℚ) ^ (50 : ℤ) * 2 ^ 13 < (2 : ℚ) ^ (127 : ℤ) := by norm_num
  have rr := fun x => rn_rel (x := x) hr
  generalize (2 : ℚ) ^ (-126 : ℤ) = A at *
  generalize (2 : ℚ) ^ (-60 : ℤ) = B at *
  generalize (2 : ℚ) ^ (127 : ℤ) = C at *
  generalize (2 : ℚ) ^ (50 : ℤ) = D at *
  have axc : |x * c| = |x| * c := by rw [abs_mul, abs_of_pos c0]
  have r1 := rr (x * c) (by rw [axc]; nlinarith) (by rw [axc]; nlinarith)
  set y := rn (x * c)
  have yc : |y / c - x| ≤ |x| / 2 ^ 24 := by
    rw [show y / c - x = (y - x * c) / c by field_simp, abs_div, abs_of_pos c0, div_le_iff₀ c0]
    refine r1.trans (le_of_eq ?_)
    rw [axc]; ring
  have y1 := abs_sub_abs_le_abs_sub (y / c) x
  have y2 := abs_sub_abs_le_abs_sub x (y / c)
  rw [abs_sub_comm] at y2
  have r2 := rr (y / c) (by linarith) (by linarith)
  have := abs_add_le (rn (y / c) - y / c) (y / c - x)
  rw [sub_add_sub_cancel] at this
  linarith

theorem ordinary_near {x x' : ℚ} (h : |x' - x| ≤ |x| / 2 ^ 22) (hx : Ordinary x) :
    x' = 0 ∨ ((2 : ℚ) ^ (-126 : ℤ) ≤ |x'| ∧ |x'| < (2 : ℚ) ^ (90 : ℤ)) := by
  rcases hx with rfl | ⟨h1, h2⟩
  · left; simpa using h
  · right
    have b1 : (2 : ℚ) ^ (-126 : ℤ) ≤ (2 : ℚ) ^ (-60 : ℤ) / 2 := by norm_num
    have b2 : (2 : ℚ) ^ (50 : ℤ) * 2 < (2 : ℚ) ^ (90 : ℤ) := by norm_num
    have x0 : 0 < |x| := lt_of_lt_of_le pow60 h1
    have y1 := abs_sub_abs_le_abs_sub x' x
    have y2 := abs_sub_abs_le_abs_sub x x'
    rw [abs_sub_comm] at y2
    generalize (2 : ℚ) ^ (-126 : ℤ) = A at *
    generalize (2 : ℚ) ^ (-60 : ℤ) = B at *
    generalize (2 : ℚ) ^ (90 : ℤ) = C at *
    generalize (2 : ℚ) ^ (50 : ℤ) = D at *
    constructor <;> linarith

/-- Multiplying and dividing twice is multiplying and dividing once. -/
theorem scale_twice (hr : Nearest rn) {c1 k : ℕ} (hc : Odd c1) (hk : k ≤ 10) (hb : ((c1 : ℚ) * 2 ^ k) ≤ 2 ^ 13) {x : ℚ} (hx : Ordinary x) :
    rn (rn (rn (rn (x * (c1 * 2 ^ k)) / (c1 * 2 ^ k)) * (c1 * 2 ^ k)) / (c1 * 2 ^ k)) = rn (rn (x * (c1 * 2 ^ k)) / (c1 * 2 ^ k)) := by
  have c0 : (1 : ℚ) ≤ c1 := by exact_mod_cast hc.pos
  have k0 : (1 : ℚ) ≤ 2 ^ k := by exact_mod_cast Nat.one_le_two_pow
  have h24 : c1 < 2 ^ 24 := by
    have : (c1 : ℚ) < 2 ^ 24 := by nlinarith
    exact_mod_cast this
  rcases ordinary_near (scale_near hr (c := c1 * 2 ^ k) (by nlinarith) hb hx) hx with h | ⟨h1, h2⟩
  · rw [h]; simp [zero_rn hr]
  · exact scale_settles hr hc h24 hk (hr _).1 rfl h1 h2

/-- What squaring, multiplying, dividing and the square root leave is close. -/
theorem exp_near (hr : Nearest rn) {sq : ℚ → ℚ} (hq : RoundedSqrt sq) {c x : ℚ} (c1 : 1 ≤ c) (c2 : c ≤ 2 ^ 13) (hx : Ordinary x) (hx0 : 0 ≤ x) :
    |sq |rn (rn (c * rn (x * x)) / c)| - x| ≤ |x| / 2 ^ 22 := by
  rcases hx with rfl | ⟨h1, h2⟩
  · have z := (hq 0 le_rfl).2 0 f32_zero
    simp at z
    simp [zero_rn hr, z]
  rw [abs_of_nonneg hx0] at h1 h2 ⊢
  have c0 : 0 < c := by linarith
  have x0 : 0 < x := lt_of_lt_of_le pow60 h1
  have p0 : 0 < x * x := mul_pos x0 x0
  have b1 : (2 : ℚ) ^ (-126 : ℤ) ≤ (2 : ℚ) ^ (-60 : ℤ) * (2 : ℚ) ^ (-60 : ℤ) / 8 := by norm_num
  have b2 : 2 ^ 14 * ((2 : ℚ) ^ (50 : ℤ) * (2 : ℚ) ^ (50 : ℤ)) < (2 : ℚ) ^ (127 : ℤ) := by norm_num
  have rr := fun x => rn_rel (x := x) hr
  have qq := fun w => sq_rel (x := w) hq
  have b3 : (2 : ℚ) ^ (-200 : ℤ) ≤ (2 : ℚ) ^ (-60 : ℤ) * (2 : ℚ) ^ (-60 : ℤ) / 8 := by norm_num
  have b4 : 8 * ((2 : ℚ) ^ (50 : ℤ) * (2 : ℚ) ^ (50 : ℤ)) < (2 : ℚ) ^ (200 : ℤ) := by norm_num
  generalize (2 : ℚ) ^ (-200 : ℤ) = E at *
  generalize (2 : ℚ) ^ (200 : ℤ) = F at *
  have d0 : (0 : ℚ) < (2 : ℚ) ^ (50 : ℤ) := by positivity
  have a0 := pow60
  generalize (2 : ℚ) ^ (-126 : ℤ) = A at *
  generalize (2 : ℚ) ^ (-60 : ℤ) = B at *
  generalize (2 : ℚ) ^ (127 : ℤ) = C at *
  generalize (2 : ℚ) ^ (50 : ℤ) = D at *
  have s1 : B * B ≤ x * x := mul_le_mul h1 h1 a0.le hx0
  have s2 : x * x ≤ D * D := mul_le_mul h2 h2 hx0 d0.le
  have r1 := rr (x * x) (by rw [abs_of_pos p0]; linarith) (by rw [abs_of_pos p0]; nlinarith)
  rw [abs_of_pos p0] at r1
  set t := rn (x * x)
  obtain ⟨t1, t2⟩ := abs_le.1 r1
  have t0 : 0 < t := by linarith
  have ct0 : 0 < c * t := mul_pos c0 t0
  have r2 := rr (c * t) (by rw [abs_of_pos ct0]; nlinarith) (by
    rw [abs_of_pos ct0]
    have : c * t ≤ 2 ^ 13 * t := mul_le_mul_of_nonneg_right c2 t0.le
    linarith)
  rw [abs_of_pos ct0] at r2
  set y := rn (c * t)
  have yc : |y / c - t| ≤ t / 2 ^ 24 := by
    rw [show y / c - t = (y - c * t) / c by field_simp, abs_div, abs_of_pos c0, div_le_iff₀ c0]
    refine r2.trans (le_of_eq ?_)
    ring
  obtain ⟨y1, y2⟩ := abs_le.1 yc
  set v := y / c
  have v0 : 0 < v := by linarith
  have r3 := rr v (by rw [abs_of_pos v0]; linarith) (by rw [abs_of_pos v0]; linarith)
  rw [abs_of_pos v0] at r3
  obtain ⟨w1, w2⟩ := abs_le.1 r3
  set w := rn v
  have w0 : 0 < w := by linarith
  rw [abs_of_pos w0]
  have q1 := qq w (by linarith) (by linarith)
  have m1 : w ≤ (x * (1 + 1 / 2 ^ 23)) ^ 2 := by nlinarith
  have m2 : (x * (1 - 1 / 2 ^ 23)) ^ 2 ≤ w := by nlinarith
  have n1 : √(w : ℝ) ≤ x * (1 + 1 / 2 ^ 23) := by
    refine Real.sqrt_le_iff.2 ⟨?_, ?_⟩
    · have : (0 : ℝ) < x := by exact_mod_cast x0
      positivity
    · have := (Rat.cast_le (K := ℝ)).2 m1
      push_cast at this
      exact this
  have n2 : x * (1 - 1 / 2 ^ 23) ≤ √(w : ℝ) := by
    apply Real.le_sqrt_of_sq_le
    have := (Rat.cast_le (K := ℝ)).2 m2
    push_cast at this
    exact this
  have x0' : (0 : ℝ) < x := by exact_mod_cast x0
  obtain ⟨z1, z2⟩ := abs_le.1 q1
  have : |((sq w - x : ℚ) : ℝ)| ≤ ((x / 2 ^ 22 : ℚ) : ℝ) := by
    push_cast
    rw [abs_le]
    constructor <;> linarith
  exact_mod_cast this

theorem f32_finite : {x : ℚ | F32 x}.Finite := by
  apply (((Set.finite_Ioo (-2 ^ 24 : ℤ) (2 ^ 24)).prod (Set.finite_Icc (-149 : ℤ) 104)).image (fun p : ℤ × ℤ => (p.1 : ℚ) * (2 : ℚ) ^ p.2)).subset
  rintro x ⟨m, e, h1, h2, h3, rfl⟩
  obtain ⟨a, b⟩ := abs_lt.1 h1
  exact ⟨(m, e), ⟨⟨a, b⟩, ⟨h2, h3⟩⟩, rfl⟩

/-- The error of a rounding, also of tiny numbers. -/
theorem rn_mix (hr : Nearest rn) {x : ℚ} (h : |x| < (2 : ℚ) ^ (127 : ℤ)) : |rn x - x| ≤ |x| / 2 ^ 24 + (2 : ℚ) ^ (-150 : ℤ) := by
  have h0 : (0 : ℚ) < (2 : ℚ) ^ (-150 : ℤ) := zpow_pos (by norm_num) _
  rcases le_or_gt ((2 : ℚ) ^ (-126 : ℤ)) |x| with h1 | h1
  · have := rn_rel hr h1 h
    linarith
  · have h2 : |x| ≤ (2 : ℚ) ^ (-125 : ℤ) := h1.le.trans (zpow_le_zpow_right₀ (by norm_num) (by norm_num))
    have := rn_err hr (j := -125) (by norm_num) (by norm_num) h2
    have e : (2 : ℚ) ^ (-125 - 25 : ℤ) = (2 : ℚ) ^ (-150 : ℤ) := by norm_num only
    rw [e] at this
    exact this.trans (le_add_of_nonneg_left (by positivity))

/-- The error of a square root up to 2. -/
theorem sq_abs {sq : ℚ → ℚ} (hq : RoundedSqrt sq) {w : ℚ} (hw : 0 ≤ w) (h : √(w : ℝ) ≤ 2) : |(sq w : ℝ) - √(w : ℝ)| ≤ 1 / 2 ^ 24 := by
  have r0 := Real.sqrt_nonneg (w : ℝ)
  have hn := (hq w hw).2
  generalize √(w : ℝ) = r at *
  obtain ⟨q, hq'⟩ : ∃ q, q = r * 2 ^ 23 := ⟨_, rfl⟩
  have hround := abs_sub_round q
  obtain ⟨c, d⟩ := abs_le.1 hround
  have hm : |round q| ≤ 2 ^ 24 := by
    refine abs_le.2 ⟨?_, ?_⟩
    · by_contra hc
      have : round q ≤ -2 ^ 24 - 1 := by omega
      have : (round q : ℝ) ≤ -2 ^ 24 - 1 := by exact_mod_cast this
      linarith
    · by_contra hc
      have : (2 : ℤ) ^ 24 + 1 ≤ round q := by omega
      have : (2 : ℝ) ^ 24 + 1 ≤ round q := by exact_mod_cast this
      linarith
  have hF : F32 ((round q : ℤ) * (2 : ℚ) ^ (-23 : ℤ)) := f32_scaled hm (by norm_num) (by norm_num)
  refine (hn _ hF).trans ?_
  push_cast
  rw [show (2 : ℝ) ^ (-23 : ℤ) = 1 / 2 ^ 23 by norm_num, abs_le]
  constructor <;> linarith

/-- The square root of a number near `x * x`. -/
theorem sqrt_near {sq : ℚ → ℚ} (hq : RoundedSqrt sq) {w x : ℚ} (hw : 0 ≤ w) (hx0 : 0 ≤ x) (hx1 : x ≤ 1)
    (h : |w - x * x| ≤ (x * x + 1 / 2 ^ 13) / 2 ^ 21) : |sq w - x| ≤ 1 / 2 ^ 15 := by
  obtain ⟨h1, h2⟩ := abs_le.1 h
  have n1 : √(w : ℝ) ≤ x + 1 / 2 ^ 16 := by
    refine Real.sqrt_le_iff.2 ⟨?_, ?_⟩
    · have : (0 : ℝ) ≤ x := by exact_mod_cast hx0
      positivity
    · have : w ≤ (x + 1 / 2 ^ 16) ^ 2 := by nlinarith
      have := (Rat.cast_le (K := ℝ)).2 this
      push_cast at this
      exact this
  have n2 : x - 1 / 2 ^ 16 ≤ √(w : ℝ) := by
    rcases le_total x (1 / 2 ^ 16) with hs | hs
    · have := (Rat.cast_le (K := ℝ)).2 hs
      push_cast at this
      linarith [Real.sqrt_nonneg (w : ℝ)]
    · apply Real.le_sqrt_of_sq_le
      have : (x - 1 / 2 ^ 16) ^ 2 ≤ w := by nlinarith
      have := (Rat.cast_le (K := ℝ)).2 this
      push_cast at this
      exact this
  have x1' : (x : ℝ) ≤ 1 := by exact_mod_cast hx1
  obtain ⟨z1, z2⟩ := abs_le.1 (sq_abs hq hw (by linarith))
  have : |((sq w - x : ℚ) : ℝ)| ≤ ((1 / 2 ^ 15 : ℚ) : ℝ) := by
    push_cast
    rw [abs_le]
    constructor <;> linarith
  exact_mod_cast this

/-- A number with all 24 digits is alone on its place. -/
theorem f32_alone {z : ℚ} {m e : ℤ} (hz : F32 z) (h1 : 2 ^ 23 < |m|) (h2 : |m| < 2 ^ 24) (h3 : -149 ≤ e) (h4 : e ≤ 104)
    (h : |z - m * (2 : ℚ) ^ e| < (2 : ℚ) ^ e) : z = m * (2 : ℚ) ^ e := by
  obtain ⟨rn, hr⟩ := nearest_exists
  by_contra hne
  set y := (m : ℚ) * (2 : ℚ) ^ e with hy
  have hp : (0 : ℚ) < (2 : ℚ) ^ e := zpow_pos (by norm_num) _
  have hzy : 0 < |z - y| := abs_pos.2 (sub_ne_zero.2 hne)
  -- a point nearer to `z` than to `y`, but nearer to `y` than half a step
  obtain ⟨l, l1, l2⟩ := exists_between (show (|z - y| / 2 : ℚ) < min (|z - y|) ((2 : ℚ) ^ e / 2) by
    rw [lt_min_iff]; constructor <;> linarith)
  obtain ⟨l2, l3⟩ := lt_min_iff.1 l2
  have l0 : 0 < l := by linarith
  have fin : ∀ x : ℚ, |x - y| = l → |z - x| = |z - y| - l → False := by
    intro x hx1 hx2
    have := rn_unique hr (x := x) h1 h2 h3 h4 (by rw [← hy, hx1]; linarith)
    have hn := (hr x).2 z hz
    rw [this, ← hy, abs_sub_comm, hx1, hx2] at hn
    linarith
  rcases le_total y z with hle | hle
  · rw [abs_of_nonneg (by linarith : 0 ≤ z - y)] at *
    exact fin (y + l) (by rw [add_sub_cancel_left, abs_of_pos l0]) (by rw [abs_of_nonneg (by linarith)]; ring)
  · rw [abs_of_nonpos (by linarith : z - y ≤ 0)] at *
    exact fin (y - l) (by rw [sub_sub_cancel_left, abs_neg, abs_of_pos l0]) (by rw [abs_of_nonpos (by linarith)]; ring)

/-- Where a square root goes, if it is not a tie. -/
theorem sq_unique {sq : ℚ → ℚ} (hq : RoundedSqrt sq) {w : ℚ} {m e : ℤ} (h1 : 2 ^ 23 < m) (h2 : m < 2 ^ 24) (h3 : -149 ≤ e) (h4 : e ≤ 104)
    (hl : ((m - 1 / 2) * (2 : ℚ) ^ e) ^ 2 < w) (hu : w < ((m + 1 / 2) * (2 : ℚ) ^ e) ^ 2) : sq w = m * (2 : ℚ) ^ e := by
  have hp : (0 : ℚ) < (2 : ℚ) ^ e := zpow_pos (by norm_num) _
  have hp' : (0 : ℝ) < (2 : ℝ) ^ e := zpow_pos (by norm_num) _
  have w0 : 0 ≤ w := (sq_nonneg _).trans hl.le
  have m1 : (1 : ℝ) < m := by exact_mod_cast (by omega : 1 < m)
  have am : |m| = m := abs_of_nonneg (by omega)
  have hm : F32 (m * (2 : ℚ) ^ e) := ⟨m, e, by omega, h3, h4, rfl⟩
  have l1 : (m - 1 / 2) * (2 : ℝ) ^ e < √(w : ℝ) := by
    apply Real.lt_sqrt_of_sq_lt
    have := (Rat.cast_lt (K := ℝ)).2 hl
    push_cast at this
    exact this
  have u1 : √(w : ℝ) < (m + 1 / 2) * (2 : ℝ) ^ e := by
    rw [Real.sqrt_lt' (by positivity)]
    have := (Rat.cast_lt (K := ℝ)).2 hu
    push_cast at this
    exact this
  have hn := (hq w w0).2 _ hm
  have d1 : |((m * (2 : ℚ) ^ e : ℚ) : ℝ) - √(w : ℝ)| < (2 : ℝ) ^ e / 2 := by
    push_cast
    rw [abs_lt]
    constructor <;> nlinarith
  refine f32_alone (hq w w0).1 (by omega) (by omega) h3 h4 ?_
  have : |((sq w - m * (2 : ℚ) ^ e : ℚ) : ℝ)| < (((2 : ℚ) ^ e : ℚ) : ℝ) := by
    have t := abs_sub_le (sq w : ℝ) (√(w : ℝ)) ((m * (2 : ℚ) ^ e : ℚ) : ℝ)
    rw [abs_sub_comm (√(w : ℝ))] at t
    rw [Rat.cast_sub, Rat.cast_zpow, Rat.cast_ofNat]
    linarith
  exact_mod_cast this

/-- What the curve of `time` and back leave is close, in parts of the range. -/
theorem time_near (hr : Nearest rn) {sq : ℚ → ℚ} (hq : RoundedSqrt sq) {x : ℚ} (hx0 : 0 ≤ x) (hx1 : x ≤ 1) :
    |sq |rn (rn (rn (rn ((1 / 2) * rn (1 - rn (x * x))) + rn (5000 * rn (x * x))) - (1 / 2)) / (9999 / 2))| - x| ≤ 1 / 2 ^ 15 := by
  have one : F32 1 := ⟨1, 0, by norm_num, by norm_num, by norm_num, by norm_num⟩
  have mm := fun x h => rn_mix (x := x) hr h
  have e1 : (2 : ℚ) ^ (-150 : ℤ) ≤ 1 / 2 ^ 100 := by norm_num
  have e2 : (2 : ℚ) ^ (20 : ℤ) ≤ (2 : ℚ) ^ (127 : ℤ) := by norm_num
  generalize (2 : ℚ) ^ (-150 : ℤ) = E at *
  generalize (2 : ℚ) ^ (127 : ℤ) = C at *
  norm_num only at e2
  have X1 : x * x ≤ 1 := by nlinarith
  have X0 : 0 ≤ x * x := by positivity
  have t1 := mm (x * x) (by rw [abs_of_nonneg X0]; linarith)
  rw [abs_of_nonneg X0] at t1
  have tl : 0 ≤ rn (x * x) := rn_ge hr f32_zero X0
  have tu : rn (x * x) ≤ 1 := rn_le hr one X1
  generalize rn (x * x) = t at *
  have s1 := mm (1 - t) (by rw [abs_of_nonneg (by linarith)]; linarith)
  rw [abs_of_nonneg (by linarith : 0 ≤ 1 - t)] at s1
  have sl : 0 ≤ rn (1 - t) := rn_ge hr f32_zero (by linarith)
  have su : rn (1 - t) ≤ 1 := rn_le hr one (by linarith)
  generalize rn (1 - t) = s at *
  have p1 := mm ((1 / 2) * s) (by rw [abs_of_nonneg (by linarith)]; linarith)
  rw [abs_of_nonneg (by linarith : 0 ≤ (1 / 2) * s)] at p1
  have q1 := mm (5000 * t) (by rw [abs_of_nonneg (by linarith)]; linarith)
  rw [abs_of_nonneg (by linarith : 0 ≤ 5000 * t)] at q1
  have pl : 0 ≤ rn ((1 / 2) * s) := rn_ge hr f32_zero (by linarith)
  have ql : 0 ≤ rn (5000 * t) := rn_ge hr f32_zero (by linarith)
  generalize rn ((1 / 2) * s) = p at *
  generalize rn (5000 * t) = q at *
  obtain ⟨t2, t3⟩ := abs_le.1 t1
  obtain ⟨s2, s3⟩ := abs_le.1 s1
  obtain ⟨p2, p3⟩ := abs_le.1 p1
  obtain ⟨q2, q3⟩ := abs_le.1 q1
  have y1 := mm (p + q) (by rw [abs_of_nonneg (by linarith)]; linarith)
  rw [abs_of_nonneg (by linarith : 0 ≤ p + q)] at y1
  generalize rn (p + q) = y at *
  obtain ⟨y2, y3⟩ := abs_le.1 y1
  have yb : |y - (1 / 2)| ≤ 5000 * t + 1 / 2 ^ 20 := by
    rw [abs_le]; constructor <;> linarith
  have d1 := mm (y - (1 / 2)) (by linarith)
  generalize rn (y - (1 / 2)) = d at *
  have d1' : |d - (y - (1 / 2))| ≤ (5000 * t + 1 / 2 ^ 20) / 2 ^ 24 + E := by linarith
  obtain ⟨d2, d3⟩ := abs_le.1 d1'
  have db : |d / (9999 / 2)| ≤ 2 * t + 1 / 2 ^ 20 := by
    rw [abs_le]; constructor <;> linarith
  have w1 := mm (d / (9999 / 2)) (by linarith)
  have w1' : |rn (d / (9999 / 2)) - d / (9999 / 2)| ≤ (2 * t + 1 / 2 ^ 20) / 2 ^ 24 + E := by linarith
  generalize rn (d / (9999 / 2)) = w at *
  obtain ⟨w2, w3⟩ := abs_le.1 w1'
  have key : |w - x * x| ≤ (x * x + 1 / 2 ^ 13) / 2 ^ 21 := by
    rw [abs_le]; constructor <;> linarith
  have key' : |(|w|) - x * x| ≤ (x * x + 1 / 2 ^ 13) / 2 ^ 21 := by
    refine le_trans ?_ key
    conv_lhs => rw [← abs_of_nonneg X0]
    exact abs_abs_sub_abs_le _ _
  exact sqrt_near hq (abs_nonneg _) hx0 hx1 key'

/-- What the curve of `ftme` and back leave is close, in parts of the range. -/
theorem ftme_near (hr : Nearest rn) {sq : ℚ → ℚ} (hq : RoundedSqrt sq) {x : ℚ} (hx0 : 0 ≤ x) (hx1 : x ≤ 1) :
    |sq |rn (rn (rn (rn ((13421773 / 134217728) * rn (1 - rn (x * x))) + rn (1000 * rn (x * x))) - (13421773 / 134217728)) / (8191181 / 8192))| - x| ≤ 1 / 2 ^ 15 := by
  have one : F32 1 := ⟨1, 0, by norm_num, by norm_num, by norm_num, by norm_num⟩
  have mm := fun x h => rn_mix (x := x) hr h
  have e1 : (2 : ℚ) ^ (-150 : ℤ) ≤ 1 / 2 ^ 100 := by norm_num
  have e2 : (2 : ℚ) ^ (20 : ℤ) ≤ (2 : ℚ) ^ (127 : ℤ) := by norm_num
  generalize (2 : ℚ) ^ (-150 : ℤ) = E at *
  generalize (2 : ℚ) ^ (127 : ℤ) = C at *
  norm_num only at e2
  have X1 : x * x ≤ 1 := by nlinarith
  have X0 : 0 ≤ x * x := by positivity
  have t1 := mm (x * x) (by rw [abs_of_nonneg X0]; linarith)
  rw [abs_of_nonneg X0] at t1
  have tl : 0 ≤ rn (x * x) := rn_ge hr f32_zero X0
  have tu : rn (x * x) ≤ 1 := rn_le hr one X1
  generalize rn (x * x) = t at *
  have s1 := mm (1 - t) (by rw [abs_of_nonneg (by linarith)]; linarith)
  rw [abs_of_nonneg (by linarith : 0 ≤ 1 - t)] at s1
  have sl : 0 ≤ rn (1 - t) := rn_ge hr f32_zero (by linarith)
  have su : rn (1 - t) ≤ 1 := rn_le hr one (by linarith)
  generalize rn (1 - t) = s at *
  have p1 := mm ((13421773 / 134217728) * s) (by rw [abs_of_nonneg (by linarith)]; linarith)
  rw [abs_of_nonneg (by linarith : 0 ≤ (13421773 / 134217728) * s)] at p1
  have q1 := mm (1000 * t) (by rw [abs_of_nonneg (by linarith)]; linarith)
  rw [abs_of_nonneg (by linarith : 0 ≤ 1000 * t)] at q1
  have pl : 0 ≤ rn ((13421773 / 134217728) * s) := rn_ge hr f32_zero (by linarith)
  have ql : 0 ≤ rn (1000 * t) := rn_ge hr f32_zero (by linarith)
  generalize rn ((13421773 / 134217728) * s) = p at *
  generalize rn (1000 * t) = q at *
  obtain ⟨t2, t3⟩ := abs_le.1 t1
  obtain ⟨s2, s3⟩ := abs_le.1 s1
  obtain ⟨p2, p3⟩ := abs_le.1 p1
  obtain ⟨q2, q3⟩ := abs_le.1 q1
  have y1 := mm (p + q) (by rw [abs_of_nonneg (by linarith)]; linarith)
  rw [abs_of_nonneg (by linarith : 0 ≤ p + q)] at y1
  generalize rn (p + q) = y at *
  obtain ⟨y2, y3⟩ := abs_le.1 y1
  have yb : |y - (13421773 / 134217728)| ≤ 1000 * t + 1 / 2 ^ 20 := by
    rw [abs_le]; constructor <;> linarith
  have d1 := mm (y - (13421773 / 134217728)) (by linarith)
  generalize rn (y - (13421773 / 134217728)) = d at *
  have d1' : |d - (y - (13421773 / 134217728))| ≤ (1000 * t + 1 / 2 ^ 20) / 2 ^ 24 + E := by linarith
  obtain ⟨d2, d3⟩ := abs_le.1 d1'
  have db : |d / (8191181 / 8192)| ≤ 2 * t + 1 / 2 ^ 20 := by
    rw [abs_le]; constructor <;> linarith
  have w1 := mm (d / (8191181 / 8192)) (by linarith)
  have w1' : |rn (d / (8191181 / 8192)) - d / (8191181 / 8192)| ≤ (2 * t + 1 / 2 ^ 20) / 2 ^ 24 + E := by linarith
  generalize rn (d / (8191181 / 8192)) = w at *
  obtain ⟨w2, w3⟩ := abs_le.1 w1'
  have key : |w - x * x| ≤ (x * x + 1 / 2 ^ 13) / 2 ^ 21 := by
    rw [abs_le]; constructor <;> linarith
  have key' : |(|w|) - x * x| ≤ (x * x + 1 / 2 ^ 13) / 2 ^ 21 := by
    refine le_trans ?_ key
    conv_lhs => rw [← abs_of_nonneg X0]
    exact abs_abs_sub_abs_le _ _
  exact sqrt_near hq (abs_nonneg _) hx0 hx1 key'

end HexoDSP.NormFloatLemmas
