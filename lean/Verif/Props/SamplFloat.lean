import Verif.Model.SamplFloat
import Verif.Spec.SamplFloat
import Verif.Lemmas.Float
import Mathlib.Tactic.Linarith
import Mathlib.Tactic.Ring
import Mathlib.Tactic.FieldSimp
import Mathlib.Tactic.NormNum
import Mathlib.Algebra.Order.Round
/-!
# The sample player stays in tune with `f64` numbers (C144)
-/

set_option linter.unusedSectionVars false

namespace HexoDSP.SamplFloatProps
open HexoDSP.SamplFloat HexoDSP.SamplFloatSpec HexoDSP.SinSpec

variable {rn rn32 : ℚ → ℚ}

/-! ## `f64` numbers -/

theorem f64_zero : F64 0 := ⟨0, 0, by norm_num, by norm_num, by norm_num, by simp⟩

theorem f64_scaled {m e : ℤ} (hm : |m| ≤ 2 ^ 53) (h1 : -1074 ≤ e) (h2 : e ≤ 970) : F64 (m * (2 : ℚ) ^ e) := by
  rcases lt_or_eq_of_le hm with h | h
  · exact ⟨m, e, h, h1, by omega, rfl⟩
  · have e2 : (2 : ℚ) ^ (e + 1) = 2 * (2 : ℚ) ^ e := by rw [zpow_add₀ (by norm_num)]; ring
    rcases abs_eq (by norm_num : (0 : ℤ) ≤ 2 ^ 53) |>.1 h with rfl | rfl
    · exact ⟨2 ^ 52, e + 1, by norm_num, by omega, by omega, by rw [e2]; push_cast; ring⟩
    · exact ⟨-2 ^ 52, e + 1, by norm_num, by omega, by omega, by rw [e2]; push_cast; ring⟩

theorem pow2_f64 {k : ℤ} (h1 : -1074 ≤ k) (h2 : k ≤ 970) : F64 ((2 : ℚ) ^ k) := by
  have := f64_scaled (m := 1) (e := k) (by norm_num) h1 h2
  simpa using this

theorem rn_ge (hr : Nearest64 rn) {a x : ℚ} (ha : F64 a) (h : a ≤ x) : a ≤ rn x := by
  by_contra hc
  have hc := not_le.1 hc
  have n := (hr x).2 a ha
  rw [abs_of_nonpos (by linarith : a - x ≤ 0), abs_of_neg (by linarith : rn x - x < 0)] at n
  linarith

theorem rn_le (hr : Nearest64 rn) {a x : ℚ} (ha : F64 a) (h : x ≤ a) : rn x ≤ a := by
  by_contra hc
  have hc := not_le.1 hc
  have n := (hr x).2 a ha
  rw [abs_of_nonneg (by linarith : 0 ≤ a - x), abs_of_pos (by linarith : 0 < rn x - x)] at n
  linarith

theorem rn_fix (hr : Nearest64 rn) {x : ℚ} (h : F64 x) : rn x = x := le_antisymm (rn_le hr h le_rfl) (rn_ge hr h le_rfl)

/-- The error of a rounding, by the size of the number. -/
theorem rn_err (hr : Nearest64 rn) {x : ℚ} {j : ℤ} (h1 : -900 ≤ j) (h2 : j ≤ 900) (hx : |x| ≤ (2 : ℚ) ^ j) : |rn x - x| ≤ (2 : ℚ) ^ (j - 54) := by
  have hp : (0 : ℚ) < (2 : ℚ) ^ (j - 53) := zpow_pos (by norm_num) _
  have e1 : (2 : ℚ) ^ j = 2 ^ 53 * (2 : ℚ) ^ (j - 53) := by
    rw [show j = 53 + (j - 53) by ring, zpow_add₀ (by norm_num), show 53 + (j - 53) - 53 = j - 53 by ring]; norm_num
  have e2 : (2 : ℚ) ^ (j - 53) = 2 * (2 : ℚ) ^ (j - 54) := by
    rw [show j - 53 = 1 + (j - 54) by ring, zpow_add₀ (by norm_num)]; norm_num
  set q := x / (2 : ℚ) ^ (j - 53) with hq
  have hxq : x = q * (2 : ℚ) ^ (j - 53) := by rw [hq]; field_simp
  have hqb : |q| ≤ 2 ^ 53 := by
    rw [hxq, abs_mul, abs_of_pos hp, e1] at hx
    exact le_of_mul_le_mul_right hx hp
  have hround := abs_sub_round q
  have hm : |round q| ≤ 2 ^ 53 := by
    obtain ⟨a, b⟩ := abs_le.1 hqb
    obtain ⟨c, d⟩ := abs_le.1 hround
    refine abs_le.2 ⟨?_, ?_⟩
    · by_contra hc
      have : round q ≤ -2 ^ 53 - 1 := by omega
      have : (round q : ℚ) ≤ -2 ^ 53 - 1 := by exact_mod_cast this
      linarith
    · by_contra hc
      have : (2 : ℤ) ^ 53 + 1 ≤ round q := by omega
      have : (2 : ℚ) ^ 53 + 1 ≤ round q := by exact_mod_cast this
      linarith
  have hF : F64 ((round q : ℤ) * (2 : ℚ) ^ (j - 53)) := f64_scaled hm (by omega) (by omega)
  have := (hr x).2 _ hF
  refine this.trans ?_
  rw [hxq, ← sub_mul, abs_mul, abs_of_pos hp, abs_sub_comm, e2]
  have hp2 : (0 : ℚ) < (2 : ℚ) ^ (j - 54) := zpow_pos (by norm_num) _
  nlinarith

/-- A part of a number that is a whole number of samples shorter is exact. -/
theorem f64_less {x : ℚ} (hx : F64 x) (k : ℤ) (h0 : 0 ≤ x - k) (h1 : x - k ≤ x) (hb : x - k ≤ (2 : ℚ) ^ 53) : F64 (x - k) := by
  obtain ⟨m, e, hm, he1, he2, rfl⟩ := hx
  have hp : (0 : ℚ) < (2 : ℚ) ^ e := zpow_pos (by norm_num) _
  by_cases he : 0 ≤ e
  · -- a whole number
    obtain ⟨d, rfl⟩ : ∃ d : ℕ, e = d := ⟨e.toNat, by omega⟩
    have e1 : (m : ℚ) * (2 : ℚ) ^ (d : ℤ) - k = ((m * 2 ^ d - k : ℤ) : ℚ) := by rw [zpow_natCast]; push_cast; ring
    rw [e1] at h0 hb ⊢
    have := f64_scaled (m := m * 2 ^ d - k) (e := 0) (by
      rw [abs_of_nonneg (by exact_mod_cast h0)]; exact_mod_cast hb) (by norm_num) (by norm_num)
    simpa using this
  · obtain ⟨d, rfl⟩ : ∃ d : ℕ, e = -d := ⟨(-e).toNat, by omega⟩
    have e1 : (k : ℚ) = ((k * 2 ^ d : ℤ) : ℚ) * (2 : ℚ) ^ (-(d : ℤ)) := by
      rw [zpow_neg, zpow_natCast]; push_cast; field_simp
    rw [e1, ← sub_mul] at h0 h1 ⊢
    have a0 := nonneg_of_mul_nonneg_left h0 hp
    have a1 := le_of_mul_le_mul_right h1 hp
    have b0 : 0 ≤ m - k * 2 ^ d := by exact_mod_cast a0
    have b1 : m - k * 2 ^ d ≤ m := by exact_mod_cast a1
    have := f64_scaled (m := m - k * 2 ^ d) (e := -d) (by
      rw [abs_of_nonneg b0]; exact b1.trans ((le_abs_self m).trans hm.le)) he1 (by omega)
    simpa using this

/-- There is a rounding to the nearest `f64`. -/
theorem nearest64_exists : ∃ rn, Nearest64 rn := by
  have hfin : {x : ℚ | F64 x}.Finite := by
    apply (((Set.finite_Ioo (-2 ^ 53 : ℤ) (2 ^ 53)).prod (Set.finite_Icc (-1074 : ℤ) 971)).image (fun p : ℤ × ℤ => (p.1 : ℚ) * (2 : ℚ) ^ p.2)).subset
    rintro x ⟨m, e, h1, h2, h3, rfl⟩
    obtain ⟨a, b⟩ := abs_lt.1 h1
    exact ⟨(m, e), ⟨⟨a, b⟩, ⟨h2, h3⟩⟩, rfl⟩
  have hmin : ∀ x : ℚ, ∃ y, F64 y ∧ ∀ z, F64 z → |y - x| ≤ |z - x| := by
    intro x
    obtain ⟨y, hy, h⟩ := hfin.exists_minimalFor (fun y => |y - x|) _ ⟨0, f64_zero⟩
    refine ⟨y, hy, fun z hz => ?_⟩
    rcases le_total |y - x| |z - x| with hc | hc
    · exact hc
    · exact h hz hc
  choose rn hrn using hmin
  exact ⟨rn, hrn⟩

/-! ## One frame -/

/-- The position in the part, computed without error. -/
theorem place {n : ℕ} (hn : 0 < n) (hb : (n : ℚ) ≤ 2 ^ 53) (hr : Nearest64 rn) {p : ℚ} (hp : F64 p) (h0 : 0 ≤ p) :
    rn (p - ⌊p⌋) = p - ⌊p⌋ ∧ ⌊p⌋.toNat % n < n ∧ 0 ≤ p - ⌊p⌋ ∧ p - ⌊p⌋ < 1 ∧
    (∃ t : ℕ, ((⌊p⌋.toNat % n : ℕ) : ℚ) + (p - ⌊p⌋) = p - t * n) ∧ rn (((⌊p⌋.toNat % n : ℕ) : ℚ) + (p - ⌊p⌋)) = ((⌊p⌋.toNat % n : ℕ) : ℚ) + (p - ⌊p⌋) := by
  have f0 : 0 ≤ p - ⌊p⌋ := by linarith [Int.floor_le p]
  have f1 : p - ⌊p⌋ < 1 := by linarith [Int.lt_floor_add_one p]
  have fl0 : 0 ≤ ⌊p⌋ := Int.floor_nonneg.2 h0
  have hlt : ⌊p⌋.toNat % n < n := Nat.mod_lt _ hn
  have hfl : ((⌊p⌋.toNat : ℕ) : ℚ) = (⌊p⌋ : ℚ) := by
    have : ((⌊p⌋.toNat : ℕ) : ℤ) = ⌊p⌋ := Int.toNat_of_nonneg fl0
    exact_mod_cast this
  have hdiv : ((⌊p⌋.toNat % n : ℕ) : ℚ) + (p - ⌊p⌋) = p - ((⌊p⌋.toNat / n : ℕ) : ℚ) * n := by
    have := Nat.mod_add_div ⌊p⌋.toNat n
    have : ((⌊p⌋.toNat % n : ℕ) : ℚ) + n * ((⌊p⌋.toNat / n : ℕ) : ℚ) = (⌊p⌋ : ℚ) := by rw [← hfl]; exact_mod_cast this
    linarith
  have hi0 : (0 : ℚ) ≤ ((⌊p⌋.toNat % n : ℕ) : ℚ) := Nat.cast_nonneg _
  have hi1 : ((⌊p⌋.toNat % n : ℕ) : ℚ) + 1 ≤ n := by exact_mod_cast hlt
  refine ⟨rn_fix hr (f64_less hp _ f0 (by have : (0 : ℚ) ≤ ⌊p⌋ := by exact_mod_cast fl0
                                          linarith) (by linarith)), hlt, f0, f1, ⟨_, hdiv⟩, rn_fix hr ?_⟩
  have hle : ((⌊p⌋.toNat % n : ℕ) : ℚ) + (p - ⌊p⌋) ≤ n := by linarith
  have hge : 0 ≤ ((⌊p⌋.toNat % n : ℕ) : ℚ) + (p - ⌊p⌋) := by linarith
  rw [hdiv] at hle hge ⊢
  generalize ⌊p⌋.toNat / n = t at hle hge ⊢
  have h2 : (0 : ℚ) ≤ (t : ℚ) * n := by positivity
  have := f64_less hp ((t : ℤ) * n) (by push_cast; exact hge) (by push_cast; linarith) (by push_cast; linarith)
  push_cast at this
  exact this

theorem two_pow_le {j k : ℤ} (h : j ≤ k) : (2 : ℚ) ^ j ≤ (2 : ℚ) ^ k := zpow_le_zpow_right₀ (by norm_num) h

/-- How far one frame goes on. -/
theorem step_err (hr : Nearest64 rn) {n : ℕ} {ratio : ℚ} {j r : ℤ} (hP : Part n ratio j r) {s : ℚ} (hs : Speed j r s) {y : ℚ} (hy0 : 0 ≤ y) (hy1 : y < n) :
    0 ≤ rn (y + rn (rn ratio * s)) ∧ |rn (y + rn (rn ratio * s)) - (y + ratio * s)| ≤ (2 : ℚ) ^ (j - 52) := by
  obtain ⟨q1, q2, q3⟩ := hP.jr
  have c0 : 0 ≤ rn ratio := rn_ge hr f64_zero hP.pos.le
  have c1 : rn ratio ≤ (2 : ℚ) ^ r := rn_le hr (pow2_f64 (by omega) (by omega)) hP.small
  have ce := rn_err hr (x := ratio) (j := r) (by omega) (by omega) (by rw [abs_of_pos hP.pos]; exact hP.small)
  have ejr : (2 : ℚ) ^ r * (2 : ℚ) ^ (j - r) = (2 : ℚ) ^ j := by rw [← zpow_add₀ (by norm_num)]; congr 1; ring
  have d0 : 0 ≤ rn ratio * s := mul_nonneg c0 hs.1
  have d1 : rn ratio * s ≤ (2 : ℚ) ^ j := by
    rw [← ejr]; exact mul_le_mul c1 hs.2 hs.1 (zpow_nonneg (by norm_num) _)
  have de := rn_err hr (x := rn ratio * s) (j := j) (by omega) (by omega) (by rw [abs_of_nonneg d0]; exact d1)
  have g0 : 0 ≤ rn (rn ratio * s) := rn_ge hr f64_zero d0
  have g1 : rn (rn ratio * s) ≤ (2 : ℚ) ^ j := rn_le hr (pow2_f64 (by omega) (by omega)) d1
  have e2 : (2 : ℚ) ^ (j + 1) = 2 * (2 : ℚ) ^ j := by rw [zpow_add₀ (by norm_num)]; ring
  have se := rn_err hr (x := y + rn (rn ratio * s)) (j := j + 1) (by omega) (by omega) (by
    rw [abs_of_nonneg (by linarith), e2]; linarith [hP.short])
  refine ⟨rn_ge hr f64_zero (by linarith), ?_⟩
  have ce2 : |rn ratio * s - ratio * s| ≤ (2 : ℚ) ^ (j - 54) := by
    rw [← sub_mul, abs_mul, abs_of_nonneg hs.1]
    have : (2 : ℚ) ^ (r - 54) * (2 : ℚ) ^ (j - r) = (2 : ℚ) ^ (j - 54) := by rw [← zpow_add₀ (by norm_num)]; congr 1; ring
    rw [← this]
    exact mul_le_mul ce hs.2 hs.1 (zpow_nonneg (by norm_num) _)
  have x1 : (2 : ℚ) ^ (j + 1 - 54) = 2 * (2 : ℚ) ^ (j - 54) := by
    rw [show j + 1 - 54 = 1 + (j - 54) by ring, zpow_add₀ (by norm_num)]; norm_num
  have x2 : (2 : ℚ) ^ (j - 52) = 4 * (2 : ℚ) ^ (j - 54) := by
    rw [show j - 52 = 2 + (j - 54) by ring, zpow_add₀ (by norm_num)]; norm_num
  rw [x1] at se
  rw [x2]
  generalize (2 : ℚ) ^ (j - 54) = E at *
  obtain ⟨a1, a2⟩ := abs_le.1 se
  obtain ⟨b1, b2⟩ := abs_le.1 de
  obtain ⟨k1, k2⟩ := abs_le.1 ce2
  exact abs_le.2 ⟨by linarith, by linarith⟩

/-- One frame: where it reads, and how far it goes on. -/
theorem next_spec (hr : Nearest64 rn) {n : ℕ} {ratio : ℚ} {j r : ℤ} (hP : Part n ratio j r) {s : ℚ} (hs : Speed j r s) (rev : Bool) {p : ℚ} (hp : F64 p) (h0 : 0 ≤ p) :
    F64 (next rn rn32 n rev (rn ratio) s p).2 ∧ 0 ≤ (next rn rn32 n rev (rn ratio) s p).2 ∧
    ∃ (i t : ℕ) (f : ℚ), i < n ∧ 0 ≤ f ∧ f < 1 ∧ i + f = p - t * n ∧ |(next rn rn32 n rev (rn ratio) s p).2 - (p - t * n + ratio * s)| ≤ (2 : ℚ) ^ (j - 52) ∧
      (next rn rn32 n rev (rn ratio) s p).1 = if rev then ⟨n - 1 - i, rn32 (rn (1 - f))⟩ else ⟨i, rn32 f⟩ := by
  have hb : (n : ℚ) ≤ 2 ^ 53 := hP.short.trans ((two_pow_le (show j ≤ 53 by have := hP.jr; omega)).trans (by norm_num))
  obtain ⟨e1, hi, f0, f1, ⟨t, ht⟩, e2⟩ := place hP.some hb hr hp h0
  have hi1 : ((⌊p⌋.toNat % n : ℕ) : ℚ) + 1 ≤ n := by exact_mod_cast hi
  have hi0 : (0 : ℚ) ≤ ((⌊p⌋.toNat % n : ℕ) : ℚ) := Nat.cast_nonneg _
  obtain ⟨g0, g1⟩ := step_err hr hP hs (y := ((⌊p⌋.toNat % n : ℕ) : ℚ) + (p - ⌊p⌋)) (by linarith) (by linarith)
  have hn2 : (next rn rn32 n rev (rn ratio) s p).2 = rn (((⌊p⌋.toNat % n : ℕ) : ℚ) + (p - ⌊p⌋) + rn (rn ratio * s)) := by
    unfold next
    simp only [e1, e2]
  rw [hn2]
  refine ⟨(hr _).1, g0, ⌊p⌋.toNat % n, t, p - ⌊p⌋, hi, f0, f1, ht, ?_, ?_⟩
  · rw [ht] at g1 ⊢; exact g1
  · unfold next
    simp only [e1]

/-! ## C144 -/

/-- **C144** With exact numbers this is the play head of C79. -/
theorem same_head (c : Sampl.Cfg) (phase speed : ℚ) (d : List ℚ) (hd : d ≠ []) :
    Sampl.nextSample c phase speed d = ((next id id d.length c.reverse c.srFactor speed phase).2,
      c.interp d (next id id d.length c.reverse c.srFactor speed phase).1.idx (next id id d.length c.reverse c.srFactor speed phase).1.frac) := by
  have : ¬ d.length < 1 := by
    have := List.length_pos_iff.2 hd; omega
  unfold Sampl.nextSample next
  rw [if_neg this]
  cases c.reverse <;> rfl

theorem near_step {n : ℕ} {x y z d e v : ℚ} {t : ℕ} (h : Near n x (y + z) d) (hy : |y - (v - t * n)| ≤ e) : Near n x (v + z) (e + d) := by
  obtain ⟨k, hk⟩ := h
  refine ⟨k + t, ?_⟩
  push_cast
  obtain ⟨a, b⟩ := abs_le.1 hk
  obtain ⟨c, f⟩ := abs_le.1 hy
  exact abs_le.2 ⟨by linarith, by linarith⟩

theorem drift_from (hr : Nearest64 rn) {n : ℕ} {ratio : ℚ} {j r : ℤ} (hP : Part n ratio j r) (rev : Bool) : ∀ (l : List ℚ) (p : ℚ), F64 p → 0 ≤ p → (∀ s ∈ l, Speed j r s) →
    F64 (run rn rn32 n rev (rn ratio) p l).2 ∧ 0 ≤ (run rn rn32 n rev (rn ratio) p l).2 ∧
    Near n (run rn rn32 n rev (rn ratio) p l).2 (p + ratio * l.sum) (l.length * (2 : ℚ) ^ (j - 52)) := by
  intro l
  induction l with
  | nil => intro p hp h0 _; exact ⟨hp, h0, 0, by simp [run]⟩
  | cons s l ih =>
    intro p hp h0 hs
    obtain ⟨a1, a2, i, t, f, -, -, -, -, a3, -⟩ := next_spec (rn32 := rn32) hr hP (hs s (by simp)) rev hp h0
    obtain ⟨b1, b2, b3⟩ := ih _ a1 a2 (fun s' h => hs s' (by simp [h]))
    have hrun : (run rn rn32 n rev (rn ratio) p (s :: l)).2 = (run rn rn32 n rev (rn ratio) (next rn rn32 n rev (rn ratio) s p).2 l).2 := by rw [run]
    rw [hrun]
    refine ⟨b1, b2, ?_⟩
    have e1 : p + ratio * (s :: l).sum = (p + ratio * s) + ratio * l.sum := by rw [List.sum_cons]; ring
    have e2 : (((s :: l).length : ℕ) : ℚ) * (2 : ℚ) ^ (j - 52) = (2 : ℚ) ^ (j - 52) + l.length * (2 : ℚ) ^ (j - 52) := by
      rw [List.length_cons]; push_cast; ring
    rw [e1, e2]
    refine near_step (t := t) b3 ?_
    have : p + ratio * s - t * n = p - t * n + ratio * s := by ring
    rw [this]; exact a3

theorem run_get (rev : Bool) (n : ℕ) (c : ℚ) : ∀ (l : List ℚ) (p : ℚ) (k : ℕ) (s : ℚ), l[k]? = some s →
    (run rn rn32 n rev c p l).1[k]? = some (next rn rn32 n rev c s (run rn rn32 n rev c p (l.take k)).2).1 := by
  intro l
  induction l with
  | nil => intro p k s h; simp at h
  | cons s0 l ih =>
    intro p k s h
    cases k with
    | zero =>
      simp only [List.getElem?_cons_zero, Option.some.injEq] at h
      subst h
      simp [run]
    | succ k =>
      rw [List.getElem?_cons_succ] at h
      have := ih (next rn rn32 n rev c s0 p).2 k s h
      simp only [run, List.getElem?_cons_succ, List.take_succ_cons]
      exact this

theorem frac_err (h32 : Nearest rn32) {f : ℚ} (h0 : 0 ≤ f) (h1 : f ≤ 1) : 0 ≤ rn32 f ∧ rn32 f ≤ 1 ∧ |rn32 f - f| ≤ 1 / 2 ^ 25 := by
  have o : F32 1 := ⟨1, 0, by norm_num, by norm_num, by norm_num, by norm_num⟩
  have e := FloatLemmas.rn_err h32 (x := f) (j := 0) (by norm_num) (by norm_num) (by rw [abs_of_nonneg h0]; simpa using h1)
  norm_num at e
  exact ⟨FloatLemmas.rn_ge h32 FloatLemmas.f32_zero h0, FloatLemmas.rn_le h32 o h1, by norm_num; exact e⟩

/-- **C144** Every frame of a looped part reads inside of the part, at the place that the sum of all steps so far leads to: a step is the speed times the ratio of the
sample rates, and the place is off by at most `2^(j-52)` samples for each frame played, and `2^-24` for the position between two samples. The fraction handed to
the interpolation is between 0 and 1. Backwards the same place is counted from the end. -/
theorem in_tune (hr : Nearest64 rn) (h32 : Nearest rn32) {n : ℕ} {rate srate : ℚ} {j r : ℤ} (hP : Part n (rate / srate) j r) (rev : Bool) {speeds : List ℚ}
    (hs : ∀ s ∈ speeds, Speed j r s) {k : ℕ} (hk : k < speeds.length) :
    ∃ rd, (run rn rn32 n rev (srFactor rn rate srate) 0 speeds).1[k]? = some rd ∧ rd.idx < n ∧ 0 ≤ rd.frac ∧ rd.frac ≤ 1 ∧
      Near n (if rev then n - (rd.idx + rd.frac) else rd.idx + rd.frac) (rate / srate * (speeds.take k).sum) (k * (2 : ℚ) ^ (j - 52) + 1 / 2 ^ 24) := by
  obtain ⟨s, hks⟩ : ∃ s, speeds[k]? = some s := ⟨speeds[k], List.getElem?_eq_getElem hk⟩
  have hget := run_get (rn := rn) (rn32 := rn32) rev n (srFactor rn rate srate) speeds 0 k s hks
  obtain ⟨d1, d2, d3⟩ := drift_from (rn32 := rn32) hr hP rev (speeds.take k) 0 f64_zero le_rfl (fun s' h => hs s' (List.mem_of_mem_take h))
  rw [List.length_take_of_le hk.le, zero_add] at d3
  change F64 (run rn rn32 n rev (srFactor rn rate srate) 0 (speeds.take k)).2 at d1
  change 0 ≤ (run rn rn32 n rev (srFactor rn rate srate) 0 (speeds.take k)).2 at d2
  change Near n (run rn rn32 n rev (srFactor rn rate srate) 0 (speeds.take k)).2 _ _ at d3
  generalize (run rn rn32 n rev (srFactor rn rate srate) 0 (speeds.take k)).2 = p at *
  obtain ⟨-, -, i, t, f, hi, f0, f1, hif, -, he⟩ := next_spec (rn32 := rn32) hr hP (hs s (List.mem_of_getElem? hks)) rev d1 d2
  refine ⟨_, hget, ?_⟩
  change (next rn rn32 n rev (srFactor rn rate srate) s p).1 = _ at he
  rw [he]
  obtain ⟨q, hq⟩ := d3
  obtain ⟨q1, q2⟩ := abs_le.1 hq
  cases rev with
  | false =>
    obtain ⟨w0, w1, w2⟩ := frac_err h32 f0 f1.le
    obtain ⟨w3, w4⟩ := abs_le.1 w2
    refine ⟨hi, w0, w1, q + t, ?_⟩
    simp only [Bool.false_eq_true, if_false]
    push_cast
    norm_num at w3 w4 ⊢
    exact abs_le.2 ⟨by linarith, by linarith⟩
  | true =>
    have one : F64 1 := by simpa using pow2_f64 (k := 0) (by norm_num) (by norm_num)
    have u0 : 0 ≤ rn (1 - f) := rn_ge hr f64_zero (by linarith)
    have u1 : rn (1 - f) ≤ 1 := rn_le hr one (by linarith)
    have ue := rn_err hr (x := 1 - f) (j := 0) (by norm_num) (by norm_num) (by rw [abs_of_nonneg (by linarith)]; norm_num; exact f0)
    obtain ⟨w0, w1, w2⟩ := frac_err h32 u0 u1
    obtain ⟨w3, w4⟩ := abs_le.1 w2
    obtain ⟨v3, v4⟩ := abs_le.1 ue
    refine ⟨show n - 1 - i < n by omega, w0, w1, q + t, ?_⟩
    have hsub : ((n - 1 - i : ℕ) : ℚ) = n - 1 - i := by
      rw [Nat.cast_sub (by omega), Nat.cast_sub (by omega)]; norm_num
    simp only [if_true, hsub]
    push_cast
    norm_num at v3 v4 w3 w4 ⊢
    exact abs_le.2 ⟨by linarith, by linarith⟩

/-- **C144** A step of more than `2^(j-52)` samples always moves the play head on: it never gets stuck between two samples. -/
theorem moves_on (hr : Nearest64 rn) {n : ℕ} {ratio : ℚ} {j r : ℤ} (hP : Part n ratio j r) {s : ℚ} (hs : Speed j r s) (hm : (2 : ℚ) ^ (j - 52) < ratio * s) (rev : Bool)
    {p : ℚ} (hp : F64 p) (h0 : 0 ≤ p) (h1 : p < n) : p < (next rn rn32 n rev (rn ratio) s p).2 := by
  obtain ⟨-, -, i, t, f, hi, f0, f1, hif, h, -⟩ := next_spec (rn32 := rn32) hr hP hs rev hp h0
  have ht : t = 0 := by
    by_contra hc
    have : (1 : ℚ) ≤ t := by exact_mod_cast Nat.one_le_iff_ne_zero.2 hc
    have hn : (0 : ℚ) < n := by exact_mod_cast hP.some
    have : (n : ℚ) ≤ t * n := by nlinarith
    have : (0 : ℚ) ≤ i := Nat.cast_nonneg _
    linarith
  subst ht
  obtain ⟨a, _⟩ := abs_le.1 h
  push_cast at a
  linarith

-- a recording of 20 seconds at 44100 Hz, at half and at double speed: after a day the play head is off by less than a sample
example : Part 882000 (44100 / 44100) 20 0 ∧ (∀ s ∈ [(1 / 2 : ℚ), 2, 2], Speed 20 0 s) ∧ (24 * 3600 * 44100 : ℚ) * (2 : ℚ) ^ ((20 : ℤ) - 52) < 1 := by
  refine ⟨⟨by norm_num, by norm_num, by norm_num, by norm_num, by norm_num⟩, ?_, by norm_num⟩
  intro s hs
  simp only [List.mem_cons, List.mem_nil_iff, or_false] at hs
  rcases hs with rfl | rfl | rfl <;> constructor <;> norm_num

example : ∃ rn rn32 : ℚ → ℚ, Nearest64 rn ∧ Nearest rn32 := by
  obtain ⟨a, ha⟩ := nearest64_exists
  obtain ⟨b, hb⟩ := FloatLemmas.nearest_exists
  exact ⟨a, b, ha, hb⟩

end HexoDSP.SamplFloatProps
