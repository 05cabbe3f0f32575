import Verif.Model.Rounded
import Verif.Model.Smoother
import Verif.Lemmas.NormFloat
import Verif.Props.FormFMFloat
import Verif.Props.Smoother
/-!
# Knobs glide to their new value with `f32` numbers (C146)
-/

set_option linter.unusedSectionVars false

namespace HexoDSP.SmootherFloatProps
open HexoDSP HexoDSP.SinSpec HexoDSP.FloatLemmas HexoDSP.NormFloatLemmas HexoDSP.FormFMFloatProps

variable {rn : ℚ → ℚ}

/-- The increment, in numbers. -/
def inc (rn : ℚ → ℚ) (n : ℕ) (v t : ℚ) : ℚ := rn (rn (t - v) / rn n)

/-- The values while it glides. -/
def val (rn : ℚ → ℚ) (n : ℕ) (v t : ℚ) : ℕ → ℚ
  | 0 => v
  | k + 1 => rn (val rn n v t k + inc rn n v t)

theorem after_eq (s : Smoother (Rounded rn)) (v t : ℚ) (k : ℕ) (hk : k ≤ s.slopeSamples) :
    (s.set ⟨v⟩ ⟨t⟩).after k =
      { slopeSamples := s.slopeSamples, value := ⟨val rn s.slopeSamples v t k⟩, inc := ⟨inc rn s.slopeSamples v t⟩, target := ⟨t⟩,
        count := s.slopeSamples - k, done := false } := by
  induction k with
  | zero => rfl
  | succ k ih =>
    rw [Smoother.after, ih (by omega), Smoother.next]
    have : s.slopeSamples - k ≠ 0 := by omega
    simp only [this, if_false]
    have e : s.slopeSamples - k - 1 = s.slopeSamples - (k + 1) := by omega
    rw [e]
    rfl

theorem out_eq (s : Smoother (Rounded rn)) (v t : ℚ) (k : ℕ) (hk : k < s.slopeSamples) :
    ((s.set ⟨v⟩ ⟨t⟩).out k).val = val rn s.slopeSamples v t (k + 1) := by
  rw [Smoother.out, after_eq s v t k hk.le, Smoother.next]
  have : s.slopeSamples - k ≠ 0 := by omega
  simp only [this, if_false]
  rfl

theorem out_end (s : Smoother (Rounded rn)) (v t : ℚ) (k : ℕ) (hk : s.slopeSamples ≤ k) : ((s.set ⟨v⟩ ⟨t⟩).out k).val = t := by
  rw [SmootherProps.ends_on_target s _ _ k hk]

/-- Rounding errors of numbers up to 2. -/
theorem err (hr : Nearest rn) {x : ℚ} (hx : |x| ≤ 2) : |rn x - x| ≤ 1 / 2 ^ 24 := by
  have := rn_err hr (x := x) (j := 1) (by norm_num) (by norm_num) (by norm_num; exact hx)
  have e : (2 : ℚ) ^ ((1 : ℤ) - 25) = 1 / 2 ^ 24 := by norm_num
  rwa [e] at this

/-- Rounding errors of small numbers. -/
theorem err' (hr : Nearest rn) {x : ℚ} (hx : |x| ≤ 2) : |rn x - x| ≤ |x| / 2 ^ 24 + 1 / 2 ^ 100 := by
  have hi : (2 : ℚ) < (2 : ℚ) ^ (127 : ℤ) := by
    have := zpow_lt_zpow_right₀ (by norm_num : (1 : ℚ) < 2) (show (1 : ℤ) < 127 by norm_num)
    simpa using this
  by_cases h : (2 : ℚ) ^ (-126 : ℤ) ≤ |x|
  · have := rn_rel hr h (lt_of_le_of_lt hx hi)
    have : (0 : ℚ) ≤ 1 / 2 ^ 100 := by norm_num
    linarith
  · have h := (not_le.1 h).le
    have a := rn_err hr (x := x) (j := -125) (by norm_num) (by norm_num) (h.trans (zpow_le_zpow_right₀ (by norm_num) (by norm_num)))
    have e : (2 : ℚ) ^ ((-125 : ℤ) - 25) ≤ 1 / 2 ^ 100 := by
      have := zpow_le_zpow_right₀ (by norm_num : (1 : ℚ) ≤ 2) (show (-125 : ℤ) - 25 ≤ -100 by norm_num)
      refine this.trans (le_of_eq ?_)
      norm_num
    have : 0 ≤ |x| / 2 ^ 24 := by positivity
    exact a.trans (e.trans (le_add_of_nonneg_left this))

theorem count_exact (hr : Nearest rn) {n : ℕ} (hn : n ≤ 2 ^ 20) : rn n = n := by
  have := int_f32 (m := n) (by rw [abs_of_nonneg (by omega)]; exact_mod_cast hn.trans (by norm_num))
  exact rn_fix hr (by exact_mod_cast this)

theorem inc_err (hr : Nearest rn) {n : ℕ} (h0 : 0 < n) (hn : n ≤ 2 ^ 20) {v t : ℚ} (hv : |v| ≤ 1) (ht : |t| ≤ 1) :
    |inc rn n v t - (t - v) / n| * n ≤ 4 / 2 ^ 24 := by
  have n1 : (1 : ℚ) ≤ n := by exact_mod_cast h0
  have n2 : (n : ℚ) ≤ 2 ^ 20 := by exact_mod_cast hn
  have n0 : (0 : ℚ) < n := by linarith
  have d : |t - v| ≤ 2 := by have := abs_sub t v; linarith
  have e1 := err hr d
  have r2 : |rn (t - v)| ≤ 2 := by
    have two : F32 2 := by simpa using int_f32 (m := 2) (by norm_num)
    obtain ⟨a, b⟩ := abs_le.1 d
    exact abs_le.2 ⟨rn_ge hr (f32_neg two) a, rn_le hr two b⟩
  have q2 : |rn (t - v) / n| * n = |rn (t - v)| := by
    rw [abs_div, abs_of_pos n0]; field_simp
  have q3 : |rn (t - v) / n| ≤ 2 := by
    have := abs_nonneg (rn (t - v) / n)
    nlinarith
  have e2 := err' hr q3
  unfold inc
  rw [count_exact hr hn]
  have tri : |rn (rn (t - v) / n) - (t - v) / n| ≤ |rn (rn (t - v) / n) - rn (t - v) / n| + |rn (t - v) - (t - v)| / n := by
    have := abs_sub_le (rn (rn (t - v) / n)) (rn (t - v) / n) ((t - v) / n)
    rw [← sub_div, abs_div, abs_of_pos n0] at this
    exact this
  have := mul_le_mul_of_nonneg_right (tri.trans (add_le_add_left e2 _)) n0.le
  refine this.trans ?_
  have ex : (|rn (t - v) / n| / 2 ^ 24 + 1 / 2 ^ 100 + |rn (t - v) - (t - v)| / n) * n = |rn (t - v) / n| * n / 2 ^ 24 + n * (1 / 2 ^ 100) + |rn (t - v) - (t - v)| := by
    field_simp
  rw [ex, q2]
  have : (n : ℚ) * (1 / 2 ^ 100) ≤ 2 ^ 20 * (1 / 2 ^ 100) := mul_le_mul_of_nonneg_right n2 (by norm_num)
  have num : (2 : ℚ) / 2 ^ 24 + 2 ^ 20 * (1 / 2 ^ 100) + 1 / 2 ^ 24 ≤ 4 / 2 ^ 24 := by norm_num
  have : |rn (t - v)| / 2 ^ 24 ≤ 2 / 2 ^ 24 := div_le_div_of_nonneg_right r2 (by norm_num)
  linarith

theorem val_err (hr : Nearest rn) {n : ℕ} (h0 : 0 < n) (hn : n ≤ 2 ^ 20) {v t : ℚ} (hv : |v| ≤ 1) (ht : |t| ≤ 1) (k : ℕ) (hk : k ≤ n) :
    |val rn n v t k - (v + k * ((t - v) / n))| ≤ k * (1 / 2 ^ 24 + |inc rn n v t - (t - v) / n|) := by
  have n1 : (1 : ℚ) ≤ n := by exact_mod_cast h0
  have n2 : (n : ℚ) ≤ 2 ^ 20 := by exact_mod_cast hn
  have n0 : (0 : ℚ) < n := by linarith
  have hi := inc_err hr h0 hn hv ht
  induction k with
  | zero => simp [val]
  | succ k ih =>
    have ih := ih (by omega)
    rw [val]
    generalize inc rn n v t = i at *
    generalize val rn n v t k = y at *
    set D : ℚ := |i - (t - v) / n| with hD
    have D0 : 0 ≤ D := abs_nonneg _
    have k0 : (0 : ℚ) ≤ k := Nat.cast_nonneg _
    have k1 : (k : ℚ) + 1 ≤ n := by exact_mod_cast hk
    have kD : (k + 1) * D ≤ 4 / 2 ^ 24 := by
      have := mul_le_mul_of_nonneg_right k1 D0
      rw [mul_comm (n : ℚ)] at this
      linarith
    -- the exact place is between v and t
    have mid : |v + (k + 1) * ((t - v) / n)| ≤ 1 := by
      have w0 : 0 ≤ ((k : ℚ) + 1) / n := by positivity
      have w1 : ((k : ℚ) + 1) / n ≤ 1 := by rw [div_le_one n0]; exact k1
      have e : v + (k + 1) * ((t - v) / n) = (1 - (k + 1) / n) * v + (k + 1) / n * t := by field_simp; ring
      rw [e]
      obtain ⟨a, b⟩ := abs_le.1 hv
      obtain ⟨c, d⟩ := abs_le.1 ht
      exact abs_le.2 ⟨by nlinarith, by nlinarith⟩
    have step : |y + i - (v + (k + 1) * ((t - v) / n))| ≤ k * (1 / 2 ^ 24 + D) + D := by
      have e : y + i - (v + (k + 1) * ((t - v) / n)) = (y - (v + k * ((t - v) / n))) + (i - (t - v) / n) := by ring
      rw [e]
      exact (abs_add_le _ _).trans (add_le_add ih le_rfl)
    have small : k * (1 / 2 ^ 24 + D) + D ≤ 1 := by
      have e : k * (1 / 2 ^ 24 + D) + D = k * (1 / 2 ^ 24) + (k + 1) * D := by ring
      rw [e]
      have : (k : ℚ) * (1 / 2 ^ 24) ≤ 2 ^ 20 * (1 / 2 ^ 24) := mul_le_mul_of_nonneg_right (by linarith) (by norm_num)
      norm_num at this kD ⊢
      linarith
    have big : |y + i| ≤ 2 := by
      have := abs_sub_abs_le_abs_sub (y + i) (v + (k + 1) * ((t - v) / n))
      linarith
    have e3 := err hr big
    push_cast
    have := abs_sub_le (rn (y + i)) (y + i) (v + (k + 1) * ((t - v) / n))
    have ex : ((k : ℚ) + 1) * (1 / 2 ^ 24 + D) = k * (1 / 2 ^ 24 + D) + D + 1 / 2 ^ 24 := by ring
    rw [ex]
    linarith

/-- **C146** The values of a knob (between -1 and 1) that is turned from `v` to `t`, with `f32` arithmetic: the value of frame `k` is on the straight line from `v` to `t`, up to
`k + 5` units of `2^-24`. With the end (`SmootherProps.ends_on_target`) that is the whole course. -/
theorem on_the_line (hr : Nearest rn) (s : Smoother (Rounded rn)) (hn : s.slopeSamples ≤ 2 ^ 20) {v t : ℚ} (hv : |v| ≤ 1) (ht : |t| ≤ 1) (k : ℕ)
    (hk : k < s.slopeSamples) :
    |((s.set ⟨v⟩ ⟨t⟩).out k).val - (v + (k + 1) * ((t - v) / s.slopeSamples))| ≤ (k + 5) / 2 ^ 24 := by
  have h0 : 0 < s.slopeSamples := by omega
  rw [out_eq s v t k hk]
  have h := val_err hr h0 hn hv ht (k + 1) hk
  have hi := inc_err hr h0 hn hv ht
  push_cast at h
  refine h.trans ?_
  have k1 : (k : ℚ) + 1 ≤ s.slopeSamples := by exact_mod_cast hk
  have := mul_le_mul_of_nonneg_right k1 (abs_nonneg (inc rn s.slopeSamples v t - (t - v) / s.slopeSamples))
  rw [mul_comm (s.slopeSamples : ℚ)] at this
  have ex : ((k : ℚ) + 1) * (1 / 2 ^ 24 + |inc rn s.slopeSamples v t - (t - v) / s.slopeSamples|) =
    (k + 1) / 2 ^ 24 + (k + 1) * |inc rn s.slopeSamples v t - (t - v) / s.slopeSamples| := by ring
  rw [ex]
  have e2 : ((k : ℚ) + 5) / 2 ^ 24 = (k + 1) / 2 ^ 24 + 4 / 2 ^ 24 := by ring
  rw [e2]
  linarith

/-- **C146** No click: from one frame to the next, and also in the frame where the smoother jumps to the target, the value moves by a step of the line, up to the rounding. -/
theorem no_click (hr : Nearest rn) (s : Smoother (Rounded rn)) (hn : s.slopeSamples ≤ 2 ^ 20) {v t : ℚ} (hv : |v| ≤ 1) (ht : |t| ≤ 1) (k : ℕ)
    (h0 : 0 < s.slopeSamples) :
    |((s.set ⟨v⟩ ⟨t⟩).out (k + 1)).val - ((s.set ⟨v⟩ ⟨t⟩).out k).val| ≤ |t - v| / s.slopeSamples + (2 * s.slopeSamples + 9) / 2 ^ 24 := by
  have n0 : (0 : ℚ) < s.slopeSamples := by exact_mod_cast h0
  have base : 0 ≤ |t - v| / s.slopeSamples := by positivity
  have tail : 0 ≤ (2 * (s.slopeSamples : ℚ) + 9) / 2 ^ 24 := by positivity
  rcases Nat.lt_trichotomy (k + 1) s.slopeSamples with h | h | h
  · have a := on_the_line hr s hn hv ht (k + 1) h
    have b := on_the_line hr s hn hv ht k (by omega)
    have hk : (k : ℚ) + 2 ≤ s.slopeSamples := by exact_mod_cast (by omega : k + 2 ≤ s.slopeSamples)
    push_cast at a
    have e : (v + ((k : ℚ) + 1 + 1) * ((t - v) / s.slopeSamples)) - (v + (k + 1) * ((t - v) / s.slopeSamples)) = (t - v) / s.slopeSamples := by ring
    have c : |(t - v) / (s.slopeSamples : ℚ)| = |t - v| / s.slopeSamples := by rw [abs_div, abs_of_pos n0]
    rw [← c, ← e]
    generalize v + ((k : ℚ) + 1 + 1) * ((t - v) / s.slopeSamples) = A at *
    generalize v + ((k : ℚ) + 1) * ((t - v) / s.slopeSamples) = B at *
    generalize ((s.set ⟨v⟩ ⟨t⟩).out (k + 1)).val = X at *
    generalize ((s.set ⟨v⟩ ⟨t⟩).out k).val = Y at *
    have t1 := abs_sub_le X A Y
    have t2 := abs_sub_le A B Y
    rw [abs_sub_comm B Y] at t2
    have : ((k : ℚ) + 1 + 5) / 2 ^ 24 + (k + 5) / 2 ^ 24 ≤ (2 * s.slopeSamples + 9) / 2 ^ 24 := by
      rw [← add_div]; apply div_le_div_of_nonneg_right _ (by norm_num); linarith
    linarith
  · have b := on_the_line hr s hn hv ht k (by omega)
    rw [out_end s v t (k + 1) h.ge]
    have hk : (k : ℚ) + 1 = s.slopeSamples := by exact_mod_cast h
    have e : v + ((k : ℚ) + 1) * ((t - v) / s.slopeSamples) = t := by rw [hk]; field_simp; ring
    rw [e, abs_sub_comm] at b
    have : ((k : ℚ) + 5) / 2 ^ 24 ≤ (2 * s.slopeSamples + 9) / 2 ^ 24 := by
      apply div_le_div_of_nonneg_right _ (by norm_num); linarith
    linarith
  · rw [out_end s v t (k + 1) (by omega), out_end s v t k (by omega), sub_self, abs_zero]
    linarith

theorem inc_sign (hr : Nearest rn) {n : ℕ} {v t : ℚ} (h : v ≤ t) : 0 ≤ inc rn n v t :=
  rn_ge hr f32_zero (div_nonneg (rn_ge hr f32_zero (by linarith)) (rn_ge hr f32_zero (Nat.cast_nonneg _)))

theorem inc_sign' (hr : Nearest rn) {n : ℕ} {v t : ℚ} (h : t ≤ v) : inc rn n v t ≤ 0 :=
  rn_le hr f32_zero (div_nonpos_of_nonpos_of_nonneg (rn_le hr f32_zero (by linarith)) (rn_ge hr f32_zero (Nat.cast_nonneg _)))

/-- **C146** While it glides, the value never moves away from the target: upwards it does not fall, downwards it does not rise. -/
theorem one_way (hr : Nearest rn) (s : Smoother (Rounded rn)) {v t : ℚ} (k : ℕ) (hk : k + 1 < s.slopeSamples) :
    (v ≤ t → ((s.set ⟨v⟩ ⟨t⟩).out k).val ≤ ((s.set ⟨v⟩ ⟨t⟩).out (k + 1)).val) ∧
    (t ≤ v → ((s.set ⟨v⟩ ⟨t⟩).out (k + 1)).val ≤ ((s.set ⟨v⟩ ⟨t⟩).out k).val) := by
  rw [out_eq s v t k (by omega), out_eq s v t (k + 1) hk]
  have F : F32 (val rn s.slopeSamples v t (k + 1)) := (hr _).1
  change (_ → _ ≤ rn (val rn s.slopeSamples v t (k + 1) + _)) ∧ (_ → rn (val rn s.slopeSamples v t (k + 1) + _) ≤ _)
  exact ⟨fun h => rn_ge hr F (by linarith [inc_sign hr (n := s.slopeSamples) h]), fun h => rn_le hr F (by linarith [inc_sign' hr (n := s.slopeSamples) h])⟩

/-- **C146** The start is not passed either: the first value lies on the side of the target. -/
theorem starts_right (hr : Nearest rn) (s : Smoother (Rounded rn)) {v t : ℚ} (hv : F32 v) (h0 : 0 < s.slopeSamples) :
    (v ≤ t → v ≤ ((s.set ⟨v⟩ ⟨t⟩).out 0).val) ∧ (t ≤ v → ((s.set ⟨v⟩ ⟨t⟩).out 0).val ≤ v) := by
  rw [out_eq s v t 0 h0, val, val]
  exact ⟨fun h => rn_ge hr hv (by linarith [inc_sign hr (n := s.slopeSamples) h]), fun h => rn_le hr hv (by linarith [inc_sign' hr (n := s.slopeSamples) h])⟩

/-- **C146** The number of frames the knob glides: 10 ms, rounded up, also when it is worked out with `f32` numbers (`src/util.rs:22`), for every whole sample rate up to 1.6 MHz. -/
theorem frames_exact (hr : Nearest rn) (sr : ℕ) (h : sr ≤ 1600000) : ⌈rn (rn ((sr : ℚ) * 10) / 1000)⌉ = (Smoother.slopeFor sr : ℤ) := by
  have e1 : rn ((sr : ℚ) * 10) = sr * 10 := by
    have := int_f32 (m := sr * 10) (by rw [abs_of_nonneg (by omega)]; omega)
    exact rn_fix hr (by push_cast at this; exact this)
  rw [e1, Int.ceil_eq_iff]
  obtain ⟨n, hn⟩ : ∃ n, n = Smoother.slopeFor sr := ⟨_, rfl⟩
  rw [← hn]
  have d : sr * 10 ≤ n * 1000 ∧ n * 1000 < sr * 10 + 1000 := by
    unfold Smoother.slopeFor at hn
    omega
  have n2 : n ≤ 16001 := by omega
  have a : (sr : ℚ) * 10 ≤ n * 1000 := by exact_mod_cast d.1
  have b : (n : ℚ) * 1000 + 10 ≤ sr * 10 + 1000 := by exact_mod_cast (by omega : n * 1000 + 10 ≤ sr * 10 + 1000)
  have F1 : F32 (n : ℚ) := by
    have := int_f32 (m := n) (by rw [abs_of_nonneg (by omega)]; omega)
    exact_mod_cast this
  have F2 : F32 ((n : ℚ) - 1 + 1 / 128) := by
    refine ⟨n * 128 - 127, -7, ?_, by norm_num, by norm_num, by push_cast; norm_num; ring⟩
    rw [abs_lt]
    constructor <;> omega
  have u := rn_le hr (x := (sr : ℚ) * 10 / 1000) F1 (by linarith)
  have l := rn_ge hr (x := (sr : ℚ) * 10 / 1000) F2 (by linarith)
  push_cast
  exact ⟨by linarith, u⟩

/-- **C146** What does not hold with `f32` numbers: that the value stays between start and target. From 0 to 23/64 in 7 frames (a sample rate of 700) the last value before the end is above
the target, by one unit in the last place. -/
theorem overshoots (hr : Nearest rn) (s : Smoother (Rounded rn)) (h7 : s.slopeSamples = 7) : 23 / 64 < ((s.set ⟨0⟩ ⟨23 / 64⟩).out 6).val := by
  rw [out_eq s _ _ 6 (by omega), h7]
  have d : rn (23 / 64 - 0) = 23 / 64 := (congrArg rn (sub_zero _)).trans (rn_fix hr ⟨23, -6, by norm_num, by norm_num, by norm_num, by norm_num⟩)
  have n : rn (7 : ℕ) = 7 := by have := count_exact hr (n := 7) (by norm_num); simpa using this
  have U : ∀ {x : ℚ} (m e : ℤ), 2 ^ 23 < |m| → |m| < 2 ^ 24 → -149 ≤ e → e ≤ 104 → 2 * |x - m * (2 : ℚ) ^ e| < (2 : ℚ) ^ e → rn x = m * (2 : ℚ) ^ e :=
    fun m e a b c d h => rn_unique hr a b c d h
  have hi : inc rn 7 0 (23 / 64) = 13781285 / 2 ^ 28 := by
    unfold inc
    rw [d, n]
    refine (U 13781285 (-28) (by norm_num) (by norm_num) (by norm_num) (by norm_num) (by norm_num [abs_lt])).trans (by norm_num)
  simp only [val, hi]
  rw [show rn (0 + 13781285 / 2 ^ 28) = 13781285 / 2 ^ 28 from
    (U 13781285 (-28) (by norm_num) (by norm_num) (by norm_num) (by norm_num) (by norm_num [abs_lt])).trans (by norm_num)]
  rw [show rn (13781285 / 2 ^ 28 + 13781285 / 2 ^ 28) = 13781285 / 2 ^ 27 from
    (U 13781285 (-27) (by norm_num) (by norm_num) (by norm_num) (by norm_num) (by norm_num [abs_lt])).trans (by norm_num)]
  rw [show rn (13781285 / 2 ^ 27 + 13781285 / 2 ^ 28) = 10335964 / 2 ^ 26 from
    (U 10335964 (-26) (by norm_num) (by norm_num) (by norm_num) (by norm_num) (by norm_num [abs_lt])).trans (by norm_num)]
  rw [show rn (10335964 / 2 ^ 26 + 13781285 / 2 ^ 28) = 13781285 / 2 ^ 26 from
    (U 13781285 (-26) (by norm_num) (by norm_num) (by norm_num) (by norm_num) (by norm_num [abs_lt])).trans (by norm_num)]
  rw [show rn (13781285 / 2 ^ 26 + 13781285 / 2 ^ 28) = 8613303 / 2 ^ 25 from
    (U 8613303 (-25) (by norm_num) (by norm_num) (by norm_num) (by norm_num) (by norm_num [abs_lt])).trans (by norm_num)]
  rw [show rn (8613303 / 2 ^ 25 + 13781285 / 2 ^ 28) = 10335964 / 2 ^ 25 from
    (U 10335964 (-25) (by norm_num) (by norm_num) (by norm_num) (by norm_num) (by norm_num [abs_lt])).trans (by norm_num)]
  rw [show rn (10335964 / 2 ^ 25 + 13781285 / 2 ^ 28) = 12058625 / 2 ^ 25 from
    (U 12058625 (-25) (by norm_num) (by norm_num) (by norm_num) (by norm_num) (by norm_num [abs_lt])).trans (by norm_num)]
  norm_num

-- a smoother at 44100 Hz, from -1/2 to 3/4; there is a rounding
example : ∃ rn, Nearest rn ∧ ∃ s : Smoother (Rounded rn), s.slopeSamples = 441 ∧ s.slopeSamples ≤ 2 ^ 20 ∧ |(-1 / 2 : ℚ)| ≤ 1 ∧ |(3 / 4 : ℚ)| ≤ 1 ∧ 100 + 1 < s.slopeSamples ∧
    F32 (-1 / 2) := by
  obtain ⟨rn, hr⟩ := nearest_exists
  refine ⟨rn, hr, ⟨441, ⟨0⟩, ⟨0⟩, ⟨0⟩, 0, true⟩, rfl, by norm_num, by norm_num [abs_le], by norm_num [abs_le], by norm_num, ⟨-1, -1, by norm_num, by norm_num, by norm_num, by norm_num⟩⟩

end HexoDSP.SmootherFloatProps
