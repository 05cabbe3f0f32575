import Verif.Lemmas.Float
import Verif.Lemmas.Smoother
import Mathlib.Data.Nat.Log
/-!
# C125: how a knob moves with `f32` numbers
-/

namespace HexoDSP.FloatProps
open HexoDSP.SinSpec HexoDSP.FloatSpec HexoDSP.FloatLemmas HexoDSP.SmootherLemmas

variable {rn : ℚ → ℚ}

/-- The value of the smoother after some steps, as a recursion over the numbers. -/
def val (rn : ℚ → ℚ) (v inc : ℚ) : Nat → ℚ
  | 0 => v
  | k + 1 => rn (val rn v inc k + inc)

theorem out_val (s : Smoother (Fl rn)) (v t : Fl rn) (k : Nat) (hk : k < s.slopeSamples) :
    ((s.set v t).out k).val = val rn v.val (rn (rn (t.val - v.val) / rn s.slopeSamples)) (k + 1) := by
  have key : ∀ j, j ≤ s.slopeSamples → ((s.set v t).after j).value.val = val rn v.val (rn (rn (t.val - v.val) / rn s.slopeSamples)) j := by
    intro j
    induction j with
    | zero => intro _; rfl
    | succ j ih =>
      intro hj
      have hc : ((s.set v t).after j).count ≠ 0 := by
        rw [count_after]; simp only [Smoother.set]; omega
      have hi := inc_after (s.set v t) j
      simp only [Smoother.after, Smoother.next, hc, if_false, hi]
      change rn (((s.set v t).after j).value.val + _) = rn (_ + _)
      rw [ih (by omega)]
      rfl
  have hc : ((s.set v t).after k).count ≠ 0 := by
    rw [count_after]; simp only [Smoother.set]; omega
  have hi := inc_after (s.set v t) k
  simp only [Smoother.out, Smoother.next, hc, if_false, hi]
  change rn (((s.set v t).after k).value.val + _) = rn (_ + _)
  rw [key k (by omega)]
  rfl

theorem val_f32 (hr : Nearest rn) {v inc : ℚ} (hv : F32 v) : ∀ k, F32 (val rn v inc k)
  | 0 => hv
  | _ + 1 => (hr _).1

theorem val_up (hr : Nearest rn) {v inc : ℚ} (hv : F32 v) (hi : 0 ≤ inc) (k : Nat) : ∀ l, k ≤ l → val rn v inc k ≤ val rn v inc l := by
  intro l hl
  induction l, hl using Nat.le_induction with
  | base => exact le_rfl
  | succ l _ ih => exact ih.trans (rn_ge hr (val_f32 hr hv l) (by linarith))

theorem val_down (hr : Nearest rn) {v inc : ℚ} (hv : F32 v) (hi : inc ≤ 0) (k : Nat) : ∀ l, k ≤ l → val rn v inc l ≤ val rn v inc k := by
  intro l hl
  induction l, hl using Nat.le_induction with
  | base => exact le_rfl
  | succ l _ ih => exact (rn_le hr (val_f32 hr hv l) (by linarith)).trans ih

/-- **C125** During the smoothing time the value never turns back, with any rounding to the nearest. -/
theorem one_way (hr : Nearest rn) (s : Smoother (Fl rn)) (v t : Fl rn) (hv : F32 v.val) (k l : Nat) (hkl : k ≤ l) (hl : l < s.slopeSamples) :
    (v.val ≤ t.val → v.val ≤ ((s.set v t).out k).val ∧ ((s.set v t).out k).val ≤ ((s.set v t).out l).val) ∧
    (t.val ≤ v.val → ((s.set v t).out k).val ≤ v.val ∧ ((s.set v t).out l).val ≤ ((s.set v t).out k).val) := by
  rw [out_val s v t k (by omega), out_val s v t l hl]
  have hn : 0 ≤ rn (s.slopeSamples : ℚ) := rn_ge hr f32_zero (Nat.cast_nonneg _)
  constructor
  · intro h
    have hi : 0 ≤ rn (rn (t.val - v.val) / rn s.slopeSamples) :=
      rn_ge hr f32_zero (div_nonneg (rn_ge hr f32_zero (by linarith)) hn)
    exact ⟨val_up hr hv hi 0 (k + 1) (by omega), val_up hr hv hi (k + 1) (l + 1) (by omega)⟩
  · intro h
    have hi : rn (rn (t.val - v.val) / rn s.slopeSamples) ≤ 0 :=
      rn_le hr f32_zero (div_nonpos_of_nonpos_of_nonneg (rn_le hr f32_zero (by linarith)) hn)
    exact ⟨val_down hr hv hi 0 (k + 1) (by omega), val_down hr hv hi (k + 1) (l + 1) (by omega)⟩

/-- The number of steps is exact. -/
theorem f32_nat {n : Nat} (h : n ≤ 2 ^ 20) : F32 (n : ℚ) :=
  ⟨n, 0, by rw [Nat.abs_cast]; exact_mod_cast (by omega : n < 2 ^ 24), by norm_num, by norm_num, by simp⟩

theorem inc_err (hr : Nearest rn) {v t : ℚ} {n : Nat} (hv : |v| ≤ 1) (ht : |t| ≤ 1) (h1 : 1 ≤ n) (h2 : n ≤ 2 ^ 20) :
    |rn (rn (t - v) / rn n) - (t - v) / n| ≤ 3 / 2 ^ 24 / n := by
  rw [rn_fix hr (f32_nat h2)]
  have hn : (0 : ℚ) < n := by exact_mod_cast h1
  have hd : |t - v| ≤ (2 : ℚ) ^ (1 : ℤ) := by
    have := abs_sub t v
    norm_num
    linarith
  have e1 := rn_err hr (by norm_num) (by norm_num) hd
  have two : F32 (2 : ℚ) := ⟨1, 1, by norm_num, by norm_num, by norm_num, by norm_num⟩
  have hd2 : |rn (t - v)| ≤ 2 := by
    norm_num at hd
    obtain ⟨a, b⟩ := abs_le.1 hd
    exact abs_le.2 ⟨rn_ge hr (f32_neg two) a, rn_le hr two b⟩
  obtain ⟨L, hL1, hL2⟩ : ∃ L : ℕ, 2 ^ L ≤ n ∧ n < 2 ^ (L + 1) := ⟨Nat.log 2 n, Nat.pow_log_le_self 2 (by omega), Nat.lt_pow_succ_log_self (by omega) n⟩
  have hL20 : L ≤ 20 := by
    by_contra hc
    have := Nat.pow_le_pow_right (show 0 < 2 by omega) (show 21 ≤ L by omega)
    omega
  have hLn : (2 : ℚ) ^ L ≤ n := by exact_mod_cast hL1
  have hLn2 : (n : ℚ) < 2 ^ (L + 1) := by exact_mod_cast hL2
  have hLp : (0 : ℚ) < 2 ^ L := by positivity
  have hq : |rn (t - v) / n| ≤ (2 : ℚ) ^ (1 - (L : ℤ)) := by
    rw [abs_div, abs_of_pos hn, zpow_sub₀ (by norm_num), zpow_natCast, zpow_one]
    exact div_le_div₀ (by norm_num) hd2 hLp hLn
  have e2 := rn_err hr (by omega) (by omega) hq
  have e3 : (2 : ℚ) ^ (1 - (L : ℤ) - 25) ≤ 2 / 2 ^ 24 / n := by
    rw [show (1 - (L : ℤ) - 25) = (1 - 24) - ((L : ℤ) + 1) by ring, zpow_sub₀ (by norm_num), show ((L : ℤ) + 1) = ((L + 1 : ℕ) : ℤ) by push_cast; ring, zpow_natCast]
    have : (2 : ℚ) ^ ((1 : ℤ) - 24) = 2 / 2 ^ 24 := by norm_num
    rw [this]
    exact div_le_div_of_nonneg_left (by positivity) hn hLn2.le
  have e4 : |rn (t - v) / n - (t - v) / n| ≤ 1 / 2 ^ 24 / n := by
    rw [← sub_div, abs_div, abs_of_pos hn]
    apply div_le_div_of_nonneg_right _ hn.le
    have : (2 : ℚ) ^ ((1 : ℤ) - 25) = 1 / 2 ^ 24 := by norm_num
    rwa [this] at e1
  have := abs_add_le (rn (rn (t - v) / n) - rn (t - v) / n) (rn (t - v) / n - (t - v) / n)
  rw [sub_add_sub_cancel] at this
  have e5 : (3 : ℚ) / 2 ^ 24 / n = 2 / 2 ^ 24 / n + 1 / 2 ^ 24 / n := by ring
  linarith

/-- **C125** With values between -1 and 1 and at most 2^20 samples of smoothing, what is played in sample `k` differs from the straight line by at most
`(k + 4) / 2^24`. -/
theorem near_line (hr : Nearest rn) (s : Smoother (Fl rn)) (v t : Fl rn) (hv : |v.val| ≤ 1) (ht : |t.val| ≤ 1)
    (hn : s.slopeSamples ≤ 2 ^ 20) (k : Nat) (hk : k < s.slopeSamples) :
    |((s.set v t).out k).val - line v.val t.val s.slopeSamples k| ≤ (k + 4) / 2 ^ 24 := by
  rw [out_val s v t k hk]
  generalize hN : s.slopeSamples = n at *
  have hi := inc_err hr hv ht (by omega : 1 ≤ n) hn
  generalize rn (rn (t.val - v.val) / rn n) = inc at hi ⊢
  have hn0 : (0 : ℚ) < n := by exact_mod_cast (by omega : 0 < n)
  have hn20 : (n : ℚ) ≤ 2 ^ 20 := by exact_mod_cast hn
  set D := (t.val - v.val) / n with hD
  have hline : ∀ j : Nat, j ≤ n → |v.val + j * D| ≤ 1 := by
    intro j hj
    have hw1 : (0 : ℚ) ≤ j / n := by positivity
    have hw2 : (j : ℚ) / n ≤ 1 := by rw [div_le_one hn0]; exact_mod_cast hj
    have e : v.val + j * D = (1 - j / n) * v.val + j / n * t.val := by rw [hD]; field_simp; ring
    rw [e]
    obtain ⟨a, b⟩ := abs_le.1 hv
    obtain ⟨c, d⟩ := abs_le.1 ht
    exact abs_le.2 ⟨by nlinarith, by nlinarith⟩
  have key : ∀ j : Nat, j ≤ n → |val rn v.val inc j - (v.val + j * D)| ≤ j * (1 / 2 ^ 24 + 3 / 2 ^ 24 / n) := by
    intro j
    induction j with
    | zero => intro _; simp [val]
    | succ j ih =>
      intro hj
      have ih := ih (by omega)
      have hjn : (j : ℚ) + 1 ≤ n := by exact_mod_cast hj
      have e0 : val rn v.val inc j + inc - (v.val + (j + 1 : ℕ) * D) = (val rn v.val inc j - (v.val + j * D)) + (inc - D) := by push_cast; ring
      have h3 := abs_add_le (val rn v.val inc j - (v.val + j * D)) (inc - D)
      rw [← e0] at h3
      have hsmall : (j : ℚ) * (1 / 2 ^ 24 + 3 / 2 ^ 24 / n) + 3 / 2 ^ 24 / n ≤ 1 := by
        have h4 : (j + 1 : ℚ) * (3 / 2 ^ 24 / n) ≤ 3 / 2 ^ 24 := by
          calc (j + 1 : ℚ) * (3 / 2 ^ 24 / n) ≤ n * (3 / 2 ^ 24 / n) := mul_le_mul_of_nonneg_right hjn (by positivity)
            _ = 3 / 2 ^ 24 := by field_simp
        have h5 : (j : ℚ) ≤ 2 ^ 20 := by linarith
        nlinarith
      have hb : |val rn v.val inc j + inc| ≤ (2 : ℚ) ^ (1 : ℤ) := by
        have h4 := abs_add_le (val rn v.val inc j + inc - (v.val + (j + 1 : ℕ) * D)) (v.val + (j + 1 : ℕ) * D)
        rw [sub_add_cancel] at h4
        have := hline (j + 1) hj
        norm_num
        linarith
      have h6 := rn_err hr (by norm_num) (by norm_num) hb
      have h7 : (2 : ℚ) ^ ((1 : ℤ) - 25) = 1 / 2 ^ 24 := by norm_num
      rw [h7] at h6
      have h8 := abs_add_le (rn (val rn v.val inc j + inc) - (val rn v.val inc j + inc)) (val rn v.val inc j + inc - (v.val + (j + 1 : ℕ) * D))
      rw [sub_add_sub_cancel] at h8
      change |rn (val rn v.val inc j + inc) - _| ≤ _
      push_cast at h8 h3 ⊢
      linarith
  have h := key (k + 1) (by omega)
  have hk1 : ((k + 1 : ℕ) : ℚ) ≤ n := by exact_mod_cast hk
  have h4 : ((k + 1 : ℕ) : ℚ) * (3 / 2 ^ 24 / n) ≤ 3 / 2 ^ 24 := by
    calc ((k + 1 : ℕ) : ℚ) * (3 / 2 ^ 24 / n) ≤ n * (3 / 2 ^ 24 / n) := mul_le_mul_of_nonneg_right hk1 (by positivity)
      _ = 3 / 2 ^ 24 := by field_simp
  unfold line
  rw [← hD]
  push_cast at h h4 ⊢
  linarith

/-- **C125** From the end of the smoothing time on the value is exactly the target. -/
theorem exact_end (s : Smoother (Fl rn)) (v t : Fl rn) (k : Nat) (hk : s.slopeSamples ≤ k) : (s.set v t).out k = t := by
  have hc : ((s.set v t).after k).count = 0 := by
    rw [count_after]; simp only [Smoother.set]; omega
  unfold Smoother.out Smoother.next
  rw [if_pos hc, target_after]
  rfl

/-- **C125** The last step, onto the target, is as small as the rounding errors before it. -/
theorem last_step (hr : Nearest rn) (s : Smoother (Fl rn)) (v t : Fl rn) (hv : |v.val| ≤ 1) (ht : |t.val| ≤ 1)
    (hn : s.slopeSamples ≤ 2 ^ 20) (k : Nat) (hk : k + 1 = s.slopeSamples) : |((s.set v t).out k).val - t.val| ≤ (k + 4) / 2 ^ 24 := by
  have h := near_line hr s v t hv ht hn k (by omega)
  have : line v.val t.val s.slopeSamples k = t.val := by
    unfold line
    rw [← hk]
    push_cast
    have : (k : ℚ) + 1 ≠ 0 := by positivity
    field_simp
    ring
  rwa [this] at h

/-! ## The target is passed -/

/-- One step in units of `2^-40`, checked to be no tie: the rounding of a whole number of them. -/
def stepI (X : Int) : Option Int :=
  let sh := Nat.log2 X.toNat - 23
  let m := (X + 2 ^ sh / 2) / 2 ^ sh
  if 2 ^ 23 < m ∧ m < 2 ^ 24 ∧ sh ≤ 60 ∧ 2 * (X - m * 2 ^ sh).natAbs < 2 ^ sh then some (m * 2 ^ sh) else none

def valI (inc : Int) : Nat → Int → Option Int
  | 0, X => some X
  | k + 1, X => (stepI (X + inc)).bind (valI inc k)

theorem stepI_rn (hr : Nearest rn) {X Y : Int} (h : stepI X = some Y) : rn (X * (2 : ℚ) ^ (-40 : ℤ)) = Y * (2 : ℚ) ^ (-40 : ℤ) := by
  unfold stepI at h
  simp only at h
  generalize Nat.log2 X.toNat - 23 = sh at h
  generalize (X + 2 ^ sh / 2) / 2 ^ sh = m at h
  split at h
  · next hc =>
    obtain ⟨h1, h2, h3, h4⟩ := hc
    cases h
    have e : ((m * 2 ^ sh : ℤ) : ℚ) * (2 : ℚ) ^ (-40 : ℤ) = m * (2 : ℚ) ^ ((sh : ℤ) - 40) := by
      rw [show (sh : ℤ) - 40 = sh + -40 by ring, zpow_add₀ (by norm_num), zpow_natCast]; push_cast; ring
    rw [e]
    apply rn_unique hr (by rw [abs_of_pos (by omega)]; exact h1) (by rw [abs_of_pos (by omega)]; exact h2) (by omega) (by omega)
    have hp : (0 : ℚ) < (2 : ℚ) ^ (-40 : ℤ) := zpow_pos (by norm_num) _
    rw [← e, ← sub_mul, abs_mul, abs_of_pos hp, show (sh : ℤ) - 40 = sh + -40 by ring, zpow_add₀ (by norm_num : (2 : ℚ) ≠ 0), zpow_natCast,
      ← mul_assoc]
    apply mul_lt_mul_of_pos_right _ hp
    have h5 : (2 * |X - m * 2 ^ sh| : ℤ) < 2 ^ sh := by
      rw [Int.abs_eq_natAbs]; exact_mod_cast h4
    exact_mod_cast h5
  · cases h

theorem val_snoc (v inc : ℚ) : ∀ k, val rn v inc (k + 1) = val rn (rn (v + inc)) inc k
  | 0 => rfl
  | k + 1 => by
    change rn (val rn v inc (k + 1) + inc) = rn (val rn (rn (v + inc)) inc k + inc)
    rw [val_snoc v inc k]

theorem valI_val (hr : Nearest rn) {inc : Int} : ∀ {k : Nat} {X Y : Int}, valI inc k X = some Y →
    val rn (X * (2 : ℚ) ^ (-40 : ℤ)) (inc * (2 : ℚ) ^ (-40 : ℤ)) k = Y * (2 : ℚ) ^ (-40 : ℤ)
  | 0, X, Y, h => by cases h; rfl
  | k + 1, X, Y, h => by
    obtain ⟨Z, h1, h2⟩ := Option.bind_eq_some_iff.1 h
    rw [val_snoc, ← add_mul, show ((X : ℚ) + inc) = ((X + inc : ℤ) : ℚ) by push_cast; ring, stepI_rn hr h1]
    exact valI_val hr h2

/-- The knob is turned from 0 to about 0.165. -/
def exTarget : ℚ := 11072963 * (2 : ℚ) ^ (-26 : ℤ)

/-- **C125** (negation) At 44100 Hz the value passes the target, whatever way ties are decided: turned from 0 to 0.165, it is above the target in the last
sample of the smoothing time and goes back in the next one. -/
theorem passes_target (hr : Nearest rn) (s : Smoother (Fl rn)) (hs : s.slopeSamples = Smoother.slopeFor 44100) :
    F32 exTarget ∧ exTarget < ((s.set ⟨0⟩ ⟨exTarget⟩).out 440).val ∧ (s.set ⟨0⟩ ⟨exTarget⟩).out 441 = ⟨exTarget⟩ := by
  have h441 : s.slopeSamples = 441 := hs
  have hF : F32 exTarget := ⟨11072963, -26, by norm_num, by norm_num, by norm_num, rfl⟩
  refine ⟨hF, ?_, exact_end s _ _ 441 (by omega)⟩
  rw [out_val s _ _ 440 (by omega), h441]
  have hi : rn (rn (exTarget - 0) / rn ((441 : ℕ) : ℚ)) = (411381920 : ℤ) * (2 : ℚ) ^ (-40 : ℤ) := by
    rw [sub_zero, rn_fix hr hF, rn_fix hr (f32_nat (by norm_num))]
    have : ((411381920 : ℤ) : ℚ) * (2 : ℚ) ^ (-40 : ℤ) = ((12855685 : ℤ) : ℚ) * (2 : ℚ) ^ (-35 : ℤ) := by norm_num
    rw [this]
    apply rn_unique hr (by norm_num) (by norm_num) (by norm_num) (by norm_num)
    unfold exTarget
    norm_num [abs_lt]
  have hrun : valI 411381920 441 0 = some 181420474368 := by decide +kernel
  have hv := valI_val hr hrun
  change exTarget < val rn 0 (rn (rn (exTarget - 0) / rn ((441 : ℕ) : ℚ))) 441
  rw [hi]
  have h0 : ((0 : ℤ) : ℚ) * (2 : ℚ) ^ (-40 : ℤ) = 0 := by norm_num
  rw [h0] at hv
  rw [hv]
  unfold exTarget
  norm_num

/-! ## The hypotheses are met -/

/-- A smoother as the engine makes it for 44100 Hz: from 0.5 to 1. -/
example : ∃ (rn : ℚ → ℚ) (s : Smoother (Fl rn)), Nearest rn ∧ s.slopeSamples = Smoother.slopeFor 44100 ∧ Smoother.slopeFor 44100 = 441 ∧ F32 (1/2) ∧
    line (1/2) 1 441 440 = 1 := by
  obtain ⟨rn, h⟩ := nearest_exists
  exact ⟨rn, ⟨441, ⟨0⟩, ⟨0⟩, ⟨0⟩, 0, true⟩, h, rfl, rfl, ⟨1, -1, by norm_num, by norm_num, by norm_num, by norm_num⟩, by norm_num [line]⟩

end HexoDSP.FloatProps
