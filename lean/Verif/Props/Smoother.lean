import Verif.Lemmas.Smoother
import Mathlib.Algebra.Order.Field.Rat
import Mathlib.Tactic.Ring
import Mathlib.Tactic.FieldSimp
import Mathlib.Tactic.Linarith
import Mathlib.Tactic.Positivity
/-!
# C16: parameter smoothing

The statements about the shape of the ramp are over the rationals (`f32` rounding is not modelled);
the statements about when the ramp ends and that it ends exactly on the target hold for any
arithmetic.
-/

set_option linter.unusedSectionVars false

namespace HexoDSP.SmootherProps
open SmootherLemmas

section
variable {V : Type} [Add V] [Sub V] [Div V] [NatCast V]

/-- **C16**, for any arithmetic: from the moment the smoothing time is over, every value is exactly
the target. -/
theorem ends_on_target (s : Smoother V) (v t : V) (k : Nat) (hk : s.slopeSamples ≤ k) :
    (s.set v t).out k = t := by
  have hc : ((s.set v t).after k).count = 0 := by
    rw [count_after]; simp only [Smoother.set]; omega
  unfold Smoother.out Smoother.next
  rw [if_pos hc, target_after]
  rfl

/-- **C16**, for any arithmetic: a smoother is done exactly after one call more than its smoothing
time has samples, and stays done. -/
theorem done_iff (s : Smoother V) (v t : V) (k : Nat) :
    ((s.set v t).after k).done = true ↔ s.slopeSamples < k := by
  rw [done_after _ rfl]; exact decide_eq_true_iff

end

/-- The straight line from `v` to `t` reached in `n` steps, then `t` forever. -/
def ramp (v t : ℚ) (n k : Nat) : ℚ := if k < n then v + (t - v) * ((k + 1 : ℕ) / (n : ℚ)) else t

theorem value_after (s : Smoother ℚ) (k : Nat) (hk : k ≤ s.count) :
    (s.after k).value = s.value + k * s.inc := by
  induction k with
  | zero => simp [Smoother.after]
  | succ k ih =>
    have hne : (s.after k).count ≠ 0 := by rw [count_after]; omega
    simp only [Smoother.after, Smoother.next, hne, if_false, ih (by omega), inc_after]
    push_cast
    ring

/-- **C16**: the values are the straight line from the start value to the target. -/
theorem follows_ramp (s : Smoother ℚ) (v t : ℚ) (k : Nat) :
    (s.set v t).out k = ramp v t s.slopeSamples k := by
  unfold ramp
  split
  · rename_i hk
    have hne : ((s.set v t).after k).count ≠ 0 := by
      rw [count_after]; simp only [Smoother.set]; omega
    simp only [Smoother.out, Smoother.next, hne, if_false]
    rw [value_after _ _ (by simp only [Smoother.set]; omega), inc_after]
    simp only [Smoother.set]
    push_cast
    ring
  · exact ends_on_target s v t k (by omega)

theorem ramp_weight (n k : Nat) (hk : k < n) :
    0 < ((k + 1 : ℕ) : ℚ) / (n : ℚ) ∧ ((k + 1 : ℕ) : ℚ) / (n : ℚ) ≤ 1 := by
  have hn : (0 : ℚ) < n := by exact_mod_cast (by omega : 0 < n)
  constructor
  · positivity
  · rw [div_le_one hn]; exact_mod_cast hk

/-- **C16**: every value lies between the start value and the target. -/
theorem stays_between (s : Smoother ℚ) (v t : ℚ) (k : Nat) :
    min v t ≤ (s.set v t).out k ∧ (s.set v t).out k ≤ max v t := by
  rw [follows_ramp]
  unfold ramp
  split
  · rename_i hk
    obtain ⟨h0, h1⟩ := ramp_weight s.slopeSamples k hk
    rcases le_total v t with h | h
    · rw [min_eq_left h, max_eq_right h]; constructor <;> nlinarith
    · rw [min_eq_right h, max_eq_left h]; constructor <;> nlinarith
  · exact ⟨min_le_right _ _, le_max_right _ _⟩

/-- **C16**: the values move monotonically from the start value towards the target. -/
theorem monotone_towards (s : Smoother ℚ) (v t : ℚ) (k l : Nat) (hkl : k ≤ l) :
    (v ≤ t → v ≤ (s.set v t).out k ∧ (s.set v t).out k ≤ (s.set v t).out l) ∧
    (t ≤ v → (s.set v t).out k ≤ v ∧ (s.set v t).out l ≤ (s.set v t).out k) := by
  have hb := fun k => stays_between s v t k
  rw [follows_ramp, follows_ramp]
  have hbk := hb k; have hbl := hb l
  rw [follows_ramp] at hbk hbl
  constructor
  · intro h
    rw [min_eq_left h, max_eq_right h] at hbk hbl
    refine ⟨hbk.1, ?_⟩
    by_cases hl : l < s.slopeSamples
    · unfold ramp
      rw [if_pos hl, if_pos (by omega)]
      have hn : (0 : ℚ) < s.slopeSamples := by exact_mod_cast (by omega : 0 < s.slopeSamples)
      have hd : ((k + 1 : ℕ) : ℚ) / (s.slopeSamples : ℚ) ≤ ((l + 1 : ℕ) : ℚ) / (s.slopeSamples : ℚ) := by
        apply div_le_div_of_nonneg_right _ hn.le
        exact_mod_cast (by omega : k + 1 ≤ l + 1)
      nlinarith
    · have : ramp v t s.slopeSamples l = t := by unfold ramp; rw [if_neg hl]
      rw [this]; exact hbk.2
  · intro h
    rw [min_eq_right h, max_eq_left h] at hbk hbl
    refine ⟨hbk.2, ?_⟩
    by_cases hl : l < s.slopeSamples
    · unfold ramp
      rw [if_pos hl, if_pos (by omega)]
      have hn : (0 : ℚ) < s.slopeSamples := by exact_mod_cast (by omega : 0 < s.slopeSamples)
      have hd : ((k + 1 : ℕ) : ℚ) / (s.slopeSamples : ℚ) ≤ ((l + 1 : ℕ) : ℚ) / (s.slopeSamples : ℚ) := by
        apply div_le_div_of_nonneg_right _ hn.le
        exact_mod_cast (by omega : k + 1 ≤ l + 1)
      nlinarith
    · have : ramp v t s.slopeSamples l = t := by unfold ramp; rw [if_neg hl]
      rw [this]; exact hbk.1

/-- **C16**: retargeting a smoother after `k` values, from the last value it returned, continues the
line from that value to the new target; the old target no longer has any influence. -/
theorem retarget_continues (s : Smoother ℚ) (v t t' : ℚ) (k j : Nat) :
    (((s.set v t).after (k + 1)).set ((s.set v t).out k) t').out j =
      ramp (ramp v t s.slopeSamples k) t' s.slopeSamples j := by
  rw [follows_ramp, follows_ramp, slope_after]
  rfl

/-- **C16**: the smoothing time is the smallest number of samples that lasts at least 10 ms. -/
theorem slope_is_10ms (sr n : Nat) :
    Smoother.slopeFor sr ≤ n ↔ sr * 10 ≤ n * 1000 := by
  unfold Smoother.slopeFor
  omega

/-- A ramp from 1 to 3 in four samples. -/
example : ((Smoother.new (V := ℚ)).setSlope 4).slopeSamples = 4 ∧
    (((Smoother.new (V := ℚ)).setSlope 4).set 1 3).out 0 = 3 / 2 ∧
    (((Smoother.new (V := ℚ)).setSlope 4).set 1 3).out 3 = 3 ∧
    (((Smoother.new (V := ℚ)).setSlope 4).set 1 3).out 17 = 3 := by
  refine ⟨rfl, ?_, ?_, ?_⟩ <;> rw [follows_ramp] <;> norm_num [ramp, Smoother.setSlope]

example : Smoother.slopeFor 44100 = 441 := rfl

end HexoDSP.SmootherProps
