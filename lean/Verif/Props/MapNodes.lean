import Verif.Model.MapNodes
import Mathlib.Tactic.Linarith
import Mathlib.Tactic.FieldSimp
import Mathlib.Tactic.Ring
import Mathlib.Tactic.NormNum
import Mathlib.Tactic.FinCases
import Mathlib.Tactic.IntervalCases
/-!
# The range mappers (C48, C56)
-/

namespace HexoDSP.MapProps
open HexoDSP.MapNodes

/-- Where the input range of an `SMap` mode starts (mapped to `min`) and ends (mapped to `max`). -/
def rangeOf (mode : ℤ) : ℚ × ℚ :=
  if mode = 0 then (0, 1) else if mode = 1 then (-1, 1) else if mode = 2 then (1, 0) else (1, -1)

/-- `x` lies between `a` and `b`, in either order. -/
def Between (a b x : ℚ) : Prop := min a b ≤ x ∧ x ≤ max a b

theorem clamp_mem (x : ℚ) : 0 ≤ clamp x 0 1 ∧ clamp x 0 1 ≤ 1 := by
  unfold clamp
  exact ⟨le_max_left _ _, max_le zero_le_one (min_le_right _ _)⟩

theorem between_affine (lo hi t : ℚ) (h0 : 0 ≤ t) (h1 : t ≤ 1) : Between lo hi (lo + (hi - lo) * t) := by
  unfold Between
  rcases le_total lo hi with h | h
  · rw [min_eq_left h, max_eq_right h]
    constructor <;> nlinarith
  · rw [min_eq_right h, max_eq_left h]
    constructor <;> nlinarith

/-- **C48** With clipping, `SMap` stays between `min` and `max` (in either order), in every mode, for every input. -/
theorem smap_clipped_in_range (mode : ℤ) (h0 : 0 ≤ mode) (h3 : mode ≤ 3) (s lo hi : ℚ) :
    ∃ y, smap mode 1 s lo hi = some y ∧ Between lo hi y := by
  interval_cases mode
  · exact ⟨_, rfl, between_affine _ _ _ (clamp_mem _).1 (clamp_mem _).2⟩
  · exact ⟨_, rfl, between_affine _ _ _ (clamp_mem _).1 (clamp_mem _).2⟩
  · exact ⟨_, rfl, between_affine _ _ _ (by linarith [(clamp_mem s).2]) (by linarith [(clamp_mem s).1])⟩
  · exact ⟨_, rfl, between_affine _ _ _ (by linarith [(clamp_mem ((s + 1) * (1 / 2))).2]) (by linarith [(clamp_mem ((s + 1) * (1 / 2))).1])⟩

/-- **C48** Without clipping, `SMap` is the affine map that takes the ends of the mode's input range to `min` and `max`. -/
theorem smap_affine (mode : ℤ) (h0 : 0 ≤ mode) (h3 : mode ≤ 3) (s lo hi : ℚ) :
    ∃ y, smap mode 0 s lo hi = some y ∧
      (y - lo) * ((rangeOf mode).2 - (rangeOf mode).1) = (hi - lo) * (s - (rangeOf mode).1) := by
  interval_cases mode <;> refine ⟨_, rfl, ?_⟩ <;> norm_num [rangeOf] <;> ring

/-- The ends of the input range. -/
theorem smap_end_points (mode : ℤ) (h0 : 0 ≤ mode) (h3 : mode ≤ 3) (lo hi : ℚ) (clip : ℤ) (hc : clip = 0 ∨ clip = 1) :
    smap mode clip (rangeOf mode).1 lo hi = some lo ∧ smap mode clip (rangeOf mode).2 lo hi = some hi := by
  rcases hc with rfl | rfl <;> interval_cases mode <;>
    norm_num [rangeOf, smap, clamp]

/-- **C56** With clipping an input within the input range of the mode is mapped as without, and one beyond an end like that end. -/
theorem smap_clips_to_ends (mode : ℤ) (h0 : 0 ≤ mode) (h3 : mode ≤ 3) (s lo hi : ℚ) :
    (Between (rangeOf mode).1 (rangeOf mode).2 s → smap mode 1 s lo hi = smap mode 0 s lo hi) ∧
    (s ≤ min (rangeOf mode).1 (rangeOf mode).2 → smap mode 1 s lo hi = smap mode 1 (min (rangeOf mode).1 (rangeOf mode).2) lo hi) ∧
    (max (rangeOf mode).1 (rangeOf mode).2 ≤ s → smap mode 1 s lo hi = smap mode 1 (max (rangeOf mode).1 (rangeOf mode).2) lo hi) := by
  have mid : ∀ x : ℚ, 0 ≤ x → x ≤ 1 → clamp x 0 1 = x := by
    intro x a b; unfold clamp; rw [min_eq_left b, max_eq_right a]
  have low : ∀ x : ℚ, x ≤ 0 → clamp x 0 1 = 0 := by
    intro x a; unfold clamp; rw [min_eq_left (by linarith), max_eq_left a]
  have high : ∀ x : ℚ, 1 ≤ x → clamp x 0 1 = 1 := by
    intro x a; unfold clamp; rw [min_eq_right a]; norm_num
  interval_cases mode
  all_goals
    refine ⟨?_, ?_, ?_⟩
    · rintro ⟨a, b⟩
      norm_num [rangeOf] at a b
      simp only [smap]
      rw [mid _ (by linarith) (by linarith)]
    · intro a
      norm_num [rangeOf] at a
      norm_num [rangeOf]
      simp only [smap]
      rw [low _ (by linarith), low _ (by norm_num)]
    · intro a
      norm_num [rangeOf] at a
      norm_num [rangeOf]
      simp only [smap]
      rw [high _ (by linarith), high _ (by norm_num)]

/-- Settings the node does not know leave the output unwritten. -/
theorem smap_unknown_mode_silent (s lo hi : ℚ) : smap 4 0 s lo hi = none ∧ smap 0 2 s lo hi = none := ⟨rfl, rfl⟩

/-- **C48** With clipping, `Map` stays between `min` and `max` (in either order), for all inputs. -/
theorem map_clipped_in_range (clip : ℤ) (hc : clip ≠ 0) (inp atv offs imin imax lo hi : ℚ) :
    Between lo hi (map clip inp atv offs imin imax lo hi) := by
  unfold map Between clamp
  simp only [if_neg hc]
  split
  · rename_i h
    rw [min_eq_left h.le, max_eq_right h.le]
    exact ⟨le_max_left _ _, max_le h.le (min_le_right _ _)⟩
  · rename_i h
    have h : hi ≤ lo := not_lt.1 h
    rw [min_eq_right h, max_eq_left h]
    exact ⟨le_max_left _ _, max_le h (min_le_right _ _)⟩

theorem position_eq (s imin imax : ℚ) (h : eps ≤ |imax - imin|) : position s imin imax = |(s - imin) / (imax - imin)| := by
  rw [position, if_neg (not_lt.2 h)]

theorem range_ne (imin imax : ℚ) (h : eps ≤ |imax - imin|) : imax - imin ≠ 0 := by
  intro e
  rw [e, abs_zero] at h
  exact absurd h (by norm_num [eps])

/-- **C48** The ends of the input range go to `min` and `max`, clipped or not (if the range is not empty up to rounding). -/
theorem map_end_points (clip : ℤ) (inp atv offs imin imax lo hi : ℚ) (h : eps ≤ |imax - imin|) :
    (inp * atv + offs = imin → map clip inp atv offs imin imax lo hi = lo) ∧
    (inp * atv + offs = imax → map clip inp atv offs imin imax lo hi = hi) := by
  have hne := range_ne imin imax h
  constructor
  · intro e
    simp only [map, e, position_eq _ _ _ h, sub_self, zero_div, abs_zero, mul_zero, add_zero, clamp]
    split
    · rfl
    · split
      · rename_i h1; rw [min_eq_left h1.le, max_self]
      · rename_i h1; rw [min_self, max_eq_right (not_lt.1 h1)]
  · intro e
    have : lo + (hi - lo) * 1 = hi := by ring
    simp only [map, e, position_eq _ _ _ h, div_self hne, abs_of_nonneg (zero_le_one (α := ℚ)), this, clamp]
    split
    · rfl
    · split
      · rename_i h1; rw [min_self, max_eq_right h1.le]
      · rename_i h1; rw [min_eq_left (not_lt.1 h1), max_self]

/-- **C56** Within the input range `Map` is affine, clipped or not; beyond its end a clipped output stays at `max`. -/
theorem map_in_range_partial (clip : ℤ) (inp atv offs imin imax lo hi : ℚ) (h : eps ≤ |imax - imin|) :
    (0 ≤ (inp * atv + offs - imin) / (imax - imin) → (inp * atv + offs - imin) / (imax - imin) ≤ 1 →
      map clip inp atv offs imin imax lo hi = lo + (hi - lo) * ((inp * atv + offs - imin) / (imax - imin))) ∧
    (clip ≠ 0 → 1 ≤ (inp * atv + offs - imin) / (imax - imin) → map clip inp atv offs imin imax lo hi = hi) := by
  constructor
  · intro a b
    simp only [map, position_eq _ _ _ h, abs_of_nonneg a]
    obtain ⟨l, r⟩ := between_affine lo hi _ a b
    split
    · rfl
    · unfold clamp
      split
      · rename_i h1
        rw [min_eq_left h1.le] at l
        rw [max_eq_right h1.le] at r
        rw [min_eq_left r, max_eq_right l]
      · rename_i h1
        have h1 := not_lt.1 h1
        rw [min_eq_right h1] at l
        rw [max_eq_left h1] at r
        rw [min_eq_left r, max_eq_right l]
  · intro hc a
    simp only [map, position_eq _ _ _ h, abs_of_nonneg (le_trans zero_le_one a), if_neg hc, clamp]
    split
    · rename_i h1
      have : hi ≤ lo + (hi - lo) * ((inp * atv + offs - imin) / (imax - imin)) := by nlinarith
      rw [min_eq_right this, max_eq_right h1.le]
    · rename_i h1
      have h1 := not_lt.1 h1
      have : lo + (hi - lo) * ((inp * atv + offs - imin) / (imax - imin)) ≤ hi := by nlinarith
      rw [min_eq_left (le_trans this h1), max_eq_left this]

/-- **C56** (negation) An input below the start of the range is not clipped to `min`: the mapping folds back, one range below the start
gives `max`. -/
theorem map_folds_below (clip : ℤ) (lo hi : ℚ) : map clip (-1) 1 0 0 1 lo hi = hi := by
  have h : eps ≤ |(1 : ℚ) - 0| := by norm_num [eps]
  have : lo + (hi - lo) * 1 = hi := by ring
  simp only [map, position_eq _ _ _ h]
  norm_num [clamp, this]
  intro _ h1
  exact h1.le

/-- A range from 1/4 to 3/4 mapped to 10 to 2, in the middle and outside. -/
example : eps ≤ |(3 / 4 : ℚ) - 1 / 4| ∧ map 1 (1 / 2) 1 0 (1 / 4) (3 / 4) 10 2 = 6 ∧ map 1 1 1 0 (1 / 4) (3 / 4) 10 2 = 2 ∧
    map 0 1 1 0 (1 / 4) (3 / 4) 10 2 = -2 ∧ smap 3 1 (-5) 0 8 = some 8 := by
  decide +kernel

end HexoDSP.MapProps
