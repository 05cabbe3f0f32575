import Verif.Model.RndWk
import Mathlib.Tactic.Linarith
import Mathlib.Tactic.Ring
import Mathlib.Tactic.NormNum
/-!
# The random walker (C88)
-/

set_option linter.unusedSectionVars false

namespace HexoDSP.RndWkProps
open HexoDSP.RndWk HexoDSP.Tracker

variable {S T R : Type}

/-- What is assumed of the slew limiter: it moves from its value towards the target and not beyond. -/
structure GoodSlew (e : Ext S T R) : Prop where
  value : ∀ s t ms, e.slewValue (e.slewNext s t ms).2 = (e.slewNext s t ms).1
  between : ∀ s t ms, min (e.slewValue s) t ≤ (e.slewNext s t ms).1 ∧ (e.slewNext s t ms).1 ≤ max (e.slewValue s) t

/-- The range set by the user: the inputs, limited to 0 to 1, in any order. -/
structure Range (f : Frame) (lo hi : ℚ) : Prop where
  low : lo = min (max 0 (min f.min 1)) (max 0 (min f.max 1))
  high : hi = max (max 0 (min f.min 1)) (max 0 (min f.max 1))

theorem range_eq {f : Frame} {lo hi : ℚ} (h : Range f lo hi) : range f = (lo, hi) := by
  unfold range clamp
  simp only
  rw [h.low, h.high]
  split
  · next h => rw [min_eq_right h.le, max_eq_left h.le]
  · next h => rw [min_eq_left (not_lt.1 h), max_eq_right (not_lt.1 h)]

theorem range_order {f : Frame} {lo hi : ℚ} (h : Range f lo hi) : 0 ≤ lo ∧ lo ≤ hi ∧ hi ≤ 1 := by
  rw [h.low, h.high]
  refine ⟨le_min (le_max_left _ _) (le_max_left _ _), min_le_max, max_le ?_ ?_⟩ <;>
    exact max_le zero_le_one (min_le_right _ _)

theorem reflect_cases (lo hi t : ℚ) :
    (t < lo ∧ reflect lo hi t = 2 * lo - t) ∨ (lo ≤ t ∧ t ≤ hi ∧ reflect lo hi t = t) ∨
    (hi < t ∧ lo ≤ 2 * hi - t ∧ reflect lo hi t = 2 * hi - t) ∨
    (hi < t ∧ 2 * hi - t < lo ∧ reflect lo hi t = 2 * lo - (2 * hi - t)) := by
  unfold reflect
  simp only
  by_cases h1 : t > hi
  · have e1 : hi - |hi - t| = 2 * hi - t := by rw [abs_of_neg (by linarith)]; ring
    rw [if_pos h1, e1]
    by_cases h2 : 2 * hi - t < lo
    · right; right; right
      refine ⟨h1, h2, ?_⟩
      rw [if_pos h2, abs_of_pos (by linarith)]; ring
    · right; right; left
      exact ⟨h1, not_lt.1 h2, by rw [if_neg h2]⟩
  · rw [if_neg h1]
    by_cases h2 : t < lo
    · left
      refine ⟨h2, ?_⟩
      rw [if_pos h2, abs_of_pos (by linarith)]; ring
    · right; left
      exact ⟨not_lt.1 h2, not_lt.1 h1, by rw [if_neg h2]⟩

theorem clamp_range {x lo hi : ℚ} (h : lo ≤ hi) : lo ≤ clamp x lo hi ∧ clamp x lo hi ≤ hi := by
  unfold clamp
  exact ⟨le_max_left _ _, max_le h (min_le_right _ _)⟩

theorem newTarget_eq {f : Frame} {lo hi : ℚ} (h : Range f lo hi) (value rnd : ℚ) :
    newTarget f value rnd = reflect lo hi (clamp (value + ((rnd * 2 * clamp f.step (-1) 1) - clamp f.step (-1) 1) + clamp f.offs (-1) 1)
      (lo - clamp (hi - lo) (1 / 10000) 1 * (99 / 100)) (hi + clamp (hi - lo) (1 / 10000) 1 * (99 / 100))) := by
  unfold newTarget
  simp only [range_eq h]

/-- The bounds of a new target in general. -/
theorem target_bounds {f : Frame} {lo hi : ℚ} (h : Range f lo hi) (value rnd : ℚ) :
    lo ≤ newTarget f value rnd ∧ newTarget f value rnd ≤ max hi (lo + 99 / 1000000) := by
  obtain ⟨h0, h1, h2⟩ := range_order h
  rw [newTarget_eq h]
  obtain ⟨d1, d2⟩ := clamp_range (x := hi - lo) (show (1 / 10000 : ℚ) ≤ 1 by norm_num)
  have d3 : clamp (hi - lo) (1 / 10000) 1 = max (1 / 10000) (hi - lo) := by
    unfold clamp; rw [min_eq_left (by linarith)]
  generalize hd : clamp (hi - lo) (1 / 10000) 1 = d at *
  obtain ⟨t1, t2⟩ := clamp_range (x := value + ((rnd * 2 * clamp f.step (-1) 1) - clamp f.step (-1) 1) + clamp f.offs (-1) 1)
    (show lo - d * (99 / 100) ≤ hi + d * (99 / 100) by linarith)
  generalize clamp (value + ((rnd * 2 * clamp f.step (-1) 1) - clamp f.step (-1) 1) + clamp f.offs (-1) 1) (lo - d * (99 / 100)) (hi + d * (99 / 100)) = t at *
  have d4 : d = 1 / 10000 ∧ hi - lo ≤ 1 / 10000 ∨ d = hi - lo ∧ 1 / 10000 ≤ hi - lo := by
    rcases le_total (hi - lo) (1 / 10000) with h | h
    · left; rw [d3, max_eq_left h]; exact ⟨rfl, h⟩
    · right; rw [d3, max_eq_right h]; exact ⟨rfl, h⟩
  rcases reflect_cases lo hi t with ⟨a, e⟩ | ⟨a, b, e⟩ | ⟨a, b, e⟩ | ⟨a, b, e⟩ <;> rw [e]
  · refine ⟨by linarith, ?_⟩
    rcases d4 with ⟨d5, d6⟩ | ⟨d5, d6⟩
    · exact le_max_of_le_right (by linarith)
    · exact le_max_of_le_left (by linarith)
  · exact ⟨a, le_max_of_le_left b⟩
  · exact ⟨b, le_max_of_le_left (by linarith)⟩
  · refine ⟨by linarith, ?_⟩
    rcases d4 with ⟨d5, d6⟩ | ⟨d5, d6⟩
    · exact le_max_of_le_right (by linarith)
    · exact le_max_of_le_left (by linarith)

/-- **C88** A new target is in the range of the user, whatever the value, the random number, the step and the offset are, if the range is at
least 0.0001 wide. -/
theorem target_in_range_partial {f : Frame} {lo hi : ℚ} (h : Range f lo hi) (hw : 1 / 10000 ≤ hi - lo) (value rnd : ℚ) :
    lo ≤ newTarget f value rnd ∧ newTarget f value rnd ≤ hi := by
  obtain ⟨a, b⟩ := target_bounds h value rnd
  exact ⟨a, b.trans (max_le le_rfl (by linarith))⟩

/-- **C88** From a value in the range a target is no further away than the step and the offset. -/
theorem step_bounded {f : Frame} {lo hi : ℚ} (h : Range f lo hi) (hw : 1 / 10000 ≤ hi - lo) {value rnd : ℚ} (hv0 : lo ≤ value) (hv1 : value ≤ hi)
    (hr0 : 0 ≤ rnd) (hr1 : rnd ≤ 1) : |newTarget f value rnd - value| ≤ |f.step| + |f.offs| := by
  obtain ⟨h0, h1, h2⟩ := range_order h
  rw [newTarget_eq h]
  have d3 : clamp (hi - lo) (1 / 10000) 1 = hi - lo := by
    unfold clamp; rw [min_eq_left (by linarith), max_eq_right hw]
  rw [d3]
  have cl : ∀ x : ℚ, |clamp x (-1) 1| ≤ |x| := by
    intro x
    unfold clamp
    rw [abs_le]
    rcases abs_cases x with ⟨e, g⟩ | ⟨e, g⟩ <;> rw [e]
    · exact ⟨le_max_of_le_right (le_min (by linarith) (by linarith)), max_le (by linarith) (min_le_left _ _)⟩
    · exact ⟨le_max_of_le_right (le_min (by linarith) (by linarith)), max_le (by
        linarith) ((min_le_left _ _).trans (by linarith))⟩
  have hs := cl f.step
  have ho := cl f.offs
  generalize clamp f.step (-1) 1 = st at *
  generalize clamp f.offs (-1) 1 = of at *
  have hm : |(rnd * 2 * st - st) + of| ≤ |f.step| + |f.offs| := by
    have e1 : rnd * 2 * st - st = (2 * rnd - 1) * st := by ring
    have e2 : |2 * rnd - 1| ≤ 1 := abs_le.2 ⟨by linarith, by linarith⟩
    have e3 : |(2 * rnd - 1) * st| ≤ |st| := by
      rw [abs_mul]; exact mul_le_of_le_one_left (abs_nonneg _) e2
    rw [e1]
    exact (abs_add_le _ _).trans (by linarith)
  rw [add_assoc]
  generalize (rnd * 2 * st - st) + of = m at *
  generalize |f.step| + |f.offs| = k at *
  obtain ⟨m1, m2⟩ := abs_le.1 hm
  have hk : 0 ≤ k := by linarith
  obtain ⟨t1, t2⟩ := clamp_range (x := value + m) (show lo - (hi - lo) * (99 / 100) ≤ hi + (hi - lo) * (99 / 100) by linarith)
  have t3 : value - k ≤ clamp (value + m) (lo - (hi - lo) * (99 / 100)) (hi + (hi - lo) * (99 / 100)) := by
    unfold clamp
    exact le_max_of_le_right (le_min (by linarith) (by linarith))
  have t4 : clamp (value + m) (lo - (hi - lo) * (99 / 100)) (hi + (hi - lo) * (99 / 100)) ≤ value + k := by
    unfold clamp
    exact max_le (by linarith) ((min_le_left _ _).trans (by linarith))
  generalize clamp (value + m) (lo - (hi - lo) * (99 / 100)) (hi + (hi - lo) * (99 / 100)) = t at *
  rw [abs_le]
  rcases reflect_cases lo hi t with ⟨a, e⟩ | ⟨a, b, e⟩ | ⟨a, b, e⟩ | ⟨a, b, e⟩ <;> rw [e] <;> constructor <;> linarith

theorem frame_bounds {e : Ext S T R} (he : GoodSlew e) {lo hi : ℚ} {n : Node S T R} {f : Frame}
    (hv : lo ≤ e.slewValue n.slew ∧ e.slewValue n.slew ≤ hi) (ht : lo ≤ n.target ∧ n.target ≤ hi)
    (hf : ∀ v r, lo ≤ newTarget f v r ∧ newTarget f v r ≤ hi) :
    (lo ≤ (n.frame e f).1 ∧ (n.frame e f).1 ≤ hi) ∧
    (lo ≤ e.slewValue (n.frame e f).2.slew ∧ e.slewValue (n.frame e f).2.slew ≤ hi) ∧ (lo ≤ (n.frame e f).2.target ∧ (n.frame e f).2.target ≤ hi) := by
  have key : ∀ s t ms, lo ≤ e.slewValue s ∧ e.slewValue s ≤ hi → lo ≤ t ∧ t ≤ hi → lo ≤ (e.slewNext s t ms).1 ∧ (e.slewNext s t ms).1 ≤ hi := by
    intro s t ms h1 h2
    obtain ⟨a, b⟩ := he.between s t ms
    exact ⟨(le_min h1.1 h2.1).trans a, b.trans (max_le h1.2 h2.2)⟩
  unfold Node.frame
  simp only
  split
  · have := key n.slew (newTarget f (e.slewValue n.slew) (e.rand n.rng).1) f.slew hv (hf _ _)
    exact ⟨this, by rw [he.value]; exact this, hf _ _⟩
  · have := key n.slew n.target f.slew hv ht
    exact ⟨this, by rw [he.value]; exact this, ht⟩

theorem run_bounds {e : Ext S T R} (he : GoodSlew e) {lo hi : ℚ} : ∀ (fs : List Frame) (n : Node S T R),
    (lo ≤ e.slewValue n.slew ∧ e.slewValue n.slew ≤ hi) → (lo ≤ n.target ∧ n.target ≤ hi) →
    (∀ f ∈ fs, ∀ v r, lo ≤ newTarget f v r ∧ newTarget f v r ≤ hi) → ∀ o ∈ (n.run e fs).1, lo ≤ o ∧ o ≤ hi
  | [], n, _, _, _ => by simp [Node.run]
  | f :: fs, n, hv, ht, hf => by
    obtain ⟨a, b, c⟩ := frame_bounds he hv ht (hf f (List.mem_cons_self ..))
    intro o ho
    simp only [Node.run, List.mem_cons] at ho
    rcases ho with rfl | ho
    · exact a
    · exact run_bounds he fs _ b c (fun f hf' => hf f (List.mem_cons_of_mem _ hf')) o ho

/-- **C88** A walker that is in a range stays in it for ever, as long as the ranges of the user are within it and at least 0.0001 wide. -/
theorem stays_in_range_partial {e : Ext S T R} (he : GoodSlew e) {lo hi : ℚ} (fs : List Frame) (n : Node S T R)
    (hv : lo ≤ e.slewValue n.slew ∧ e.slewValue n.slew ≤ hi) (ht : lo ≤ n.target ∧ n.target ≤ hi)
    (hf : ∀ f ∈ fs, ∀ a b, Range f a b → lo ≤ a ∧ b ≤ hi ∧ 1 / 10000 ≤ b - a) : ∀ o ∈ (n.run e fs).1, lo ≤ o ∧ o ≤ hi := by
  refine run_bounds he fs n hv ht ?_
  intro f hm v r
  obtain ⟨a, b, c⟩ := hf f hm _ _ ⟨rfl, rfl⟩
  obtain ⟨x, y⟩ := target_in_range_partial ⟨rfl, rfl⟩ c v r
  exact ⟨a.trans x, y.trans b⟩

/-- **C88** The output of a new walker is never negative and never above 1 by more than 0.0001, for all inputs and random numbers. -/
theorem output_unipolar {e : Ext S T R} (he : GoodSlew e) (h0 : e.slewValue e.slewNew = 0) (seed : R) (fs : List Frame) :
    ∀ o ∈ ((Node.new e seed).run e fs).1, 0 ≤ o ∧ o ≤ 1 + 99 / 1000000 := by
  refine run_bounds he fs _ ?_ ?_ ?_
  · show 0 ≤ e.slewValue e.slewNew ∧ e.slewValue e.slewNew ≤ 1 + 99 / 1000000
    rw [h0]; constructor <;> norm_num
  · show (0 : ℚ) ≤ 0 ∧ (0 : ℚ) ≤ 1 + 99 / 1000000
    constructor <;> norm_num
  · intro f _ v r
    obtain ⟨x, y⟩ := target_bounds (f := f) ⟨rfl, rfl⟩ v r
    obtain ⟨a, b, c⟩ := range_order (f := f) ⟨rfl, rfl⟩
    exact ⟨a.trans x, y.trans (max_le (by linarith) (by linarith))⟩

theorem no_step {f : Frame} (h : f.step = 0) (v r r' : ℚ) : newTarget f v r = newTarget f v r' := by
  unfold newTarget
  have : clamp 0 (-1) 1 = 0 := by unfold clamp; norm_num
  simp only [h, this]
  ring_nf

/-- The parts of the state that are heard. -/
def sameHeard (n n' : Node S T R) : Prop := n.slew = n'.slew ∧ n.trig = n'.trig ∧ n.target = n'.target

/-- **C88** With a step of 0 there is no randomness: the output does not depend on the random numbers. -/
theorem no_step_no_randomness (e e' : Ext S T R) (he : e' = { e with rand := e'.rand }) : ∀ (fs : List Frame) (n n' : Node S T R), sameHeard n n' →
    (∀ f ∈ fs, f.step = 0) → (n.run e fs).1 = (n'.run e' fs).1
  | [], n, n', _, _ => rfl
  | f :: fs, n, n', hs, hf => by
    have h0 := hf f (List.mem_cons_self ..)
    obtain ⟨s1, s2, s3⟩ := hs
    have c1 : e'.trigCheck = e.trigCheck := by rw [he]
    have c2 : e'.slewValue = e.slewValue := by rw [he]
    have c3 : e'.slewNext = e.slewNext := by rw [he]
    have hfr : (n.frame e f).1 = (n'.frame e' f).1 ∧ sameHeard (n.frame e f).2 (n'.frame e' f).2 := by
      unfold Node.frame
      simp only [c1, c2, c3, s1, s2, s3]
      split
      · simp only
        rw [no_step h0 (e.slewValue n'.slew) (e.rand n.rng).1 (e'.rand n'.rng).1]
        exact ⟨rfl, rfl, rfl, rfl⟩
      · exact ⟨rfl, rfl, rfl, rfl⟩
    simp only [Node.run]
    rw [hfr.1, no_step_no_randomness e e' he fs _ _ hfr.2 (fun f hf' => hf f (List.mem_cons_of_mem _ hf'))]

/-- A slew limiter without limit, a trigger for inputs above 0.5, and a fixed random number. -/
def exExt (rnd : ℚ) : Ext ℚ Unit Unit :=
  { slewNew := 0, slewValue := fun s => s, slewNext := fun _ t _ => (t, t), trigNew := (), trigCheck := fun _ x => (decide (x > 1 / 2), ()),
    rand := fun _ => (rnd, ()) }

theorem exExt_good (rnd : ℚ) : GoodSlew (exExt rnd) where
  value := fun _ _ _ => rfl
  between := fun _ _ _ => ⟨min_le_right _ _, le_max_right _ _⟩

/-- Three triggers with a step of 0.8 and a range from 0.25 to 0.75: the walker is folded back into the range. -/
example : (Node.run (exExt 1) (Node.new (exExt 1) ()) [⟨1, 4 / 5, 0, 3 / 4, 1 / 4, 0⟩, ⟨1, 4 / 5, 0, 3 / 4, 1 / 4, 0⟩, ⟨0, 4 / 5, 0, 3 / 4, 1 / 4, 0⟩]).1 =
    [7 / 10, 51 / 200, 51 / 200] := by decide +kernel

/-- **C88** (negation) Before the first trigger the output is 0, also if the range does not contain 0. -/
theorem starts_below_range : (Node.run (exExt 0) (Node.new (exExt 0) ()) [⟨0, 0, 0, 1 / 2, 1, 0⟩]).1 = [0] ∧ Range ⟨0, 0, 0, 1 / 2, 1, 0⟩ (1 / 2) 1 := by
  refine ⟨by decide +kernel, ?_, ?_⟩ <;> norm_num

/-- **C88** (negation) With a range of a single value a target is not in the range. -/
theorem narrow_range_left : newTarget ⟨1, 1, 0, 1, 1, 0⟩ 1 1 = 1 + 99 / 1000000 ∧ Range ⟨1, 1, 0, 1, 1, 0⟩ 1 1 := by
  refine ⟨by decide +kernel, ?_, ?_⟩ <;> norm_num

/-- **C88** (negation) The offset is not a minimal step: with a step of 0.2 and an offset of 0.1 the target can be where the value is. -/
theorem offset_not_minimal : newTarget ⟨1, 1 / 5, 1 / 10, 0, 1, 0⟩ (1 / 2) (1 / 4) = 1 / 2 := by decide +kernel

end HexoDSP.RndWkProps
