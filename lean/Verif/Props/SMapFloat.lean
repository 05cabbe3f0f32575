import Verif.Model.FloatNodes
import Verif.Props.FormFMFloat
/-!
# How exact the clipped mapping is with `f32` numbers (C127)
-/

set_option linter.unusedSectionVars false

namespace HexoDSP.SMapFloatProps
open HexoDSP HexoDSP.SinSpec HexoDSP.FloatLemmas HexoDSP.FormFMFloatProps

variable {rn : ℚ → ℚ}

theorem err (hr : Nearest rn) {x : ℚ} {j : ℤ} (h1 : -125 ≤ j) (h2 : j ≤ 127) {K : ℚ} (hK : K = (2 : ℚ) ^ j) (hx : |x| ≤ K) : |rn x - x| ≤ K / 2 ^ 25 := by
  subst hK
  have e := rn_err hr h1 h2 hx
  rwa [zpow_sub₀ (by norm_num)] at e

/-- A place in the range, from a nearly right position. -/
theorem place (hr : Nearest rn) {lo hi p q : ℚ} (l : |lo| ≤ 1) (h : |hi| ≤ 1) (q0 : 0 ≤ q) (q1 : q ≤ 1) (e : |q - p| ≤ 3 / 2 ^ 25) :
    |rn (lo + rn (rn (hi - lo) * q)) - (lo + (hi - lo) * p)| ≤ 1 / 2 ^ 21 := by
  obtain ⟨l1, l2⟩ := abs_le.1 l
  obtain ⟨h1, h2⟩ := abs_le.1 h
  have w : |hi - lo| ≤ 2 := abs_le.2 ⟨by linarith, by linarith⟩
  have a := err hr (j := 1) (by norm_num) (by norm_num) (by norm_num) w
  have b := rn_abs hr two32 w
  generalize rn (hi - lo) = d at *
  have c : |d * q| ≤ 2 := by
    rw [abs_mul, abs_of_nonneg q0]
    exact (mul_le_mul b q1 q0 (by norm_num)).trans (by norm_num)
  have f := err hr (j := 1) (by norm_num) (by norm_num) (by norm_num) c
  have g := rn_abs hr two32 c
  have m : |d * q - (hi - lo) * p| ≤ 8 / 2 ^ 25 := by
    have s : d * q - (hi - lo) * p = (d - (hi - lo)) * q + (hi - lo) * (q - p) := by ring
    rw [s]
    refine (abs_add_le _ _).trans ?_
    rw [abs_mul, abs_mul, abs_of_nonneg q0]
    have t1 := mul_le_mul a q1 q0 (by norm_num)
    have t2 := mul_le_mul w e (abs_nonneg _) (by norm_num)
    norm_num at t1 t2 ⊢
    linarith
  generalize rn (d * q) = y at *
  obtain ⟨g1, g2⟩ := abs_le.1 g
  have k := err hr (x := lo + y) (j := 2) (by norm_num) (by norm_num) (by norm_num : (4 : ℚ) = _) (abs_le.2 ⟨by linarith, by linarith⟩)
  generalize rn (lo + y) = z at *
  norm_num at k f m ⊢
  rw [abs_le] at *
  constructor <;> linarith

theorem clamp_in (x : ℚ) : 0 ≤ MapNodes.clamp x 0 1 ∧ MapNodes.clamp x 0 1 ≤ 1 := by
  unfold MapNodes.clamp
  exact ⟨le_max_left _ _, max_le (by norm_num) (min_le_right _ _)⟩

theorem half (hr : Nearest rn) {s : ℚ} (h : |s| ≤ 1) : |MapNodes.clamp (rn (rn (s + 1) * (1 / 2))) 0 1 - MapNodes.clamp ((s + 1) * (1 / 2)) 0 1| ≤ 2 / 2 ^ 25 := by
  obtain ⟨s1, s2⟩ := abs_le.1 h
  have a := err hr (x := s + 1) (j := 1) (by norm_num) (by norm_num) (by norm_num : (2 : ℚ) = _) (abs_le.2 ⟨by linarith, by linarith⟩)
  have b0 := rn_ge hr f32_zero (show 0 ≤ s + 1 by linarith)
  have b1 := rn_le hr two32 (show s + 1 ≤ 2 by linarith)
  generalize rn (s + 1) = x at *
  have c := err hr (x := x * (1 / 2)) (j := 0) (by norm_num) (by norm_num) (by norm_num : (1 : ℚ) = _) (abs_le.2 ⟨by linarith, by linarith⟩)
  have d0 := rn_ge hr f32_zero (show 0 ≤ x * (1 / 2) by linarith)
  have d1 := rn_le hr one32 (show x * (1 / 2) ≤ 1 by linarith)
  generalize rn (x * (1 / 2)) = y at *
  unfold MapNodes.clamp
  rw [min_eq_left d1, max_eq_right d0, min_eq_left (by linarith : (s + 1) * (1 / 2) ≤ 1), max_eq_right (by linarith : 0 ≤ (s + 1) * (1 / 2))]
  norm_num at a c ⊢
  rw [abs_le] at *
  constructor <;> linarith

theorem from_one (hr : Nearest rn) {p q : ℚ} (q0 : 0 ≤ q) (q1 : q ≤ 1) (e : |q - p| ≤ 2 / 2 ^ 25) :
    0 ≤ rn (1 - q) ∧ rn (1 - q) ≤ 1 ∧ |rn (1 - q) - (1 - p)| ≤ 3 / 2 ^ 25 := by
  refine ⟨rn_ge hr f32_zero (by linarith), rn_le hr one32 (by linarith), ?_⟩
  have c := err hr (x := 1 - q) (j := 0) (by norm_num) (by norm_num) (by norm_num : (1 : ℚ) = _) (abs_le.2 ⟨by linarith, by linarith⟩)
  generalize rn (1 - q) = y at *
  norm_num at c e ⊢
  rw [abs_le] at *
  constructor <;> linarith

/-- **C127** What the clipped mapping of a signal from -1 to 1 gives, for a range within -1 to 1, is what exact arithmetic gives, up to `2^-21`, in each of the four modes. -/
theorem smap_accurate (hr : Nearest rn) {mode : ℤ} {s lo hi x : ℚ} (hs : |s| ≤ 1) (l : |lo| ≤ 1) (h : |hi| ≤ 1) (hx : FloatNodes.smapClipped rn mode s lo hi = some x) :
    ∃ y, MapNodes.smap mode 1 s lo hi = some y ∧ |x - y| ≤ 1 / 2 ^ 21 := by
  obtain ⟨c0, c1⟩ := clamp_in s
  obtain ⟨d0, d1⟩ := clamp_in (rn (rn (s + 1) * (1 / 2)))
  have hh := half hr hs
  unfold FloatNodes.smapClipped at hx
  split at hx
  · cases hx
    exact ⟨_, rfl, place hr l h c0 c1 (by rw [sub_self, abs_zero]; norm_num)⟩
  · cases hx
    exact ⟨_, rfl, place hr l h d0 d1 (hh.trans (by norm_num))⟩
  · cases hx
    obtain ⟨a, b, c⟩ := from_one hr c0 c1 (p := MapNodes.clamp s 0 1) (by rw [sub_self, abs_zero]; norm_num)
    exact ⟨_, rfl, place hr l h a b c⟩
  · cases hx
    obtain ⟨a, b, c⟩ := from_one hr d0 d1 hh
    exact ⟨_, rfl, place hr l h a b c⟩
  · cases hx

-- from -1..1 to 1/4..1, upside down
example : ∃ rn, Nearest rn ∧ ∃ x, FloatNodes.smapClipped rn 3 (1 / 3) (1 / 4) 1 = some x ∧ |x - 1 / 2| ≤ 1 / 2 ^ 21 := by
  obtain ⟨rn, hr⟩ := nearest_exists
  refine ⟨rn, hr, _, rfl, ?_⟩
  obtain ⟨y, hy, e⟩ := smap_accurate hr (mode := 3) (s := 1 / 3) (lo := 1 / 4) (hi := 1) (by norm_num [abs_le]) (by norm_num [abs_le]) (by norm_num) rfl
  have : y = 1 / 2 := by
    have z : MapNodes.smap 3 1 (1 / 3) (1 / 4) 1 = some (1 / 2) := by
      simp only [MapNodes.smap, MapNodes.clamp]
      norm_num
    exact Option.some.inj (hy.symm.trans z)
  rw [this] at e
  exact e

end HexoDSP.SMapFloatProps
