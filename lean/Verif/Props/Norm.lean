import Verif.Spec.Norm
import Mathlib.Tactic.Linarith
import Mathlib.Tactic.FieldSimp
import Mathlib.Tactic.Ring
import Mathlib.Tactic.Positivity
import Mathlib.Tactic.NormNum
set_option linter.unusedSectionVars false

/-! # C44, C62, C63: parameter curves -/

namespace HexoDSP.NormProps
open HexoDSP.Table

/-- The true decibel functions meet the assumption. -/
theorem decibel_ok : decibel.Ok where
  inv g _ _ := by
    show 20 * Real.logb 10 ((10 : ℝ) ^ (g / 20)) = g
    rw [Real.logb_rpow (by norm_num) (by norm_num)]; ring
  mono g h _ hlt _ := by
    show (10 : ℝ) ^ (g / 20) < (10 : ℝ) ^ (h / 20)
    exact Real.rpow_lt_rpow_of_exponent_lt (by norm_num) (by linarith)
  onto c h1 h2 := by
    have h1 : (10 : ℝ) ^ ((-90 : ℝ) / 20) ≤ c := h1
    have h2 : c ≤ (10 : ℝ) ^ ((24 : ℝ) / 20) := h2
    have hc : 0 < c := lt_of_lt_of_le (Real.rpow_pos_of_pos (by norm_num) _) h1
    have e1 := (Real.le_logb_iff_rpow_le (b := 10) (by norm_num) hc).mpr h1
    have e2 := (Real.logb_le_iff_le_rpow (b := 10) (by norm_num) hc).mpr h2
    refine ⟨20 * Real.logb 10 c, by linarith, by linarith, ?_⟩
    show (10 : ℝ) ^ (20 * Real.logb 10 c / 20) = c
    rw [show 20 * Real.logb 10 c / 20 = Real.logb 10 c by ring, Real.rpow_logb (by norm_num) (by norm_num) hc]
  zero := by show (10 : ℝ) ^ ((0 : ℝ) / 20) = 1; norm_num

/-! ## The shapes -/

/-- What is proved of each pair of functions: it maps `[a, b]` increasingly onto `[l, h]` and the first is inverse to the second. -/
structure Good (n d : ℝ → ℝ) (a b l h : ℝ) : Prop where
  lo : d a = l
  hi : d b = h
  mono : ∀ x y, a ≤ x → x < y → y ≤ b → d x < d y
  inv : ∀ x, a ≤ x → x ≤ b → n (d x) = x
  onto : ∀ v, l ≤ v → v ≤ h → a ≤ n v ∧ n v ≤ b ∧ d (n v) = v

variable {l h : ℝ}

theorem ratio {v : ℝ} (hl : l < h) (h1 : l ≤ v) (h2 : v ≤ h) : |(v - l) / (h - l)| = (v - l) / (h - l) ∧ 0 ≤ (v - l) / (h - l) ∧
    (v - l) / (h - l) ≤ 1 := by
  have h0 : 0 < h - l := by linarith
  have : 0 ≤ (v - l) / (h - l) := div_nonneg (by linarith) h0.le
  exact ⟨abs_of_nonneg this, this, by rw [div_le_one h0]; linarith⟩

theorem back {v : ℝ} (hl : l < h) : l * (1 - (v - l) / (h - l)) + h * ((v - l) / (h - l)) = v := by
  have h0 : h - l ≠ 0 := by linarith
  field_simp
  ring

theorem fwd {x : ℝ} (hl : l < h) : (l * (1 - x) + h * x - l) / (h - l) = x := by
  have h0 : h - l ≠ 0 := by linarith
  field_simp
  ring

theorem good_lin (hl : l < h) : Good (nLin l h) (dLin l h) 0 1 l h where
  lo := by simp [dLin]
  hi := by simp [dLin]
  mono x y _ hxy _ := by simp only [dLin]; nlinarith
  inv x h1 _ := by simp only [nLin, dLin]; rw [fwd hl, abs_of_nonneg h1]
  onto v h1 h2 := by
    obtain ⟨e, h3, h4⟩ := ratio hl h1 h2
    simp only [nLin, dLin, e]
    exact ⟨h3, h4, back hl⟩

theorem good_exp (hl : l < h) : Good (nExp l h) (dExp l h) 0 1 l h where
  lo := by simp [dExp]
  hi := by simp [dExp]
  mono x y hx hxy _ := by
    have : x * x < y * y := by nlinarith
    simp only [dExp]
    nlinarith
  inv x h1 _ := by simp only [nExp, dExp]; rw [fwd hl, abs_of_nonneg (mul_self_nonneg x), Real.sqrt_mul_self h1]
  onto v h1 h2 := by
    obtain ⟨e, h3, h4⟩ := ratio hl h1 h2
    simp only [nExp, dExp, e]
    refine ⟨Real.sqrt_nonneg _, Real.sqrt_le_one.mpr h4, ?_⟩
    rw [Real.mul_self_sqrt h3]
    exact back hl

theorem good_exp6 (hl : l < h) : Good (nExp6 l h) (dExp6 l h) 0 1 l h where
  lo := by simp [dExp6]
  hi := by simp [dExp6]
  mono x y hx hxy _ := by
    have : x ^ (6 : ℝ) < y ^ (6 : ℝ) := Real.rpow_lt_rpow hx hxy (by norm_num)
    simp only [dExp6]
    nlinarith
  inv x h1 _ := by
    simp only [nExp6, dExp6]
    rw [fwd hl, abs_of_nonneg (Real.rpow_nonneg h1 _), ← Real.rpow_mul h1]
    norm_num
  onto v h1 h2 := by
    obtain ⟨e, h3, h4⟩ := ratio hl h1 h2
    simp only [nExp6, dExp6, e]
    refine ⟨Real.rpow_nonneg h3 _, Real.rpow_le_one h3 h4 (by norm_num), ?_⟩
    rw [← Real.rpow_mul h3]
    norm_num
    exact back hl

theorem good_db {G : Gain} (hG : G.Ok) (hl : l < h) (h1 : -90 ≤ l) (h2 : h ≤ 24) : Good (nDb G l h) (dDb G l h) 0 1 (G.toCoef l) (G.toCoef h) where
  lo := by simp [dDb]
  hi := by simp [dDb]
  mono x y hx hxy hy := by
    simp only [dDb]
    exact hG.mono _ _ (by nlinarith) (by nlinarith) (by nlinarith)
  inv x hx hx' := by
    simp only [nDb, dDb]
    rw [hG.inv _ (by nlinarith) (by nlinarith), show l * (1 - x) + x * h = l * (1 - x) + h * x by ring, fwd hl, abs_of_nonneg hx]
  onto v hv hv' := by
    have hmon : ∀ a b, -90 ≤ a → a ≤ b → b ≤ 24 → G.toCoef a ≤ G.toCoef b := by
      intro a b ha hab hb
      rcases hab.eq_or_lt with rfl | hab
      · exact le_refl _
      · exact (hG.mono a b ha hab hb).le
    obtain ⟨g, hg1, hg2, rfl⟩ := hG.onto v (le_trans (hmon _ _ (le_refl _) h1 (by linarith)) hv) (le_trans hv' (hmon _ _ (by linarith) h2 (le_refl _)))
    have g1 : l ≤ g := by
      by_contra hc
      exact absurd hv (not_le.mpr (hG.mono g l hg1 (not_le.mp hc) (by linarith)))
    have g2 : g ≤ h := by
      by_contra hc
      exact absurd hv' (not_le.mpr (hG.mono h g (by linarith) (not_le.mp hc) hg2))
    simp only [nDb, dDb, hG.inv g hg1 hg2]
    obtain ⟨e, h3, h4⟩ := ratio hl g1 g2
    rw [e]
    refine ⟨h3, h4, ?_⟩
    rw [show l * (1 - (g - l) / (h - l)) + (g - l) / (h - l) * h = l * (1 - (g - l) / (h - l)) + h * ((g - l) / (h - l)) by ring, back hl]

theorem two_pow_ten : (2 : ℝ) ^ (10 : ℝ) = 1024 := by norm_num
theorem two_pow_neg_ten : (2 : ℝ) ^ (-10 : ℝ) = 1 / 1024 := by rw [Real.rpow_neg (by norm_num), two_pow_ten]; norm_num

theorem dPit_eq {x : ℝ} (h1 : -1 ≤ x) (h2 : x ≤ 1) : dPit x = 440 * (2 : ℝ) ^ (x * 10) := by
  unfold dPit
  rw [min_eq_right (by linarith), max_eq_right (by linarith)]

theorem good_pit : Good nPit dPit (-1) 1 (440 / 1024) (440 * 1024) where
  lo := by rw [dPit_eq (by norm_num) (by norm_num)]; norm_num [two_pow_neg_ten]
  hi := by rw [dPit_eq (by norm_num) (by norm_num)]; norm_num [two_pow_ten]
  mono x y hx hxy hy := by
    rw [dPit_eq hx (by linarith), dPit_eq (by linarith) hy]
    have := Real.rpow_lt_rpow_of_exponent_lt (x := 2) (by norm_num) (show x * 10 < y * 10 by linarith)
    linarith
  inv x hx hx' := by
    rw [dPit_eq hx hx']
    unfold nPit
    have hp : (1 : ℝ) / 1024 ≤ (2 : ℝ) ^ (x * 10) := by
      rw [← two_pow_neg_ten]
      exact Real.rpow_le_rpow_of_exponent_le (by norm_num) (by linarith)
    rw [max_eq_left (by norm_num at *; linarith), mul_div_cancel_left₀ _ (by norm_num), Real.logb_rpow (by norm_num) (by norm_num)]
    ring
  onto v hv hv' := by
    unfold nPit
    have hv0 : 0 < v := by linarith
    rw [max_eq_left (by norm_num at *; linarith)]
    have hq : 0 < v / 440 := by positivity
    have e1 : (-10 : ℝ) ≤ Real.logb 2 (v / 440) := by
      rw [Real.le_logb_iff_rpow_le (by norm_num) hq, two_pow_neg_ten]; linarith
    have e2 : Real.logb 2 (v / 440) ≤ 10 := by
      rw [Real.logb_le_iff_le_rpow (by norm_num) hq, two_pow_ten]; linarith
    refine ⟨by norm_num; linarith, by norm_num; linarith, ?_⟩
    rw [dPit_eq (by norm_num; linarith) (by norm_num; linarith), show 0.1 * Real.logb 2 (v / 440) * 10 = Real.logb 2 (v / 440) by ring,
      Real.rpow_logb (by norm_num) (by norm_num) hq]
    field_simp

/-- Every curve with its documented ranges. -/
theorem good_curve {G : Gain} (hG : G.Ok) (c : Curve) :
    Good (c.norm G) (c.denorm G) c.normRange.1 c.normRange.2 (c.physRange G).1 (c.physRange G).2 := by
  cases c <;> simp only [Curve.normRange, Curve.physRange]
  case id =>
    exact ⟨by simp [Curve.denorm], by simp [Curve.denorm], fun _ _ _ h _ => h, fun _ _ _ => rfl,
      fun v h1 h2 => ⟨by simpa [Curve.norm] using h1, by simpa [Curve.norm] using h2, rfl⟩⟩
  case vol => rw [Rat.cast_zero, Rat.cast_one]; exact good_db (l := -90) (h := 18) hG (by norm_num) (by norm_num) (by norm_num)
  case gain => rw [Rat.cast_zero, Rat.cast_one]; exact good_db (l := -24) (h := 24) hG (by norm_num) (by norm_num) (by norm_num)
  case driv => rw [Rat.cast_zero, Rat.cast_one]; exact good_db (l := 0) (h := 24) hG (by norm_num) (by norm_num) (by norm_num)
  case declick => rw [Rat.cast_zero, Rat.cast_one]; exact good_exp (l := 0) (h := 50) (by norm_num)
  case env => rw [Rat.cast_zero, Rat.cast_one]; exact good_exp (l := 0) (h := 1000) (by norm_num)
  case lfot => rw [Rat.cast_zero, Rat.cast_one]; exact good_exp6 (l := 0.1) (h := 300000) (by norm_num)
  case time => rw [Rat.cast_zero, Rat.cast_one]; exact good_exp (l := 0.5) (h := 5000) (by norm_num)
  case ftme => rw [Rat.cast_zero, Rat.cast_one]; exact good_exp (l := 0.1) (h := 1000) (by norm_num)
  case timz => rw [Rat.cast_zero, Rat.cast_one]; exact good_exp (l := 0) (h := 5000) (by norm_num)
  case vps => rw [Rat.cast_zero, Rat.cast_one]; exact good_lin (l := 0) (h := 20) (by norm_num)
  case pit => rw [Rat.cast_neg, Rat.cast_one]; exact good_pit
  case det =>
    refine ⟨by norm_num [Curve.denorm], by norm_num [Curve.denorm], ?_, ?_, ?_⟩
    · intro x y _ hxy _; simp only [Curve.denorm]; linarith
    · intro x _ _; simp only [Curve.norm, Curve.denorm]; ring
    · intro v h1 h2
      simp only [Curve.norm, Curve.denorm]
      refine ⟨?_, ?_, by ring⟩ <;> push_cast <;> linarith

/-! ## The table -/

theorem curves_match : ∀ k : Fin nodeTable.length, ∀ r ∈ (row k).params, r.n = r.d ∧ r.n.normRange.1 ≤ r.min ∧ r.min < r.max ∧
    r.max ≤ r.n.normRange.2 := by decide +kernel

theorem paramRow_mem {p : ParamId} {r : ParamRow} (h : p.paramRow = some r) : ∃ k, r ∈ (row k).params := by
  unfold ParamId.paramRow at h
  split at h
  · cases h
  · exact ⟨_, List.mem_of_find?_eq_some h⟩

/-- **C44** For every input parameter of every node and every value in the range of the parameter: normalising the denormalised value gives the
value back. -/
theorem norm_denorm (G : Gain) (hG : G.Ok) (p : ParamId) (lo hi : ℚ) (h : p.paramMinMax = some (lo, hi)) (x : ℝ) (h1 : lo ≤ x) (h2 : x ≤ hi) :
    p.norm G (p.denorm G x) = x := by
  obtain ⟨r, hr, he⟩ := Option.map_eq_some_iff.mp h
  injection he with e1 e2
  subst e1; subst e2
  obtain ⟨k, hk⟩ := paramRow_mem hr
  obtain ⟨m1, m2, -, m4⟩ := curves_match k r hk
  simp only [ParamId.norm, ParamId.denorm, hr, ← m1]
  exact (good_curve hG r.n).inv x (le_trans (by exact_mod_cast m2) h1) (le_trans h2 (by exact_mod_cast m4))

/-- **C44** Denormalising is strictly increasing over the range of the parameter. -/
theorem denorm_increasing (G : Gain) (hG : G.Ok) (p : ParamId) (lo hi : ℚ) (h : p.paramMinMax = some (lo, hi)) (x y : ℝ) (h1 : lo ≤ x)
    (hxy : x < y) (h2 : y ≤ hi) : p.denorm G x < p.denorm G y := by
  obtain ⟨r, hr, he⟩ := Option.map_eq_some_iff.mp h
  injection he with e1 e2
  subst e1; subst e2
  obtain ⟨k, hk⟩ := paramRow_mem hr
  obtain ⟨m1, m2, -, m4⟩ := curves_match k r hk
  simp only [ParamId.denorm, hr, ← m1]
  exact (good_curve hG r.n).mono x y (le_trans (by exact_mod_cast m2) h1) hxy (le_trans h2 (by exact_mod_cast m4))

/-- **C44** Denormalising maps the normalised range of a curve onto the documented physical range, end points to end points, and on the physical
range denormalising is inverse to normalising. -/
theorem denorm_range (G : Gain) (hG : G.Ok) (c : Curve) :
    c.denorm G c.normRange.1 = (c.physRange G).1 ∧ c.denorm G c.normRange.2 = (c.physRange G).2 ∧
    (∀ x : ℝ, c.normRange.1 ≤ x → x ≤ c.normRange.2 → (c.physRange G).1 ≤ c.denorm G x ∧ c.denorm G x ≤ (c.physRange G).2) ∧
    (∀ v : ℝ, (c.physRange G).1 ≤ v → v ≤ (c.physRange G).2 → c.normRange.1 ≤ c.norm G v ∧ c.norm G v ≤ c.normRange.2 ∧
      c.denorm G (c.norm G v) = v) := by
  have g := good_curve hG c
  refine ⟨g.lo, g.hi, fun x h1 h2 => ?_, g.onto⟩
  rw [← g.lo, ← g.hi]
  constructor
  · rcases h1.eq_or_lt with he | hlt
    · rw [he]
    · exact (g.mono _ _ (le_refl _) hlt h2).le
  · rcases h2.eq_or_lt with he | hlt
    · rw [he]
    · exact (g.mono _ _ h1 hlt (le_refl _)).le

/-- A parameter the theorems speak of, with the true decibel functions: `delay`'s `time` denormalises from 0.5 ms to 5 s. -/
example : ∃ p, (NodeId.fromStr "delay").inpParam "time" = some p ∧ p.paramMinMax = some (0, 1) ∧ p.denorm decibel 0 = 0.5 ∧
    p.denorm decibel 1 = 5000 ∧ p.norm decibel (p.denorm decibel (1 / 2)) = 1 / 2 := by
  have hp : (NodeId.fromStr "delay").inpParam "time" = some ⟨"time", NodeId.fromStr "delay", 2⟩ := by decide +kernel
  have hr : (ParamId.mk "time" (NodeId.fromStr "delay") 2).paramRow = some ⟨2, "time", .time, .time, .tms, 0, 1, 250⟩ := by decide +kernel
  have hm : (ParamId.mk "time" (NodeId.fromStr "delay") 2).paramMinMax = some (0, 1) := by decide +kernel
  refine ⟨_, hp, hm, ?_, ?_, norm_denorm decibel decibel_ok _ 0 1 hm _ (by norm_num) (by norm_num)⟩ <;>
    simp only [ParamId.denorm, hr, Curve.denorm, dExp] <;> norm_num

/-! ## C62: physical values outside of the range -/

/-- The curves whose normalisation takes the absolute value. -/
def folds : Curve → Bool
  | .declick | .env | .lfot | .time | .ftme | .timz | .vps => true
  | _ => false

/-- **C62** From the lower end of the physical range on, without upper bound, normalising is increasing and denormalising gives the value back. -/
theorem norm_above_partial (G : Gain) (c : Curve) (hc : folds c = true) (v w : ℝ) (h1 : (c.physRange G).1 ≤ v) (hvw : v < w) :
    c.norm G v < c.norm G w ∧ c.denorm G (c.norm G v) = v := by
  have lin : ∀ l h : ℝ, l < h → l ≤ v → nLin l h v < nLin l h w ∧ dLin l h (nLin l h v) = v := by
    intro l h hl hv
    have h0 : 0 < h - l := by linarith
    have e : ∀ x, l ≤ x → |(x - l) / (h - l)| = (x - l) / (h - l) := fun x hx => abs_of_nonneg (div_nonneg (by linarith) h0.le)
    simp only [nLin, dLin, e v hv, e w (by linarith)]
    exact ⟨(div_lt_div_iff_of_pos_right h0).mpr (by linarith), back hl⟩
  have exp : ∀ l h : ℝ, l < h → l ≤ v → nExp l h v < nExp l h w ∧ dExp l h (nExp l h v) = v := by
    intro l h hl hv
    have h0 : 0 < h - l := by linarith
    have n0 : ∀ x, l ≤ x → 0 ≤ (x - l) / (h - l) := fun x hx => div_nonneg (by linarith) h0.le
    simp only [nExp, dExp, abs_of_nonneg (n0 v hv), abs_of_nonneg (n0 w (by linarith)), Real.mul_self_sqrt (n0 v hv)]
    exact ⟨Real.sqrt_lt_sqrt (n0 v hv) ((div_lt_div_iff_of_pos_right h0).mpr (by linarith)), back hl⟩
  have exp6 : ∀ l h : ℝ, l < h → l ≤ v → nExp6 l h v < nExp6 l h w ∧ dExp6 l h (nExp6 l h v) = v := by
    intro l h hl hv
    have h0 : 0 < h - l := by linarith
    have n0 : ∀ x, l ≤ x → 0 ≤ (x - l) / (h - l) := fun x hx => div_nonneg (by linarith) h0.le
    simp only [nExp6, dExp6, abs_of_nonneg (n0 v hv), abs_of_nonneg (n0 w (by linarith))]
    refine ⟨Real.rpow_lt_rpow (n0 v hv) ((div_lt_div_iff_of_pos_right h0).mpr (by linarith)) (by norm_num), ?_⟩
    rw [← Real.rpow_mul (n0 v hv)]
    norm_num
    exact back hl
  cases c <;> simp only [folds, Bool.false_eq_true, Curve.physRange] at hc h1 ⊢ <;> simp only [Curve.norm, Curve.denorm]
  case declick => exact exp _ _ (by norm_num) h1
  case env => exact exp _ _ (by norm_num) h1
  case lfot => exact exp6 _ _ (by norm_num) h1
  case time => exact exp _ _ (by norm_num) h1
  case ftme => exact exp _ _ (by norm_num) h1
  case timz => exact exp _ _ (by norm_num) h1
  case vps => exact lin _ _ (by norm_num) h1

/-- **C62** (negation) Below the range the value is mirrored at the lower end: a value too small by `d` becomes one too large by `d`. -/
theorem below_range_mirrored (G : Gain) (c : Curve) (hc : folds c = true) (d : ℝ) (hd : 0 ≤ d) :
    c.denorm G (c.norm G ((c.physRange G).1 - d)) = (c.physRange G).1 + d := by
  have lin : ∀ l h : ℝ, l < h → dLin l h (nLin l h (l - d)) = l + d := by
    intro l h hl
    have h0 : 0 < h - l := by linarith
    have e : |(l - d - l) / (h - l)| = (l + d - l) / (h - l) := by
      rw [show (l - d - l) / (h - l) = -((l + d - l) / (h - l)) by ring, abs_neg, abs_of_nonneg (div_nonneg (by linarith) h0.le)]
    simp only [nLin, dLin, e, back hl]
  have exp : ∀ l h : ℝ, l < h → dExp l h (nExp l h (l - d)) = l + d := by
    intro l h hl
    have h0 : 0 < h - l := by linarith
    have e : |(l - d - l) / (h - l)| = (l + d - l) / (h - l) := by
      rw [show (l - d - l) / (h - l) = -((l + d - l) / (h - l)) by ring, abs_neg, abs_of_nonneg (div_nonneg (by linarith) h0.le)]
    simp only [nExp, dExp, e, Real.mul_self_sqrt (div_nonneg (show 0 ≤ l + d - l by linarith) h0.le), back hl]
  have exp6 : ∀ l h : ℝ, l < h → dExp6 l h (nExp6 l h (l - d)) = l + d := by
    intro l h hl
    have h0 : 0 < h - l := by linarith
    have e : |(l - d - l) / (h - l)| = (l + d - l) / (h - l) := by
      rw [show (l - d - l) / (h - l) = -((l + d - l) / (h - l)) by ring, abs_neg, abs_of_nonneg (div_nonneg (by linarith) h0.le)]
    simp only [nExp6, dExp6, e]
    rw [← Real.rpow_mul (div_nonneg (by linarith) h0.le)]
    norm_num
    have := back (v := l + d) hl
    simpa using this
  cases c <;> simp only [folds, Bool.false_eq_true, Curve.physRange] at hc ⊢ <;> simp only [Curve.norm, Curve.denorm]
  case declick => exact exp _ _ (by norm_num)
  case env => exact exp _ _ (by norm_num)
  case lfot => exact exp6 _ _ (by norm_num)
  case time => exact exp _ _ (by norm_num)
  case ftme => exact exp _ _ (by norm_num)
  case timz => exact exp _ _ (by norm_num)
  case vps => exact lin _ _ (by norm_num)

/-- **C62** (negation) Setting the time of a delay to 0 ms sets it to 1 ms. -/
theorem delay_time_zero (G : Gain) : ∃ p, (NodeId.fromStr "delay").inpParam "time" = some p ∧ p.denorm G (p.norm G 0) = 1 := by
  have hp : (NodeId.fromStr "delay").inpParam "time" = some ⟨"time", NodeId.fromStr "delay", 2⟩ := by decide +kernel
  have hr : (ParamId.mk "time" (NodeId.fromStr "delay") 2).paramRow = some ⟨2, "time", .time, .time, .tms, 0, 1, 250⟩ := by decide +kernel
  refine ⟨_, hp, ?_⟩
  have h := below_range_mirrored G .time rfl 0.5 (by norm_num)
  simp only [Curve.physRange] at h
  simp only [ParamId.denorm, ParamId.norm, hr]
  norm_num at h ⊢
  exact h

/-- **C62** Pitches outside of the range are moved to the nearest end. -/
theorem pitch_clamped (v : ℝ) : dPit (nPit v) = max (440 / 1024) (min (440 * 1024) v) := by
  by_cases h1 : v ≤ 440 / 1024
  · rw [max_eq_left (le_trans (min_le_right _ _) h1)]
    unfold dPit nPit
    have hq : (0 : ℝ) < max v 0.01 / 440 := div_pos (lt_max_of_lt_right (by norm_num)) (by norm_num)
    have e1 : Real.logb 2 (max v 0.01 / 440) ≤ -10 := by
      rw [Real.logb_le_iff_le_rpow (by norm_num) hq, two_pow_neg_ten]
      rw [div_le_iff₀ (by norm_num)]
      exact max_le (by linarith) (by norm_num)
    rw [min_eq_right (by norm_num; linarith), max_eq_left (by norm_num; linarith), two_pow_neg_ten]
    norm_num
  · by_cases h2 : v ≤ 440 * 1024
    · rw [min_eq_right h2, max_eq_right (by linarith)]
      exact (good_pit.onto v (by linarith) h2).2.2
    · rw [min_eq_left (by linarith), max_eq_right (by norm_num)]
      unfold dPit nPit
      rw [max_eq_left (a := v) (by norm_num at *; linarith)]
      have hq : 0 < v / 440 := div_pos (by linarith) (by norm_num)
      have e1 : 10 ≤ Real.logb 2 (v / 440) := by
        rw [Real.le_logb_iff_rpow_le (by norm_num) hq, two_pow_ten, le_div_iff₀ (by norm_num)]
        linarith
      rw [min_eq_left (by norm_num; linarith), max_eq_right (by norm_num), two_pow_ten]

/-! ## C63: default values -/

/-- The rows whose default is out of the range. -/
def badDefault (r : ParamRow) : Bool := decide (r.n = .pit ∧ r.dflt = 0)

/-- What is known about the defaults in the table. -/
def defOk (r : ParamRow) : Bool :=
  badDefault r ||
  match r.n with
  | .id => decide (r.min ≤ r.dflt ∧ r.dflt ≤ r.max)
  | .det => decide (r.min ≤ r.dflt / 120 ∧ r.dflt / 120 ≤ r.max)
  | .pit => decide (r.min = -1 ∧ (r.dflt = 440 ∧ 0 ≤ r.max ∨ r.dflt = 1000 ∧ 13 / 100 ≤ r.max ∨ r.dflt = 22050 ∧ 5647 / 10000 ≤ r.max))
  | .vol | .gain | .driv => decide (r.min = 0 ∧ r.max = 1 ∧ r.dflt = 1)
  | .declick => decide (r.min = 0 ∧ r.max = 1 ∧ 0 ≤ r.dflt ∧ r.dflt ≤ 50)
  | .env => decide (r.min = 0 ∧ r.max = 1 ∧ 0 ≤ r.dflt ∧ r.dflt ≤ 1000)
  | .lfot => decide (r.min = 0 ∧ r.max = 1 ∧ 1 ≤ r.dflt ∧ r.dflt ≤ 300000)
  | .time => decide (r.min = 0 ∧ r.max = 1 ∧ 1 ≤ r.dflt ∧ r.dflt ≤ 5000)
  | .ftme => decide (r.min = 0 ∧ r.max = 1 ∧ 1 ≤ r.dflt ∧ r.dflt ≤ 1000)
  | .timz => decide (r.min = 0 ∧ r.max = 1 ∧ 0 ≤ r.dflt ∧ r.dflt ≤ 5000)
  | .vps => decide (r.min = 0 ∧ r.max = 1 ∧ 0 ≤ r.dflt ∧ r.dflt ≤ 20)

theorem defaults_ok : ∀ k : Fin nodeTable.length, ∀ r ∈ (row k).params, defOk r = true := by decide +kernel

theorem bad_only_pverb : ∀ k : Fin nodeTable.length, ∀ r ∈ (row k).params, badDefault r = true → (row k).name = "pverb" ∧ (r.name = "ihpf" ∨ r.name = "rhpf") := by
  decide +kernel

theorem pit_le {v b : ℝ} (hv : 0.01 ≤ v) (h : v / 440 ≤ (2 : ℝ) ^ (b * 10)) : nPit v ≤ b := by
  unfold nPit
  rw [max_eq_left hv]
  have hq : 0 < v / 440 := div_pos (by norm_num at *; linarith) (by norm_num)
  have := (Real.logb_le_iff_le_rpow (by norm_num) hq).mpr h
  norm_num; linarith

theorem pit_ge {v b : ℝ} (hv : 0.01 ≤ v) (h : (2 : ℝ) ^ (b * 10) ≤ v / 440) : b ≤ nPit v := by
  unfold nPit
  rw [max_eq_left hv]
  have hq : 0 < v / 440 := div_pos (by norm_num at *; linarith) (by norm_num)
  have := (Real.le_logb_iff_rpow_le (by norm_num) hq).mpr h
  norm_num; linarith

/-- `2 ^ (n / m)` bounds a number if `2 ^ n` bounds its `m`-th power. -/
theorem le_two_rpow {a : ℝ} (ha : 0 ≤ a) (n m : ℕ) (hm : 0 < m) (h : a ^ m ≤ 2 ^ n) : a ≤ (2 : ℝ) ^ ((n : ℝ) / m) := by
  have h2 : ((2 : ℝ) ^ ((n : ℝ) / m)) ^ m = 2 ^ n := by
    rw [← Real.rpow_natCast, ← Real.rpow_mul (by norm_num), div_mul_cancel₀ _ (by exact_mod_cast hm.ne'), Real.rpow_natCast]
  exact le_of_pow_le_pow_left₀ hm.ne' (Real.rpow_nonneg (by norm_num) _) (by rw [h2]; exact h)

theorem pit_440 : nPit 440 = 0 := by unfold nPit; rw [max_eq_left (by norm_num)]; norm_num

theorem pit_1000 : 0 ≤ nPit 1000 ∧ nPit 1000 ≤ 0.13 := by
  constructor
  · exact pit_ge (by norm_num) (by norm_num)
  · refine pit_le (by norm_num) ?_
    have := le_two_rpow (a := 1000 / 440) (by norm_num) 13 10 (by norm_num) (by norm_num)
    norm_num at this ⊢; exact this

theorem pit_22050 : 0 ≤ nPit 22050 ∧ nPit 22050 ≤ 0.5648 := by
  constructor
  · exact pit_ge (by norm_num) (by norm_num)
  · refine pit_le (by norm_num) ?_
    have := le_two_rpow (a := 22050 / 440) (by norm_num) 5648 1000 (by norm_num) (by
      rw [div_pow, div_le_iff₀ (by positivity)]
      exact_mod_cast (by decide +kernel : (22050 : ℕ) ^ 1000 ≤ 2 ^ 5648 * 440 ^ 1000))
    norm_num at this ⊢; exact this

/-- **C63** The default of every input parameter lies in the range of the parameter (up to 1/10000: the ends of the pitch ranges are rounded
decimals), except `ihpf` and `rhpf` of the reverb. -/
theorem default_in_range_partial (G : Gain) (hG : G.Ok) (p : ParamId) (lo hi : ℚ) (h : p.paramMinMax = some (lo, hi))
    (hp : p.node.name ≠ "pverb" ∨ (∀ i, p.node.inpNameByIdx i = some "ihpf" ∨ p.node.inpNameByIdx i = some "rhpf" → p.idx ≠ i)) :
    lo - 0.0001 ≤ p.normDef G ∧ p.normDef G ≤ hi + 0.0001 := by
  obtain ⟨r, hr, he⟩ := Option.map_eq_some_iff.mp h
  injection he with e1 e2
  subst e1; subst e2
  have hgood : badDefault r = false := by
    by_contra hb
    simp only [Bool.not_eq_false] at hb
    obtain ⟨nm, nd, ix⟩ := p
    cases nd with
    | nop => simp [ParamId.paramRow] at hr
    | node k j =>
      simp only [ParamId.paramRow] at hr
      obtain ⟨b1, b2⟩ := bad_only_pverb k r (List.mem_of_find?_eq_some hr) hb
      rcases hp with hp | hp
      · exact hp b1
      · refine hp ix ?_ rfl
        simp only [NodeId.inpNameByIdx, hr, Option.some.injEq]
        exact b2
  obtain ⟨k, hk⟩ := paramRow_mem hr
  have hd := defaults_ok k r hk
  simp only [ParamId.normDef, hr]
  obtain ⟨idx, name, n, d, rr, mn, mx, df⟩ := r
  simp only [defOk, hgood, Bool.false_or] at hd
  have ranged : ∀ c : Curve, c.normRange = (0, 1) → mn = 0 → mx = 1 → (c.physRange G).1 ≤ (df : ℝ) → (df : ℝ) ≤ (c.physRange G).2 →
      (mn : ℝ) - 0.0001 ≤ c.norm G df ∧ c.norm G df ≤ mx + 0.0001 := by
    intro c hc h1 h2 h3 h4
    have := (good_curve hG c).onto df h3 h4
    rw [hc] at this
    subst h1; subst h2
    norm_num at this ⊢
    exact ⟨by linarith, by linarith⟩
  cases n <;> simp only [decide_eq_true_eq] at hd
  case id =>
    have a1 : (mn : ℝ) ≤ df := by exact_mod_cast hd.1
    have a2 : (df : ℝ) ≤ mx := by exact_mod_cast hd.2
    simp only [Curve.norm]
    norm_num
    exact ⟨by linarith, by linarith⟩
  case det =>
    have a1 : (mn : ℝ) ≤ df / 120 := by exact_mod_cast hd.1
    have a2 : (df : ℝ) / 120 ≤ mx := by exact_mod_cast hd.2
    simp only [Curve.norm]
    norm_num
    exact ⟨by linarith, by linarith⟩
  case pit =>
    obtain ⟨rfl, hd⟩ := hd
    simp only [Curve.norm]
    rcases hd with ⟨rfl, hm⟩ | ⟨rfl, hm⟩ | ⟨rfl, hm⟩
    · have hm : (0 : ℝ) ≤ mx := by exact_mod_cast hm
      push_cast
      rw [pit_440]
      norm_num
      linarith
    · have hm : ((13 / 100 : ℚ) : ℝ) ≤ mx := by exact_mod_cast hm
      have := pit_1000
      push_cast at hm ⊢
      norm_num at this hm ⊢
      exact ⟨by linarith, by linarith⟩
    · have hm : ((5647 / 10000 : ℚ) : ℝ) ≤ mx := by exact_mod_cast hm
      have := pit_22050
      push_cast at hm ⊢
      norm_num at this hm ⊢
      exact ⟨by linarith, by linarith⟩
  case vol =>
    obtain ⟨h1, h2, rfl⟩ := hd
    refine ranged .vol rfl h1 h2 ?_ ?_ <;> simp only [Curve.physRange, Rat.cast_one, ← hG.zero]
    · exact (hG.mono _ _ (by norm_num) (by norm_num) (by norm_num)).le
    · exact (hG.mono _ _ (by norm_num) (by norm_num) (by norm_num)).le
  case gain =>
    obtain ⟨h1, h2, rfl⟩ := hd
    refine ranged .gain rfl h1 h2 ?_ ?_ <;> simp only [Curve.physRange, Rat.cast_one, ← hG.zero]
    · exact (hG.mono _ _ (by norm_num) (by norm_num) (by norm_num)).le
    · exact (hG.mono _ _ (by norm_num) (by norm_num) (by norm_num)).le
  case driv =>
    obtain ⟨h1, h2, rfl⟩ := hd
    refine ranged .driv rfl h1 h2 ?_ ?_ <;> simp only [Curve.physRange, Rat.cast_one]
    · rw [hG.zero]
    · rw [← hG.zero]; exact (hG.mono _ _ (by norm_num) (by norm_num) (by norm_num)).le
  all_goals
    obtain ⟨h1, h2, h3, h4⟩ := hd
    refine ranged _ rfl h1 h2 ?_ ?_ <;> simp only [Curve.physRange]
    · first
      | exact_mod_cast h3
      | (have h3 : (1 : ℝ) ≤ df := by exact_mod_cast h3
         norm_num
         linarith)
    · exact_mod_cast h4

/-- **C63** (negation) The default 0 Hz of the high pass filters of the reverb is below the range of the parameter, which begins at -1. -/
theorem reverb_default_out_of_range (G : Gain) : ∃ p, (NodeId.fromStr "pverb").inpParam "ihpf" = some p ∧
    p.paramMinMax = some (-1, 5647131 / 10000000) ∧ p.normDef G < -1.5 ∧ p.norm G (p.denorm G (p.normDef G)) = -1 := by
  have hp : (NodeId.fromStr "pverb").inpParam "ihpf" = some ⟨"ihpf", NodeId.fromStr "pverb", 6⟩ := by decide +kernel
  have hm : (ParamId.mk "ihpf" (NodeId.fromStr "pverb") 6).paramMinMax = some (-1, 5647131 / 10000000) := by decide +kernel
  have hr : (ParamId.mk "ihpf" (NodeId.fromStr "pverb") 6).paramRow = some ⟨6, "ihpf", .pit, .pit, .fq, -1, 5647131 / 10000000, 0⟩ := by decide +kernel
  refine ⟨_, hp, hm, ?_, ?_⟩ <;> simp only [ParamId.normDef, ParamId.norm, ParamId.denorm, hr, Curve.norm, Curve.denorm, Rat.cast_zero]
  · unfold nPit
    rw [max_eq_right (by norm_num)]
    have : Real.logb 2 ((0.01 : ℝ) / 440) < -15 := by
      rw [Real.logb_lt_iff_lt_rpow (by norm_num) (by norm_num), Real.rpow_neg (by norm_num)]
      norm_num
    norm_num at this ⊢
    linarith
  · rw [pitch_clamped, min_eq_right (by norm_num), max_eq_left (by norm_num)]
    have h := good_pit.inv (-1) (le_refl _) (by norm_num)
    rwa [good_pit.lo] at h

/-- A parameter that meets the hypotheses: the cutoff frequency of a filter, 1000 Hz. -/
example : ∃ p, (NodeId.fromStr "sfilter").inpParam "freq" = some p ∧ p.paramMinMax = some (-1, 5647131 / 10000000) ∧ p.node.name ≠ "pverb" := by
  refine ⟨⟨"freq", NodeId.fromStr "sfilter", 1⟩, ?_⟩
  decide +kernel

end HexoDSP.NormProps
