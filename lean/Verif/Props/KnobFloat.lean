import Verif.Spec.KnobFloat
import Verif.Props.NormFloat
import Verif.Props.FormFMFloat
/-!
# C143: where knobs lead with `f32` numbers
-/

namespace HexoDSP.KnobFloatProps
open HexoDSP.SinSpec HexoDSP.FloatLemmas HexoDSP.FloatSeq.Lemmas HexoDSP.NormFloatLemmas HexoDSP.Table HexoDSP.KnobSpec
open HexoDSP.FormFMFloatProps (rn_mono unit one32 int_f32)
open HexoDSP.NormFloatProps (tenth)

variable {rn : ℚ → ℚ}

theorem dExp_zero (hr : Nearest rn) (hi x : ℚ) : dExpF rn 0 hi x = rn (hi * rn (x * x)) := by
  unfold dExpF
  rw [zero_mul, zero_rn hr, zero_add, rn_fix hr (hr _).1]

theorem dLin_zero (hr : Nearest rn) (hi x : ℚ) : dLinF rn 0 hi x = rn (hi * x) := by
  unfold dLinF
  rw [zero_mul, zero_rn hr, zero_add, rn_fix hr (hr _).1]

theorem sq_unit {x : ℚ} (h0 : 0 ≤ x) (h1 : x ≤ 1) : 0 ≤ x * x ∧ x * x ≤ 1 := ⟨mul_nonneg h0 h0, by nlinarith⟩

/-- The two ends mixed with rounding stay between the ends. -/
theorem mix (hr : Nearest rn) {lo hi y : ℚ} {j : ℤ} (j1 : -125 ≤ j) (j2 : j ≤ 100) (flo : F32 lo) (fhi : F32 hi) (l0 : 0 < lo) (l1 : lo ≤ 1 / 2) (h1 : 256 ≤ hi)
    (hj : hi ≤ (2 : ℚ) ^ j) (hgap : (2 : ℚ) ^ (j - 25) + 1 / 2 ^ 25 ≤ (hi - lo) / 2 ^ 24) (hF : F32 y) (hy0 : 0 ≤ y) (hy1 : y ≤ 1) :
    lo ≤ rn (lo * rn (1 - y)) + rn (hi * y) ∧ rn (lo * rn (1 - y)) + rn (hi * y) ≤ hi ∧
      |rn (lo * rn (1 - y)) + rn (hi * y) - (lo * (1 - y) + hi * y)| ≤ (2 : ℚ) ^ (j - 25) + 1 / 2 ^ 25 := by
  obtain ⟨z0, z1⟩ := unit hr (x := 1 - y) ⟨by linarith, by linarith⟩
  have ez := rn_err hr (x := 1 - y) (j := 0) (by norm_num) (by norm_num) (by rw [abs_of_nonneg (by linarith)]; norm_num; linarith)
  have lz0 : 0 ≤ lo * rn (1 - y) := mul_nonneg l0.le z0
  have lz1 : lo * rn (1 - y) ≤ 1 / 2 := by nlinarith
  have el := rn_err hr (x := lo * rn (1 - y)) (j := -1) (by norm_num) (by norm_num) (by rw [abs_of_nonneg lz0]; norm_num; norm_num at lz1; exact lz1)
  have hy : hi * y ≤ hi := by nlinarith
  have hy00 : 0 ≤ hi * y := by positivity
  have eh := rn_err hr (x := hi * y) (j := j) j1 (by omega) (by rw [abs_of_nonneg hy00]; exact hy.trans hj)
  norm_num at ez el
  have hmul : |lo * rn (1 - y) - lo * (1 - y)| ≤ 1 / 2 * (1 / 33554432) := by
    rw [← mul_sub, abs_mul, abs_of_pos l0]
    exact mul_le_mul l1 ez (abs_nonneg _) (by norm_num)
  have near : |rn (lo * rn (1 - y)) + rn (hi * y) - (lo * (1 - y) + hi * y)| ≤ (2 : ℚ) ^ (j - 25) + 1 / 2 ^ 25 := by
    rw [show rn (lo * rn (1 - y)) + rn (hi * y) - (lo * (1 - y) + hi * y) =
      (rn (lo * rn (1 - y)) - lo * rn (1 - y)) + ((lo * rn (1 - y) - lo * (1 - y)) + (rn (hi * y) - hi * y)) by ring]
    refine (abs_add_le _ _).trans ((add_le_add el ((abs_add_le _ _).trans (add_le_add hmul eh))).trans ?_)
    generalize (2 : ℚ) ^ (j - 25) = g
    norm_num; linarith
  refine ⟨?_, ?_, near⟩
  · rcases lt_or_ge y (1 / 2 ^ 26) with c | c
    · have : rn (1 - y) = 1 := by
        refine le_antisymm z1 ?_
        by_contra hn
        have g := gap_below_one (hr (1 - y)).1 (not_le.1 hn)
        have n := (hr (1 - y)).2 1 one32
        rw [show (1 : ℚ) - (1 - y) = y by ring, abs_of_nonneg hy0] at n
        have := (abs_le.1 n).1
        norm_num at c g; linarith
      rw [this, mul_one, rn_fix hr flo]
      linarith [rn_ge hr f32_zero hy00]
    · have c18 : 1 / 2 ^ 18 ≤ hi * y := by
        have := mul_le_mul h1 c (by norm_num) (by linarith)
        norm_num at this ⊢; linarith
      have low : (2 : ℚ) ^ (-126 : ℤ) ≤ 1 / 2 ^ 18 := by norm_num
      have high : (2 : ℚ) ^ j < (2 : ℚ) ^ (127 : ℤ) := zpow_lt_zpow_right₀ (by norm_num) (by omega)
      have rel := rn_rel hr (x := hi * y) (by rw [abs_of_nonneg hy00]; exact low.trans c18) (by rw [abs_of_nonneg hy00]; exact lt_of_le_of_lt (hy.trans hj) high)
      rw [abs_of_nonneg hy00] at rel
      have r1 := (abs_le.1 rel).1
      have r2 : 128 * y ≤ rn (hi * y) := by
        have : 256 * y ≤ hi * y := mul_le_mul_of_nonneg_right h1 hy0
        norm_num at r1; linarith
      have m1 := (abs_le.1 hmul).1
      have m2 := (abs_le.1 el).1
      have m3 : lo * (1 - y) = lo - lo * y := by ring
      have m4 : lo * y ≤ 1 / 2 * y := mul_le_mul_of_nonneg_right l1 hy0
      norm_num at c m1 m2
      linarith
  · rcases eq_or_lt_of_le hy1 with rfl | c
    · rw [sub_self, zero_rn hr, mul_zero, zero_rn hr, mul_one, rn_fix hr fhi]; linarith
    · have g := gap_below_one hF c
      have n := (abs_le.1 near).2
      have : (hi - lo) / 2 ^ 24 ≤ (hi - lo) * (1 - y) := by
        rw [div_eq_mul_one_div]
        exact mul_le_mul_of_nonneg_left (by linarith) (by linarith)
      have e : lo * (1 - y) + hi * y = hi - (hi - lo) * (1 - y) := by ring
      rw [e] at n
      linarith

theorem row_denorm {p : ParamId} {r : ParamRow} (h : p.paramRow = some r) (x : ℚ) : p.denormF rn x = (r.n.denormF rn).map (· x) := by
  unfold ParamId.denormF
  rw [h, ← NormFloatProps.row_curve h]

theorem f_tenth : F32 (13421773 / 134217728) := by
  have := f32_scaled (m := 13421773) (e := -27) (by norm_num) (by norm_num) (by norm_num)
  norm_num at this ⊢; exact this

theorem f_half : F32 (1 / 2) := by
  have := f32_scaled (m := 1) (e := -1) (by norm_num) (by norm_num) (by norm_num)
  norm_num at this ⊢; exact this

/-- A curve that starts above zero. -/
theorem above (hr : Nearest rn) {lo hi x : ℚ} {j : ℤ} (j1 : -125 ≤ j) (j2 : j ≤ 100) (flo : F32 lo) (fhi : F32 hi) (l0 : 0 < lo) (l1 : lo ≤ 1 / 2) (h1 : 256 ≤ hi)
    (hj : hi ≤ (2 : ℚ) ^ j) (hj' : (2 : ℚ) ^ j ≤ 2 * hi) (hgap : (2 : ℚ) ^ (j - 25) + 1 / 2 ^ 25 ≤ (hi - lo) / 2 ^ 24) (hx0 : 0 ≤ x) (hx1 : x ≤ 1) :
    lo ≤ dExpF rn lo hi x ∧ dExpF rn lo hi x ≤ hi ∧ |dExpF rn lo hi x - (lo + (hi - lo) * x ^ 2)| ≤ hi / 2 ^ 22 := by
  obtain ⟨s0, s1⟩ := sq_unit hx0 hx1
  obtain ⟨y0, y1⟩ := unit hr ⟨s0, s1⟩
  obtain ⟨a, b, c⟩ := mix hr j1 j2 flo fhi l0 l1 h1 hj hgap (hr (x * x)).1 y0 y1
  refine ⟨rn_ge hr flo a, rn_le hr fhi b, ?_⟩
  have e1 := rn_err hr (x := x * x) (j := 0) (by norm_num) (by norm_num) (by rw [abs_of_nonneg s0]; norm_num; exact s1)
  norm_num at e1
  have e2 := rn_err hr (x := rn (lo * rn (1 - rn (x * x))) + rn (hi * rn (x * x))) (j := j) j1 (by omega) (by rw [abs_of_nonneg (l0.le.trans a)]; exact b.trans hj)
  have e3 : |lo * (1 - rn (x * x)) + hi * rn (x * x) - (lo + (hi - lo) * x ^ 2)| ≤ hi * (1 / 33554432) := by
    rw [show lo * (1 - rn (x * x)) + hi * rn (x * x) - (lo + (hi - lo) * x ^ 2) = (hi - lo) * (rn (x * x) - x * x) by ring, abs_mul, abs_of_nonneg (by linarith)]
    exact mul_le_mul (by linarith) e1 (abs_nonneg _) (by linarith)
  have e4 : (2 : ℚ) ^ (j - 25) ≤ 2 * hi / 2 ^ 25 := by
    rw [zpow_sub₀ (by norm_num)]
    exact div_le_div_of_nonneg_right hj' (by norm_num)
  unfold dExpF
  refine (abs_sub_le _ _ _).trans ((add_le_add e2 ((abs_sub_le _ _ _).trans (add_le_add c e3))).trans ?_)
  generalize (2 : ℚ) ^ (j - 25) = g at *
  norm_num at e4 ⊢; linarith

/-- A curve that starts at zero. -/
theorem zero (hr : Nearest rn) {hi y b : ℚ} {j : ℤ} (j1 : -125 ≤ j) (j2 : j ≤ 100) (fhi : F32 hi) (h1 : 0 < hi) (hj : hi ≤ (2 : ℚ) ^ j) (hj' : (2 : ℚ) ^ j ≤ 2 * hi)
    (hy0 : 0 ≤ y) (hy1 : y ≤ 1) (hb : |y - b| ≤ 1 / 2 ^ 25) : 0 ≤ rn (hi * y) ∧ rn (hi * y) ≤ hi ∧ |rn (hi * y) - (0 + (hi - 0) * b)| ≤ hi / 2 ^ 22 := by
  have a : 0 ≤ hi * y := by positivity
  have b' : hi * y ≤ hi := by nlinarith
  refine ⟨rn_ge hr f32_zero a, rn_le hr fhi b', ?_⟩
  have e2 := rn_err hr (x := hi * y) (j := j) j1 (by omega) (by rw [abs_of_nonneg a]; exact b'.trans hj)
  have e3 : |hi * y - (0 + (hi - 0) * b)| ≤ hi * (1 / 2 ^ 25) := by
    rw [show hi * y - (0 + (hi - 0) * b) = hi * (y - b) by ring, abs_mul, abs_of_pos h1]
    exact mul_le_mul_of_nonneg_left hb h1.le
  have e4 : (2 : ℚ) ^ (j - 25) ≤ 2 * hi / 2 ^ 25 := by
    rw [zpow_sub₀ (by norm_num)]
    exact div_le_div_of_nonneg_right hj' (by norm_num)
  refine (abs_sub_le _ _ _).trans ((add_le_add e2 e3).trans ?_)
  generalize (2 : ℚ) ^ (j - 25) = g at *
  norm_num at e4 ⊢; linarith

/-- **C143** Wherever a knob of a time, or the knob `vs` of `vosc`, stands from 0 to 1: with `f32` arithmetic the value is never below the lower and never above
the upper end of the range, and it is the value that the curve asks for, up to `2^-22` of the upper end. -/
theorem in_range (hr : Nearest rn) (p : ParamId) (r : ParamRow) (h : p.paramRow = some r) (lo hi : ℚ) (he : ends r.n = some (lo, hi)) (x v : ℚ) (hx0 : 0 ≤ x)
    (hx1 : x ≤ 1) (hv : p.denormF rn x = some v) : lo ≤ v ∧ v ≤ hi ∧ |v - (lo + (hi - lo) * bend r.n x)| ≤ hi / 2 ^ 22 := by
  rw [row_denorm h] at hv
  obtain ⟨s0, s1⟩ := sq_unit hx0 hx1
  obtain ⟨y0, y1⟩ := unit hr ⟨s0, s1⟩
  have e1 := rn_err hr (x := x * x) (j := 0) (by norm_num) (by norm_num) (by rw [abs_of_nonneg s0]; norm_num; exact s1)
  have e1 : |rn (x * x) - x ^ 2| ≤ 1 / 2 ^ 25 := by rw [pow_two]; norm_num at e1 ⊢; exact e1
  cases hn : r.n <;> rw [hn] at hv he <;> simp only [ends, Option.some.injEq, Prod.mk.injEq, reduceCtorEq] at he <;> obtain ⟨rfl, rfl⟩ := he <;>
    simp only [Curve.denormF, Option.map_some, Option.some.injEq] at hv <;> subst hv
  · rw [dExp_zero hr]
    exact zero hr (j := 6) (by norm_num) (by norm_num) (by simpa using int_f32 (m := 50) (by norm_num)) (by norm_num) (by norm_num) (by norm_num) y0 y1 e1
  · rw [dExp_zero hr]
    exact zero hr (j := 10) (by norm_num) (by norm_num) (by simpa using int_f32 (m := 1000) (by norm_num)) (by norm_num) (by norm_num) (by norm_num) y0 y1 e1
  · exact above hr (j := 13) (by norm_num) (by norm_num) f_half (by simpa using int_f32 (m := 5000) (by norm_num)) (by norm_num) (by norm_num) (by norm_num) (by norm_num)
      (by norm_num) (by norm_num) hx0 hx1
  · rw [tenth hr]
    exact above hr (j := 10) (by norm_num) (by norm_num) f_tenth (by simpa using int_f32 (m := 1000) (by norm_num)) (by norm_num) (by norm_num) (by norm_num) (by norm_num)
      (by norm_num) (by norm_num) hx0 hx1
  · rw [dExp_zero hr]
    exact zero hr (j := 13) (by norm_num) (by norm_num) (by simpa using int_f32 (m := 5000) (by norm_num)) (by norm_num) (by norm_num) (by norm_num) y0 y1 e1
  · rw [dLin_zero hr]
    exact zero hr (j := 5) (by norm_num) (by norm_num) (by simpa using int_f32 (m := 20) (by norm_num)) (by norm_num) (by norm_num) (by norm_num) hx0 hx1 (by simp [bend])

/-- **C143** At its ends the knob has exactly the values of the ends. -/
theorem at_ends (hr : Nearest rn) (p : ParamId) (r : ParamRow) (h : p.paramRow = some r) (lo hi : ℚ) (he : ends r.n = some (lo, hi)) :
    p.denormF rn 0 = some lo ∧ p.denormF rn 1 = some hi := by
  have fi : ∀ {m : ℤ}, |m| ≤ 2 ^ 24 → rn m = m := fun hm => rn_fix hr (int_f32 hm)
  have f50 : rn 50 = 50 := by simpa using fi (m := 50) (by norm_num)
  have f20 : rn 20 = 20 := by simpa using fi (m := 20) (by norm_num)
  have f1000 : rn 1000 = 1000 := by simpa using fi (m := 1000) (by norm_num)
  have f5000 : rn 5000 = 5000 := by simpa using fi (m := 5000) (by norm_num)
  have f1 : rn 1 = 1 := rn_fix hr one32
  have f0 : rn 0 = 0 := zero_rn hr
  have fh : rn (1 / 2) = 1 / 2 := rn_fix hr f_half
  have ft : rn (13421773 / 134217728) = 13421773 / 134217728 := rn_fix hr f_tenth
  rw [row_denorm h, row_denorm h]
  cases hn : r.n <;> rw [hn] at he <;> simp only [ends, Option.some.injEq, Prod.mk.injEq, reduceCtorEq] at he <;> obtain ⟨rfl, rfl⟩ := he <;>
    simp only [Curve.denormF, Option.map_some, dExpF, dLinF, tenth hr, mul_zero, mul_one, sub_zero, sub_self, add_zero, zero_add, f0, f1, f20, f50, f1000, f5000,
      fh, ft, and_self]

/-- **C143** A detuning knob, from one end (the `f32` number next to -0.2) to the other: never more than 24 semitones down or up, exactly 24 at the ends, and up to
`2^-20` of a semitone what the curve asks for. -/
theorem detune_range (hr : Nearest rn) (p : ParamId) (r : ParamRow) (h : p.paramRow = some r) (hd : r.n = .det) (x v : ℚ) (hx : |x| ≤ rn (1 / 5))
    (hv : p.denormF rn x = some v) : |v| ≤ 24 ∧ |v - 120 * x| ≤ 1 / 2 ^ 20 ∧ p.denormF rn (rn (1 / 5)) = some 24 := by
  have e5 : rn (1 / 5) = 13421773 / 67108864 := by
    have := rn_unique hr (x := 1 / 5) (m := 13421773) (e := -26) (by norm_num) (by norm_num) (by norm_num) (by norm_num) (by norm_num [abs_lt, abs_of_nonneg, abs_of_nonpos])
    rw [this]; norm_num
  have e24 : rn (13421773 / 67108864 * 120) = 24 := by
    have := rn_unique hr (x := 13421773 / 67108864 * 120) (m := 12582912) (e := -19) (by norm_num) (by norm_num) (by norm_num) (by norm_num)
      (by norm_num [abs_lt, abs_of_nonneg, abs_of_nonpos])
    rw [this]; norm_num
  have e24' : rn (-(13421773 / 67108864 * 120)) = -24 := by
    have := rn_unique hr (x := -(13421773 / 67108864 * 120)) (m := -12582912) (e := -19) (by norm_num) (by norm_num) (by norm_num) (by norm_num)
      (by norm_num [abs_lt, abs_of_nonneg, abs_of_nonpos])
    rw [this]; norm_num
  have vd : ∀ y, p.denormF rn y = some (rn (y * 120)) := fun y => by rw [row_denorm h, hd]; rfl
  rw [vd, Option.some.injEq] at hv
  subst hv
  rw [e5] at hx ⊢
  obtain ⟨x1, x2⟩ := abs_le.1 hx
  refine ⟨abs_le.2 ⟨?_, ?_⟩, ?_, by rw [vd, e24]⟩
  · rw [← e24']; exact rn_mono hr (by linarith)
  · rw [← e24]; exact rn_mono hr (by linarith)
  · have := rn_err hr (x := x * 120) (j := 5) (by norm_num) (by norm_num) (by rw [abs_le]; norm_num; constructor <;> linarith)
    rw [mul_comm 120 x]
    norm_num at this ⊢; exact this

/-- **C143** A knob that is turned up does not lower the value; for all these knobs except the times that start above zero, and also for a detuning and for the
knobs without a curve. -/
theorem rises_partial (hr : Nearest rn) (p : ParamId) (r : ParamRow) (h : p.paramRow = some r) (ht : r.n ≠ .time) (hf : r.n ≠ .ftme) (x y v w : ℚ)
    (hxy : x ≤ y) (hx : r.n ≠ .det → r.n ≠ .id → 0 ≤ x) (hv : p.denormF rn x = some v) (hw : p.denormF rn y = some w) : v ≤ w := by
  rw [row_denorm h] at hv hw
  have key : ∀ (hi : ℚ), 0 ≤ hi → 0 ≤ x → dExpF rn 0 hi x ≤ dExpF rn 0 hi y := fun hi h0 hx => by
    rw [dExp_zero hr, dExp_zero hr]
    exact rn_mono hr (mul_le_mul_of_nonneg_left (rn_mono hr (mul_le_mul hxy hxy hx (hx.trans hxy))) h0)
  cases hn : r.n <;> rw [hn] at hv hw ht hf hx <;> simp only [Curve.denormF, Option.map_some, Option.map_none, Option.some.injEq, reduceCtorEq] at hv hw <;>
    first | (exact absurd rfl ht) | (exact absurd rfl hf) | skip
  all_goals subst hv hw
  all_goals first
    | exact hxy
    | exact key _ (by norm_num) (hx (by simp) (by simp))
    | (rw [dLin_zero hr, dLin_zero hr]; exact rn_mono hr (by linarith))
    | exact rn_mono hr (by linarith)

/-- **C143** What is missing: the time of a comb filter may fall, by one unit in the last place, when its knob is turned up. -/
theorem dips (hr : Nearest rn) : ∃ v w : ℚ, NormFloatProps.exComb.denormF rn (642119 / 2147483648) = some v ∧ NormFloatProps.exComb.denormF rn (10273905 / 34359738368) = some w ∧
    (642119 / 2147483648 : ℚ) < 10273905 / 34359738368 ∧ w < v := by
  obtain ⟨r, h, hn⟩ := NormFloatProps.exComb_row
  have u : ∀ (x : ℚ) (m e : ℤ), 2 ^ 23 < |m| → |m| < 2 ^ 24 → -149 ≤ e → e ≤ 104 → 2 * |x - m * (2 : ℚ) ^ e| < (2 : ℚ) ^ e → rn x = m * (2 : ℚ) ^ e :=
    fun x m e a b c d f => rn_unique hr a b c d f
  have a1 : rn ((642119 / 2147483648) * (642119 / 2147483648)) = (6291455 / 70368744177664) := by
    have := u ((642119 / 2147483648) * (642119 / 2147483648)) (12582910) (-47) (by norm_num) (by norm_num) (by norm_num) (by norm_num) (by norm_num [abs_lt, abs_of_nonneg, abs_of_nonpos])
    rw [this]; norm_num
  have a2 : rn (1 - (6291455 / 70368744177664)) = (16777215 / 16777216) := by
    have := u (1 - (6291455 / 70368744177664)) (16777215) (-24) (by norm_num) (by norm_num) (by norm_num) (by norm_num) (by norm_num [abs_lt, abs_of_nonneg, abs_of_nonpos])
    rw [this]; norm_num
  have a3 : rn ((13421773 / 134217728) * (16777215 / 16777216)) = (3355443 / 33554432) := by
    have := u ((13421773 / 134217728) * (16777215 / 16777216)) (13421772) (-27) (by norm_num) (by norm_num) (by norm_num) (by norm_num) (by norm_num [abs_lt, abs_of_nonneg, abs_of_nonpos])
    rw [this]; norm_num
  have a4 : rn (1000 * (6291455 / 70368744177664)) = (6143999 / 68719476736) := by
    have := u (1000 * (6291455 / 70368744177664)) (12287998) (-37) (by norm_num) (by norm_num) (by norm_num) (by norm_num) (by norm_num [abs_lt, abs_of_nonneg, abs_of_nonpos])
    rw [this]; norm_num
  have a5 : rn ((3355443 / 33554432) + (6143999 / 68719476736)) = (3358443 / 33554432) := by
    have := u ((3355443 / 33554432) + (6143999 / 68719476736)) (13433772) (-27) (by norm_num) (by norm_num) (by norm_num) (by norm_num) (by norm_num [abs_lt, abs_of_nonneg, abs_of_nonpos])
    rw [this]; norm_num
  have b1 : rn ((10273905 / 34359738368) * (10273905 / 34359738368)) = (12582913 / 140737488355328) := by
    have := u ((10273905 / 34359738368) * (10273905 / 34359738368)) (12582913) (-47) (by norm_num) (by norm_num) (by norm_num) (by norm_num) (by norm_num [abs_lt, abs_of_nonneg, abs_of_nonpos])
    rw [this]; norm_num
  have b2 : rn (1 - (12582913 / 140737488355328)) = (8388607 / 8388608) := by
    have := u (1 - (12582913 / 140737488355328)) (16777214) (-24) (by norm_num) (by norm_num) (by norm_num) (by norm_num) (by norm_num [abs_lt, abs_of_nonneg, abs_of_nonpos])
    rw [this]; norm_num
  have b3 : rn ((13421773 / 134217728) * (8388607 / 8388608)) = (13421771 / 134217728) := by
    have := u ((13421773 / 134217728) * (8388607 / 8388608)) (13421771) (-27) (by norm_num) (by norm_num) (by norm_num) (by norm_num) (by norm_num [abs_lt, abs_of_nonneg, abs_of_nonpos])
    rw [this]; norm_num
  have b4 : rn (1000 * (12582913 / 140737488355328)) = (12288001 / 137438953472) := by
    have := u (1000 * (12582913 / 140737488355328)) (12288001) (-37) (by norm_num) (by norm_num) (by norm_num) (by norm_num) (by norm_num [abs_lt, abs_of_nonneg, abs_of_nonpos])
    rw [this]; norm_num
  have b5 : rn ((13421771 / 134217728) + (12288001 / 137438953472)) = (13433771 / 134217728) := by
    have := u ((13421771 / 134217728) + (12288001 / 137438953472)) (13433771) (-27) (by norm_num) (by norm_num) (by norm_num) (by norm_num) (by norm_num [abs_lt, abs_of_nonneg, abs_of_nonpos])
    rw [this]; norm_num
  refine ⟨_, _, by rw [row_denorm h, hn]; rfl, by rw [row_denorm h, hn]; rfl, by norm_num, ?_⟩
  show dExpF rn (rn (1 / 10)) 1000 (10273905 / 34359738368) < dExpF rn (rn (1 / 10)) 1000 (642119 / 2147483648)
  unfold dExpF
  rw [tenth hr, a1, a2, a3, a4, a5, b1, b2, b3, b4, b5]
  norm_num

/-- The time of a comb filter is such a knob, and so is the attack of an `ad`. -/
example : ends .ftme = some (13421773 / 134217728, 1000) ∧ (∃ r, NormFloatProps.exComb.paramRow = some r ∧ r.n = .ftme) ∧
    ∃ r, (⟨"atk", NodeId.fromStr "ad", 2⟩ : ParamId).paramRow = some r ∧ ends r.n = some (0, 1000) := by
  refine ⟨rfl, NormFloatProps.exComb_row, _, rfl, ?_⟩
  decide +kernel

end HexoDSP.KnobFloatProps
