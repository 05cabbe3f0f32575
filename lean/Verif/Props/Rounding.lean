import Verif.Lemmas.Rounding
/-! # C86: knobs snap to the marks of their scale -/

set_option linter.unusedSectionVars false

namespace HexoDSP.RoundingProps
open HexoDSP.Table HexoDSP.NormProps

/-- The curve that a rounding belongs to. -/
def curveOf : Round → Option Curve
  | .id => none
  | .vol => some .vol
  | .gain => some .gain
  | .driv => some .driv
  | .det => some .det
  | .s => some .id
  | .dc_ms => some .declick
  | .ems => some .env
  | .tms => some .time
  | .fms => some .ftme
  | .tmz => some .timz
  | .fq => some .pit
  | .vps => some .vps
  | .lfot => some .lfot

theorem rounds_match : ∀ k : Fin nodeTable.length, ∀ r ∈ (row k).params, r.r = .id ∨ curveOf r.r = some r.d := by decide +kernel

/-- Every knob is a scale in the sense of `Fits`. -/
theorem knob (G : Gain) (hG : G.Ok) (r : ParamRow) (h : r.r = .id ∨ curveOf r.r = some r.d) (h1 : r.d.normRange.1 ≤ r.min) (h2 : r.max ≤ r.d.normRange.2)
    (coarse : Bool) : ∃ f disp a b, Fits (Near r.r coarse) f disp a b ∧ a ≤ (r.min : ℝ) ∧ (r.max : ℝ) ≤ b ∧
      ∀ x : ℝ, r.min ≤ x → x ≤ r.max → f x = r.r.apply G x coarse ∧ disp x = r.r.display G coarse r.d x := by
  have k1 : (r.d.normRange.1 : ℝ) ≤ r.min := by exact_mod_cast h1
  have k2 : (r.max : ℝ) ≤ r.d.normRange.2 := by exact_mod_cast h2
  rcases h with hid | hc
  · refine ⟨fun x => r.r.apply G x coarse, fun x => r.r.display G coarse r.d x, _, _, ?_, k1, k2, fun _ _ _ => ⟨rfl, rfl⟩⟩
    rw [hid]
    refine ⟨r.d.norm G, _, _, fun v => v, good_curve hG r.d, snap_id, fun v _ _ => ?_, ?_⟩
    · unfold Near; rw [if_pos rfl]
    · intro x lo hi hx hx' _ _
      congr 1
      exact ((good_curve hG r.d).inv x hx hx').symm
  · obtain ⟨idx, name, n, d, rr, lo, hi, df⟩ := r
    simp only at hc k1 k2 ⊢
    cases rr <;> simp only [curveOf, Option.some.injEq, reduceCtorEq] at hc <;> subst hc <;> simp only [Curve.normRange] at k1 k2
    all_goals try rw [Rat.cast_zero] at k1
    all_goals try rw [Rat.cast_one] at k2
    case vol =>
      refine ⟨_, _, 0, 1, (fits_db hG (l := -90) (h := 18) (by norm_num) (by norm_num) (by norm_num) coarse (Round.vol.step coarse 0) (by cases coarse <;> rfl)
        (if coarse then -180 else -900) (if coarse then 36 else 180) (by cases coarse <;> norm_num [Round.step])
        (by cases coarse <;> norm_num [Round.step])).imp (fun _ => rfl) (fun _ => rfl) (fun v w h => ?_), k1, k2, fun _ _ _ => ⟨rfl, rfl⟩⟩
      exact near_plain (by decide) (Or.inl (by decide)) (Or.inl (by decide)) (by cases coarse <;> exact h)
    case gain =>
      refine ⟨_, _, 0, 1, (fits_db hG (l := -24) (h := 24) (by norm_num) (by norm_num) (by norm_num) coarse (Round.gain.step coarse 0) (by cases coarse <;> rfl)
        (if coarse then -48 else -240) (if coarse then 48 else 240) (by cases coarse <;> norm_num [Round.step])
        (by cases coarse <;> norm_num [Round.step])).imp (fun _ => rfl) (fun _ => rfl) (fun v w h => ?_), k1, k2, fun _ _ _ => ⟨rfl, rfl⟩⟩
      exact near_plain (by decide) (Or.inl (by decide)) (Or.inl (by decide)) (by cases coarse <;> exact h)
    case driv =>
      refine ⟨_, _, 0, 1, (fits_db hG (l := 0) (h := 24) (by norm_num) (by norm_num) (by norm_num) coarse (Round.driv.step coarse 0) (by cases coarse <;> rfl)
        0 (if coarse then 48 else 240) (by cases coarse <;> norm_num [Round.step])
        (by cases coarse <;> norm_num [Round.step])).imp (fun _ => rfl) (fun _ => rfl) (fun v w h => ?_), k1, k2, fun _ _ _ => ⟨rfl, rfl⟩⟩
      exact near_plain (by decide) (Or.inl (by decide)) (Or.inl (by decide)) (by cases coarse <;> exact h)
    case det =>
      refine ⟨_, _, _, _, (fits_plain (good_curve hG .det) (fine := 100) (by norm_num) coarse (Round.det.step coarse 0) (by cases coarse <;> rfl)
        (if coarse then -24 else -2400) (if coarse then 24 else 2400) (by cases coarse <;> norm_num [Round.step, Curve.physRange])
        (by cases coarse <;> norm_num [Round.step, Curve.physRange])).imp (fun _ => rfl) (fun _ => rfl) (fun v w h => ?_), k1, k2, fun _ _ _ => ⟨rfl, rfl⟩⟩
      exact near_plain (by decide) (Or.inl (by decide)) (Or.inl (by decide)) (by cases coarse <;> exact h)
    case s =>
      refine ⟨_, _, -1, 1, fits_s coarse, by push_cast at k1; exact k1, k2, fun _ _ _ => ⟨rfl, by cases coarse <;> rfl⟩⟩
    case dc_ms =>
      refine ⟨_, _, _, _, (fits_plain (good_curve hG .declick) (fine := 10) (by norm_num) coarse (Round.dc_ms.step coarse 0) (by cases coarse <;> rfl)
        0 (if coarse then 50 else 500) (by cases coarse <;> norm_num [Round.step, Curve.physRange])
        (by cases coarse <;> norm_num [Round.step, Curve.physRange])).imp (fun _ => rfl) (fun _ => rfl) (fun v w h => ?_),
        by simpa [Curve.normRange] using k1, by simpa [Curve.normRange] using k2, fun _ _ _ => ⟨rfl, rfl⟩⟩
      exact near_plain (by decide) (Or.inl (by decide)) (Or.inl (by decide)) (by cases coarse <;> exact h)
    case ems =>
      refine ⟨_, _, _, _, (fits_plain (good_curve hG .env) (fine := 10) (by norm_num) coarse (Round.ems.step coarse 0) (by cases coarse <;> rfl)
        0 (if coarse then 1000 else 10000) (by cases coarse <;> norm_num [Round.step, Curve.physRange])
        (by cases coarse <;> norm_num [Round.step, Curve.physRange])).imp (fun _ => rfl) (fun _ => rfl) (fun v w h => ?_),
        by simpa [Curve.normRange] using k1, by simpa [Curve.normRange] using k2, fun _ _ _ => ⟨rfl, rfl⟩⟩
      exact near_plain (by decide) (Or.inl (by decide)) (Or.inl (by decide)) (by cases coarse <;> exact h)
    case vps =>
      refine ⟨_, _, _, _, (fits_plain (good_curve hG .vps) (fine := 10) (by norm_num) coarse (Round.vps.step coarse 0) (by cases coarse <;> rfl)
        0 (if coarse then 20 else 200) (by cases coarse <;> norm_num [Round.step, Curve.physRange])
        (by cases coarse <;> norm_num [Round.step, Curve.physRange])).imp (fun _ => rfl) (fun _ => rfl) (fun v w h => ?_),
        by simpa [Curve.normRange] using k1, by simpa [Curve.normRange] using k2, fun _ _ _ => ⟨rfl, rfl⟩⟩
      exact near_plain (by decide) (Or.inl (by decide)) (Or.inl (by decide)) (by cases coarse <;> exact h)
    case tms =>
      refine ⟨_, _, _, _, fits_time (good_curve hG .time) .tms (Or.inl rfl) 5 50 (by norm_num [Curve.physRange]) (by norm_num [Curve.physRange])
        (by norm_num [Curve.physRange]) (by norm_num [Curve.physRange]) ?_ coarse, by simpa [Curve.normRange] using k1,
        by simpa [Curve.normRange] using k2, fun _ _ _ => ⟨rfl, rfl⟩⟩
      refine snap_mult (by norm_num) ?_ (by rw [mult_at (by norm_num) 100 (by norm_num)])
      show (0.5 : ℝ) ≤ mult 1 0.5
      unfold mult
      rw [div_one, show (0.5 : ℝ) = 1 / 2 by norm_num, roundAway_half]
      norm_num
    case tmz =>
      refine ⟨_, _, _, _, fits_time (good_curve hG .timz) .tmz (Or.inr rfl) 0 50 (by norm_num [Curve.physRange]) (by norm_num [Curve.physRange])
        (by norm_num [Curve.physRange]) (by norm_num [Curve.physRange]) ?_ coarse, by simpa [Curve.normRange] using k1,
        by simpa [Curve.normRange] using k2, fun _ _ _ => ⟨rfl, rfl⟩⟩
      exact snap_at (by norm_num) 0 100 (by norm_num [Curve.physRange]) (by norm_num)
    case fms => exact ⟨_, _, 0, 1, fits_fms G hG coarse, k1, k2, fun _ _ _ => ⟨rfl, by cases coarse <;> rfl⟩⟩
    case lfot => exact ⟨_, _, 0, 1, fits_lfot G hG coarse, k1, k2, fun _ _ _ => ⟨rfl, by cases coarse <;> rfl⟩⟩
    case fq =>
      rw [Rat.cast_neg, Rat.cast_one] at k1
      cases coarse
      · have e1 : nPit 0.4 ≤ -1 := by
          unfold nPit
          have : Real.logb 2 (max 0.4 0.01 / 440) ≤ -10 := by
            rw [Real.logb_le_iff_le_rpow (by norm_num) (by norm_num), two_pow_neg_ten]; norm_num
          linarith
        have e2 : 1 ≤ nPit 451000 := by
          unfold nPit
          have : 10 ≤ Real.logb 2 (max 451000 0.01 / 440) := by
            rw [Real.le_logb_iff_rpow_le (by norm_num) (by norm_num), two_pow_ten]; norm_num
          linarith
        refine ⟨_, _, _, _, fits_fq_fine, by linarith, by linarith, fun x hx hx' => ?_⟩
        have e : dPit x = pitch x := dPit_eq (by linarith) (by linarith)
        refine ⟨?_, e.symm⟩
        show _ = rFq x false
        rw [rFq_fine, e]
      · exact ⟨_, _, -1, 1, fits_fq_coarse, k1, k2, fun _ _ _ => ⟨rfl, rfl⟩⟩

variable {G : Gain} {p : ParamId} {lo hi : ℚ}

/-- A parameter of the table with its range. -/
theorem knob_of (hG : G.Ok) (h : p.paramMinMax = some (lo, hi)) (coarse : Bool) : (lo : ℝ) ≤ hi ∧ ∃ r, p.paramRow = some r ∧ r.min = lo ∧ r.max = hi ∧
    ∃ f disp a b, Fits (Near r.r coarse) f disp a b ∧ a ≤ (lo : ℝ) ∧ (hi : ℝ) ≤ b ∧
      ∀ x : ℝ, lo ≤ x → x ≤ hi → p.round G x coarse = clamp lo hi (f x) ∧ disp x = r.r.display G coarse r.d x := by
  obtain ⟨r, hr, he⟩ := Option.map_eq_some_iff.mp h
  injection he with e1 e2
  subst e1; subst e2
  obtain ⟨k, hk⟩ := paramRow_mem hr
  obtain ⟨m1, m2, m3, m4⟩ := curves_match k r hk
  rw [m1] at m2 m4
  obtain ⟨f, disp, a, b, F, h1, h2, h3⟩ := knob G hG r (rounds_match k r hk) m2 m4 coarse
  refine ⟨by exact_mod_cast m3.le, r, hr, rfl, rfl, f, disp, a, b, F, h1, h2, fun x hx hx' => ⟨?_, (h3 x hx hx').2⟩⟩
  rw [(h3 x hx hx').1]
  unfold ParamId.round
  rw [hr]
  rfl

/-- **C86** Rounding stays in the range of the knob, for every value whatsoever. -/
theorem rounded_in_range (G : Gain) (p : ParamId) (lo hi : ℚ) (h : p.paramMinMax = some (lo, hi)) (x : ℝ) (coarse : Bool) :
    lo ≤ p.round G x coarse ∧ p.round G x coarse ≤ hi := by
  obtain ⟨r, hr, he⟩ := Option.map_eq_some_iff.mp h
  injection he with e1 e2
  subst e1; subst e2
  obtain ⟨k, hk⟩ := paramRow_mem hr
  obtain ⟨-, -, m3, -⟩ := curves_match k r hk
  unfold ParamId.round
  rw [hr]
  exact clamp_in (by exact_mod_cast m3.le)

/-- **C86** A rounded knob stays where it is when it is rounded again. -/
theorem rounded_stays (G : Gain) (hG : G.Ok) (p : ParamId) (lo hi : ℚ) (h : p.paramMinMax = some (lo, hi)) (x : ℝ) (h1 : lo ≤ x) (h2 : x ≤ hi) (coarse : Bool) :
    p.round G (p.round G x coarse) coarse = p.round G x coarse := by
  obtain ⟨hle, r, hr, -, -, f, disp, a, b, F, k1, k2, k3⟩ := knob_of hG h coarse
  have hin := rounded_in_range G p lo hi h x coarse
  rw [(k3 _ hin.1 hin.2).1, (k3 x h1 h2).1]
  exact F.idem k1 hle k2 h1 h2

/-- **C86** Rounding does not change the order of values: turning a knob up never turns the rounded value down. -/
theorem rounded_in_order (G : Gain) (hG : G.Ok) (p : ParamId) (lo hi : ℚ) (h : p.paramMinMax = some (lo, hi)) (x y : ℝ) (h1 : lo ≤ x) (hxy : x ≤ y) (h2 : y ≤ hi)
    (coarse : Bool) : p.round G x coarse ≤ p.round G y coarse := by
  obtain ⟨-, r, hr, -, -, f, disp, a, b, F, k1, k2, k3⟩ := knob_of hG h coarse
  rw [(k3 x h1 (le_trans hxy h2)).1, (k3 y (le_trans h1 hxy) h2).1]
  exact F.mono k1 k2 h1 hxy h2

/-- **C86** The rounded knob displays a value on a mark of its scale, no more than half the distance of the marks away from the value before; only at the ends
of the range it may be off the marks. Except for knobs that do not round at all, and coarse rounding of the times of `allp` and `comb` below half a millisecond. -/
theorem rounded_to_mark_partial (G : Gain) (hG : G.Ok) (p : ParamId) (lo hi : ℚ) (h : p.paramMinMax = some (lo, hi)) (x : ℝ) (h1 : lo ≤ x) (h2 : x ≤ hi)
    (coarse : Bool) (r : ParamRow) (hr : p.paramRow = some r) (v u : ℝ) (hv : r.r.display G coarse r.d x = v)
    (hu : r.r.display G coarse r.d (p.round G x coarse) = u) (hid : r.r ≠ .id) (hfms : ¬ (r.r = .fms ∧ coarse = true ∧ v < 1 / 2)) :
    |r.r.reading v u - r.r.reading v v| ≤ r.r.step coarse v / 2 ∧
    (p.round G x coarse = lo ∨ p.round G x coarse = hi ∨ ∃ k : ℤ, r.r.reading v u = k * r.r.step coarse v) := by
  obtain ⟨hle, r', hr', e1, e2, f, disp, a, b, F, k1, k2, k3⟩ := knob_of hG h coarse
  rw [hr] at hr'
  cases hr'
  have hin := rounded_in_range G p lo hi h x coarse
  obtain ⟨w, hw, hbet, hend⟩ := F.near k1 hle k2 h1 h2
  rw [← (k3 x h1 h2).1, (k3 _ hin.1 hin.2).2, (k3 x h1 h2).2, hu, hv] at hbet
  rw [← (k3 x h1 h2).1, (k3 _ hin.1 hin.2).2, hu] at hend
  rw [(k3 x h1 h2).2, hv] at hw
  unfold Near at hw
  rw [if_neg hid, if_neg hfms] at hw
  refine ⟨le_trans ?_ hw.2, ?_⟩
  · by_cases hl : r.r = .lfot ∧ v < 10
    · have hpos : 0 < v := by
        rw [← hv, hl.1]
        show 0 < r.d.denorm G x
        obtain ⟨k, hk⟩ := paramRow_mem hr
        have hm := rounds_match k r hk
        rw [hl.1] at hm
        have hd : r.d = .lfot := by
          rcases hm with hm | hm
          · cases hm
          · exact (Option.some.inj hm).symm
        obtain ⟨m1, m2, m3, m4⟩ := curves_match k r hk
        rw [m1, hd] at m2 m4
        have := (good_curve hG .lfot).bounds (x := x) (le_trans (by rw [← e1]; exact_mod_cast m2) h1) (le_trans h2 (by rw [← e2]; exact_mod_cast m4))
        rw [hd]
        exact lt_of_lt_of_le (by norm_num [Curve.physRange]) this.1
      unfold Round.reading
      rw [if_pos hl, if_pos hl, if_pos hl]
      rcases hbet with ⟨b1, b2⟩ | ⟨b1, b2⟩
      · have c1 : 1000 / u ≤ 1000 / v := div_le_div_of_nonneg_left (by norm_num) hpos b1
        have c2 : 1000 / w ≤ 1000 / u := div_le_div_of_nonneg_left (by norm_num) (by linarith) b2
        rw [abs_of_nonpos (by linarith), abs_of_nonpos (by linarith)]
        linarith
      · have hwp : 0 < w := by
          have hn := hw.2
          unfold Round.reading at hn
          rw [if_pos hl, if_pos hl, abs_le] at hn
          by_contra hneg
          have q1 : 1000 / w ≤ 0 := div_nonpos_of_nonneg_of_nonpos (by norm_num) (not_lt.1 hneg)
          have q2 : 100 < 1000 / v := by rw [lt_div_iff₀ hpos]; linarith [hl.2]
          have q3 : r.r.step coarse v ≤ 10 := by
            rw [hl.1]
            cases coarse
            · show (if v < 10 then (1 : ℝ) else _) ≤ 10
              rw [if_pos hl.2]; norm_num
            · show (if v < 10 then (10 : ℝ) else _) ≤ 10
              rw [if_pos hl.2]
          linarith [hn.1]
        have c1 : 1000 / v ≤ 1000 / u := div_le_div_of_nonneg_left (by norm_num) (by linarith) b2
        have c2 : 1000 / u ≤ 1000 / w := div_le_div_of_nonneg_left (by norm_num) hwp b1
        rw [abs_of_nonneg (by linarith), abs_of_nonneg (by linarith)]
        linarith
    · unfold Round.reading
      rw [if_neg hl, if_neg hl, if_neg hl]
      rcases hbet with ⟨b1, b2⟩ | ⟨b1, b2⟩
      · rw [abs_of_nonneg (by linarith), abs_of_nonneg (by linarith)]; linarith
      · rw [abs_of_nonpos (by linarith), abs_of_nonpos (by linarith)]; linarith
  · rcases hend with he | he | he
    · exact Or.inl he
    · exact Or.inr (Or.inl he)
    · right; right
      rw [he]
      exact hw.1

/-- **C86** Knobs without a rounding stay where they are. -/
theorem unrounded (G : Gain) (p : ParamId) (lo hi : ℚ) (h : p.paramMinMax = some (lo, hi)) (x : ℝ) (h1 : lo ≤ x) (h2 : x ≤ hi) (coarse : Bool) (r : ParamRow)
    (hr : p.paramRow = some r) (hid : r.r = .id) : p.round G x coarse = x := by
  obtain ⟨r', hr', he⟩ := Option.map_eq_some_iff.mp h
  rw [hr] at hr'
  cases hr'
  injection he with e1 e2
  subst e1; subst e2
  unfold ParamId.round
  rw [hr]
  simp only [hid]
  exact clamp_id h1 h2

/-! ## Examples -/

/-- **C86** does not hold for coarse rounding of the time of an all pass filter or a comb filter below half a millisecond: every such time becomes 0.2 ms
(its shortest time of 0.1 ms cannot be set), that is no mark of the scale, where the marks are whole milliseconds. -/
theorem short_filter_time (G : Gain) (hG : G.Ok) : ∃ p, (NodeId.fromStr "comb").inpParam "time" = some p ∧ p.paramMinMax = some (0, 1) ∧
    p.denorm G 0 = 0.1 ∧ p.denorm G (p.round G 0 true) = 0.2 := by
  have hp : (NodeId.fromStr "comb").inpParam "time" = some ⟨"time", NodeId.fromStr "comb", 1⟩ := by decide +kernel
  have hr : (ParamId.mk "time" (NodeId.fromStr "comb") 1).paramRow = some ⟨1, "time", .ftme, .ftme, .fms, 0, 1, 25⟩ := by decide +kernel
  have hm : (ParamId.mk "time" (NodeId.fromStr "comb") 1).paramMinMax = some (0, 1) := by decide +kernel
  have hd : (Curve.ftme.denorm G 0) = 0.1 := by norm_num [Curve.denorm, dExp]
  refine ⟨_, hp, hm, ?_, ?_⟩
  · simp only [ParamId.denorm, hr, hd]
  · obtain ⟨n, l, h, ρ, g, s, hP, e⟩ := (fits_fms G hG true).ex
    have e0 := e 0 0 1 (le_refl _) zero_le_one (le_refl _) (le_refl _)
    have hb := g.bounds (le_refl (0 : ℝ)) zero_le_one
    have hq := hP _ hb.1 hb.2
    unfold Near at hq
    rw [if_neg (by decide), if_pos ⟨rfl, rfl, by rw [hd]; norm_num⟩] at hq
    obtain ⟨w1, w2⟩ := s.within _ hb.1 hb.2
    obtain ⟨n1, n2, n3⟩ := g.onto _ w1 w2
    simp only [ParamId.denorm, ParamId.round, hr, Rat.cast_zero, Rat.cast_one]
    have : max 0 (min 1 (Round.fms.apply G 0 true)) = clamp 0 1 (n (ρ (Curve.denorm G Curve.ftme 0))) := e0
    rw [this, clamp_id n1 n2, n3, hq]
    norm_num

/-- A knob that the theorems speak of: 0.3 is 450.455 ms of delay, where the marks are 10 ms apart. -/
example : ∃ p r, (NodeId.fromStr "delay").inpParam "time" = some p ∧ p.paramMinMax = some (0, 1) ∧ p.paramRow = some r ∧ r.r ≠ .id ∧ r.r ≠ .fms ∧
    r.r.display decibel true r.d (3 / 10) = 450.455 ∧ r.r.step true 450.455 = 10 :=
  ⟨⟨"time", NodeId.fromStr "delay", 2⟩, ⟨2, "time", .time, .time, .tms, 0, 1, 250⟩, by decide +kernel, by decide +kernel, by decide +kernel, by decide, by decide,
    by norm_num [Round.display, Curve.denorm, dExp], by norm_num [Round.step]⟩

end HexoDSP.RoundingProps
