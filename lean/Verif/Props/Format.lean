import Verif.Lemmas.Format
import Verif.Props.Norm
set_option linter.unusedSectionVars false

/-! # C134: what the display of a parameter says -/

namespace HexoDSP.FormatProps
open HexoDSP.Table HexoDSP.Format HexoDSP.FormatSpec HexoDSP.Format.Lemmas

/-- Rounding to the nearest whole number, halves up. -/
theorem rounds_floor : Rounds fun x => ⌊x + 1 / 2⌋₊ := by
  intro x hx
  have h1 := Nat.floor_le (a := x + 1 / 2) (by linarith)
  have h2 := Nat.lt_floor_add_one (x + 1 / 2)
  rw [abs_le]
  constructor <;> linarith

/-- The physical values of a parameter in its range, and their order. -/
theorem phys {G : Gain} (hG : G.Ok) {p : ParamId} {lo hi : ℚ} (h : p.paramMinMax = some (lo, hi)) :
    ∃ r, p.paramRow = some r ∧ (∀ v : ℝ, lo ≤ v → v ≤ hi → (r.d.physRange G).1 ≤ r.d.denorm G v ∧ r.d.denorm G v ≤ (r.d.physRange G).2) ∧
      ∀ v w : ℝ, lo ≤ v → v < w → w ≤ hi → r.d.denorm G v < r.d.denorm G w := by
  obtain ⟨r, hr, he⟩ := Option.map_eq_some_iff.mp h
  injection he with e1 e2
  subst e1; subst e2
  obtain ⟨k, hk⟩ := NormProps.paramRow_mem hr
  obtain ⟨m1, m2, -, m4⟩ := NormProps.curves_match k r hk
  rw [m1] at m2 m4
  refine ⟨r, hr, fun v h1 h2 => (NormProps.denorm_range G hG r.d).2.2.1 v (le_trans (by exact_mod_cast m2) h1) (le_trans h2 (by exact_mod_cast m4)),
    fun v w h1 hvw h2 => (NormProps.good_curve hG r.d).mono v w (le_trans (by exact_mod_cast m2) h1) hvw (le_trans h2 (by exact_mod_cast m4))⟩

/-- **C134** For every parameter of every node and every value in its range the display tells the physical value in the right unit, up to rounding. -/
theorem text_truthful_partial (G : Gain) (hG : G.Ok) (rd : ℝ → ℕ) (hr : Rounds rd) (p : ParamId) (lo hi : ℚ) (h : p.paramMinMax = some (lo, hi))
    (v : ℝ) (h1 : lo ≤ v) (h2 : v ≤ hi) :
    ∃ r t, p.paramRow = some r ∧ format G rd p v = some t ∧ Truthful G r.d (p.denorm G v) t := by
  obtain ⟨r, hrow, hph, -⟩ := phys hG h
  have hb := hph v h1 h2
  refine ⟨r, column G rd p.node.name r.d (r.d.denorm G v), hrow, by simp [format, hrow], ?_⟩
  have hd : p.denorm G v = r.d.denorm G v := by simp [ParamId.denorm, hrow]
  rw [hd]
  revert hb
  generalize r.d.denorm G v = d
  have hms : Truthful G .time d (fMs rd d) := ⟨(fMs_tells rd d).1, by rw [(fMs_tells rd d).2]; exact tellF_near hr d⟩
  have hdb : Truthful G .vol d (fDb G rd d) := by
    rcases fDb_tells (rd := rd) G d with h | ⟨a, b, c⟩
    · exact .inl h
    · exact .inr ⟨a, b, by rw [c]; exact snap_near hr _⟩
  cases hc : r.d <;> intro hb <;> simp only [column]
  case id =>
    have := read_num rd false 6 3 d [] unit_nil
    rw [List.append_nil] at this
    refine ⟨this.1, ?_⟩
    rw [fDef, this.2]
    exact le_trans (tell_near hr 3 d) (by norm_num)
  case vps =>
    have := read_num rd false 4 1 d [] unit_nil
    rw [List.append_nil] at this
    refine ⟨this.1, ?_⟩
    rw [fDefvlp, this.2]
    exact le_trans (tell_near hr 1 d) (by norm_num)
  case pit => exact ⟨(fFreq_tells rd d).1, by rw [(fFreq_tells rd d).2]; exact tellF_near hr d⟩
  case declick => exact hms
  case env => exact hms
  case time => exact hms
  case ftme => exact hms
  case timz => exact hms
  case vol => exact hdb
  case gain => exact hdb
  case driv => exact hdb
  case lfot =>
    simp only [Curve.physRange] at hb
    split
    · refine ⟨(fLfot_tells rd d).1, ?_⟩
      rw [(fLfot_tells rd d).2]
      exact tellL_near hr true d hb.1
    · refine ⟨.inr (fLfoms_tells rd d).1, ?_⟩
      rw [(fLfoms_tells rd d).2]
      exact tellL_near hr false d hb.1
  case det =>
    refine ⟨(fDet_tells hr d).1, ?_⟩
    rw [(fDet_tells hr d).2]
    have := tellD_near |d| (abs_nonneg d)
    split
    · rename_i hn
      rw [abs_of_neg hn] at this ⊢
      rw [← abs_neg]
      convert this using 2; ring
    · rename_i hn
      rw [abs_of_nonneg (not_lt.1 hn)] at this ⊢
      rw [one_mul]; exact this

/-- **C134** Turning a knob up never lowers the number in its display. -/
theorem never_falls (G : Gain) (hG : G.Ok) (rd : ℝ → ℕ) (hr : Rounds rd) (p : ParamId) (r : ParamRow) (hrow : p.paramRow = some r)
    (lo hi : ℚ) (h : p.paramMinMax = some (lo, hi)) (v w : ℝ) (h1 : lo ≤ v) (hvw : v < w) (h2 : w ≤ hi) (s t : List Char)
    (hs : format G rd p v = some s) (ht : format G rd p w = some t) : told r.d s ≤ told r.d t := by
  obtain ⟨r', hrow', hph, hmono⟩ := phys hG h
  rw [hrow] at hrow'; injection hrow' with he; subst he
  have hb := hph v h1 (by linarith)
  have hb' := hph w (by linarith) h2
  have hlt := hmono v w h1 hvw h2
  simp only [format, hrow, Option.map_some, Option.some.injEq] at hs ht
  rw [← hs, ← ht]
  have hgr : (r.d = .vol ∨ r.d = .gain ∨ r.d = .driv) → G.toDb (r.d.denorm G v) < G.toDb (r.d.denorm G w) := by
    have dl : ∀ l h : ℝ, -90 ≤ l → l < h → h ≤ 24 → 0 ≤ v → w ≤ 1 → G.toDb (dDb G l h v) < G.toDb (dDb G l h w) := by
      intro l h hl hlh hh hv hw
      unfold dDb
      rw [hG.inv _ (by nlinarith) (by nlinarith), hG.inv _ (by nlinarith) (by nlinarith)]
      nlinarith
    obtain ⟨q, hq, he⟩ := Option.map_eq_some_iff.mp h
    rw [hrow] at hq; injection hq with hq; subst hq
    injection he with e1 e2
    subst e1; subst e2
    obtain ⟨k, hk⟩ := NormProps.paramRow_mem hrow
    obtain ⟨m1, m2, -, m4⟩ := NormProps.curves_match k r hk
    rw [m1] at m2 m4
    have m2' : ((r.d.normRange.1 : ℚ) : ℝ) ≤ v := le_trans (by exact_mod_cast m2) h1
    have m4' : w ≤ ((r.d.normRange.2 : ℚ) : ℝ) := le_trans h2 (by exact_mod_cast m4)
    rintro (h | h | h) <;> rw [h] at m2' m4' ⊢ <;> simp only [Curve.normRange, Rat.cast_zero, Rat.cast_one] at m2' m4' <;> simp only [Curve.denorm]
    · exact dl _ _ (by norm_num) (by norm_num) (by norm_num) m2' m4'
    · exact dl _ _ (by norm_num) (by norm_num) (by norm_num) m2' m4'
    · exact dl _ _ (by norm_num) (by norm_num) (by norm_num) m2' m4'
  revert hb hb' hlt hgr
  generalize r.d.denorm G v = d
  generalize r.d.denorm G w = e
  have hms : d < e → value (fMs rd d) ≤ value (fMs rd e) := by
    intro h; rw [(fMs_tells rd d).2, (fMs_tells rd e).2]; exact tellF_mono hr h
  have hdb : G.toDb d < G.toDb e → told .vol (fDb G rd d) ≤ told .vol (fDb G rd e) := by
    intro h
    have lo : ∀ x, -89.9 ≤ G.toDb x → value (fDb G rd x) = tell rd 1 (if |G.toDb x| < 0.0001 then 0 else G.toDb x) →
        fDb G rd x ≠ ['-', 'i', 'n', 'f', ' ', 'd', 'B'] → -90 ≤ told .vol (fDb G rd x) := by
      intro x hx hv hne
      simp only [told]
      rw [if_neg hne, hv]
      have := (abs_le.1 (snap_near hr (G.toDb x))).1
      norm_num at this hx ⊢; linarith
    have ne : ∀ x, Tells (fDb G rd x) ['d', 'B'] → fDb G rd x ≠ ['-', 'i', 'n', 'f', ' ', 'd', 'B'] := by
      intro x hx he
      rw [he] at hx
      exact absurd hx.1 (by decide)
    rcases fDb_tells (rd := rd) G d with ⟨a1, a2⟩ | ⟨a1, a2, a3⟩ <;> rcases fDb_tells (rd := rd) G e with ⟨b1, b2⟩ | ⟨b1, b2, b3⟩
    · rw [a2, b2]
    · rw [a2]; have := lo e b1 b3 (ne e b2); simpa [told] using this
    · linarith
    · simp only [told]
      rw [if_neg (ne d a2), if_neg (ne e b2), a3, b3]
      exact snap_mono hr h
  cases hc : r.d <;> intro hb hb' hlt hgr <;> simp only [column]
  case id =>
    have x := read_num rd false 6 3 d [] unit_nil
    have y := read_num rd false 6 3 e [] unit_nil
    rw [List.append_nil] at x y
    simp only [told, fDef]
    rw [x.2, y.2]; exact tell_mono hr 3 hlt
  case vps =>
    have x := read_num rd false 4 1 d [] unit_nil
    have y := read_num rd false 4 1 e [] unit_nil
    rw [List.append_nil] at x y
    simp only [told, fDefvlp]
    rw [x.2, y.2]; exact tell_mono hr 1 hlt
  case pit => simp only [told]; rw [(fFreq_tells rd d).2, (fFreq_tells rd e).2]; exact tellF_mono hr hlt
  case declick => exact hms hlt
  case env => exact hms hlt
  case time => exact hms hlt
  case ftme => exact hms hlt
  case timz => exact hms hlt
  case vol => exact hdb (hgr (.inl rfl))
  case gain => exact hdb (hgr (.inr (.inl rfl)))
  case driv => exact hdb (hgr (.inr (.inr rfl)))
  case lfot =>
    simp only [Curve.physRange] at hb
    have h0 : 0 < d := by have := hb.1; norm_num at this; linarith
    simp only [told]
    split
    · rw [(fLfot_tells rd d).2, (fLfot_tells rd e).2]; exact tellL_mono hr true h0 hlt
    · rw [(fLfoms_tells rd d).2, (fLfoms_tells rd e).2]; exact tellL_mono hr false h0 hlt
  case det =>
    simp only [told]
    rw [(fDet_tells hr d).2, (fDet_tells hr e).2]
    have h1 := tellD_nonneg |d|
    have h2 := tellD_nonneg |e|
    split <;> split
    · rename_i a b
      have := tellD_mono |e| |d| (abs_nonneg e) (by rw [abs_of_neg a, abs_of_neg b]; linarith)
      linarith
    · linarith
    · linarith
    · rename_i a b
      have := tellD_mono |d| |e| (abs_nonneg d) (by rw [abs_of_nonneg (not_lt.1 a), abs_of_nonneg (not_lt.1 b)]; linarith)
      linarith

theorem sin_det : (NodeId.fromStr "sin").inpParam "det" = some ⟨"det", NodeId.fromStr "sin", 1⟩ ∧
    (ParamId.mk "det" (NodeId.fromStr "sin") 1).paramMinMax = some (-1/5, 1/5) ∧
    ((ParamId.mk "det" (NodeId.fromStr "sin") 1).paramRow.map fun r => r.d) = some .det := by decide +kernel

/-- **C134** (negation) Almost a semitone is shown as 100 cents: a detune of 1.999 semitones is " 1s 100c", not " 2s". -/
theorem hundred_cents (G : Gain) (rd : ℝ → ℕ) (hr : Rounds rd) : ∃ p, (NodeId.fromStr "sin").inpParam "det" = some p ∧
    ∃ v : ℝ, -1/5 ≤ v ∧ v ≤ 1/5 ∧ p.denorm G v = 1.999 ∧ format G rd p v = some " 1s 100c".toList := by
  obtain ⟨h1, h2, h3⟩ := sin_det
  obtain ⟨r, hr1, hr2⟩ := Option.map_eq_some_iff.mp h3
  refine ⟨_, h1, 1.999 / 120, by norm_num, by norm_num, ?_, ?_⟩
  · simp only [ParamId.denorm, hr1, hr2, Curve.denorm]; norm_num
  · simp only [format, hr1, Option.map_some, hr2, column, Curve.denorm]
    have e : (1.999 / 120 * 120 : ℝ) = 1.999 := by norm_num
    have f1 : ⌊|(1.999 : ℝ)|⌋₊ = 1 := by rw [abs_of_pos (by norm_num)]; rw [Nat.floor_eq_iff (by norm_num)]; norm_num
    have f2 : ⌊(|(1.999 : ℝ)| - (1 : ℕ)) * 100 + 1 / 2⌋₊ = 100 := by
      rw [abs_of_pos (by norm_num), Nat.floor_eq_iff (by norm_num)]; norm_num
    have g1 : rd (((1 : ℕ) : ℝ) * 10 ^ 0) = 1 := by rw [pow_zero, mul_one]; exact rounds_nat hr 1
    have g2 : rd (((100 : ℕ) : ℝ) * 10 ^ 0) = 100 := by rw [pow_zero, mul_one]; exact rounds_nat hr 100
    have hneg : decide ((1.999 : ℝ) < 0) = false := by simp; norm_num
    rw [e]
    unfold fDet
    simp only [f1, f2]
    rw [if_pos (by norm_num), hneg]
    unfold fixed
    simp only [g1, g2]
    decide +kernel

theorem amp_gain : ∃ p, (NodeId.fromStr "amp").inpParam "gain" = some p ∧ p.paramMinMax = some (0, 1) ∧ (p.paramRow.map fun r => r.d) = some .gain :=
  ⟨⟨"gain", NodeId.fromStr "amp", 1⟩, by decide +kernel⟩

/-- **C134** (negation) The comment in the code says that zero decibels are never shown as minus zero. The gain of `Amp` at -0.01 dB is
shown as "-0.0dB". -/
theorem minus_zero (G : Gain) (hG : G.Ok) (rd : ℝ → ℕ) (hr : Rounds rd) : ∃ p, (NodeId.fromStr "amp").inpParam "gain" = some p ∧
    ∃ v : ℝ, 0 ≤ v ∧ v ≤ 1 ∧ G.toDb (p.denorm G v) = -0.01 ∧ format G rd p v = some "-0.0dB".toList := by
  obtain ⟨p, h1, h2, h3⟩ := amp_gain
  obtain ⟨r, hr1, hr2⟩ := Option.map_eq_some_iff.mp h3
  have key : G.toDb (dDb G (-24) 24 (23.99 / 48)) = -0.01 := by
    unfold dDb
    rw [hG.inv _ (by norm_num) (by norm_num)]; norm_num
  refine ⟨p, h1, 23.99 / 48, by norm_num, by norm_num, ?_, ?_⟩
  · simp only [ParamId.denorm, hr1, hr2, Curve.denorm]; exact key
  · simp only [format, hr1, Option.map_some, hr2, column, Curve.denorm]
    unfold fDb
    simp only [key]
    have a : |(-0.01 : ℝ)| = 0.01 := by rw [abs_of_neg (by norm_num)]; norm_num
    rw [if_neg (by norm_num), a, if_neg (by norm_num)]
    have g : rd (0.01 * 10 ^ 1) = 0 := by
      have := (abs_le.1 (hr (0.01 * 10 ^ 1) (by norm_num))).2
      by_contra hne
      have h1 : (1 : ℝ) ≤ rd (0.01 * 10 ^ 1) := by exact_mod_cast Nat.one_le_iff_ne_zero.2 hne
      have h3 : (0.01 * 10 ^ 1 : ℝ) = 1 / 10 := by norm_num
      rw [h3] at this h1
      linarith
    have hneg : decide ((-0.01 : ℝ) < 0) = true := by simp; norm_num
    unfold num
    rw [a, hneg]
    unfold fixed
    simp only [g]
    decide +kernel

/-- A case: the detune of `Sin` half a semitone down, with the true decibel functions and common rounding, is shown as "-0s  50c". -/
example : ∃ p v, (NodeId.fromStr "sin").inpParam "det" = some p ∧ p.denorm decibel v = -1 / 2 ∧
    format decibel (fun x => ⌊x + 1 / 2⌋₊) p v = some "-0s  50c".toList := by
  obtain ⟨h1, h2, h3⟩ := sin_det
  obtain ⟨r, hr1, hr2⟩ := Option.map_eq_some_iff.mp h3
  refine ⟨_, -1 / 240, h1, ?_, ?_⟩
  · simp only [ParamId.denorm, hr1, hr2, Curve.denorm]; norm_num
  · simp only [format, hr1, Option.map_some, hr2, column, Curve.denorm]
    have e : (-1 / 240 * 120 : ℝ) = -1 / 2 := by norm_num
    have a : |(-1 / 2 : ℝ)| = 1 / 2 := by rw [abs_of_neg (by norm_num)]; norm_num
    have f1 : ⌊(1 / 2 : ℝ)⌋₊ = 0 := by rw [Nat.floor_eq_iff (by norm_num)]; norm_num
    have f2 : ⌊((1 / 2 : ℝ) - (0 : ℕ)) * 100 + 1 / 2⌋₊ = 50 := by rw [Nat.floor_eq_iff (by norm_num)]; norm_num
    have g1 := rounds_nat rounds_floor 0
    have g2 := rounds_nat rounds_floor 50
    have hneg : decide ((-1 / 2 : ℝ) < 0) = true := by simp; norm_num
    rw [e]
    unfold fDet
    simp only [a, f1, f2]
    rw [if_pos (by norm_num), hneg]
    unfold fixed
    simp only [pow_zero, mul_one] at g1 g2 ⊢
    simp only [g1, g2]
    decide +kernel

end HexoDSP.FormatProps
