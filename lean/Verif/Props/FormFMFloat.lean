import Verif.Model.FormFMFloat
import Verif.Spec.FormFMFloat
import Verif.Lemmas.NormFloat
import Verif.Props.SinFloat
import Verif.Lemmas.FloatSeq
import Mathlib.Tactic.LinearCombination
import Mathlib.Tactic.Linarith
import Mathlib.Tactic.FieldSimp
/-!
# The formant oscillator with `f32` arithmetic (C142)
-/

set_option linter.unusedSectionVars false

namespace HexoDSP.FormFMFloatProps
open HexoDSP.FormFMFloat HexoDSP.FormFMSpec HexoDSP.SinSpec HexoDSP.FloatLemmas HexoDSP.FloatSeq.Lemmas HexoDSP.SinFloatProps

variable {rn cosf : ℚ → ℚ}

theorem pow2_f32 {k : ℤ} (h1 : -149 ≤ k) (h2 : k ≤ 103) : F32 ((2 : ℚ) ^ k) := by
  have := f32_scaled (m := 1) (e := k) (by norm_num) h1 h2
  simpa using this

theorem int_f32 {m : ℤ} (h : |m| ≤ 2 ^ 24) : F32 (m : ℚ) := by
  have := f32_scaled (m := m) (e := 0) h (by norm_num) (by norm_num)
  simpa using this

theorem one32 : F32 1 := by simpa using int_f32 (m := 1) (by norm_num)
theorem neg_one32 : F32 (-1) := f32_neg one32
theorem two32 : F32 2 := by simpa using int_f32 (m := 2) (by norm_num)
theorem three32 : F32 3 := by simpa using int_f32 (m := 3) (by norm_num)
theorem quarter32 : F32 (1 / 4) := by
  have := pow2_f32 (k := -2) (by norm_num) (by norm_num); norm_num at this ⊢; exact this

theorem unit (hr : Nearest rn) {x : ℚ} (h : 0 ≤ x ∧ x ≤ 1) : 0 ≤ rn x ∧ rn x ≤ 1 :=
  ⟨rn_ge hr f32_zero h.1, rn_le hr one32 h.2⟩

theorem rn_mono (hr : Nearest rn) {x y : ℚ} (h : x ≤ y) : rn x ≤ rn y := by
  by_contra hc
  have hc := not_le.1 hc
  have a := (hr x).2 (rn y) (hr y).1
  have b := (hr y).2 (rn x) (hr x).1
  rcases abs_cases (rn x - x) with ⟨e1, _⟩ | ⟨e1, _⟩ <;> rcases abs_cases (rn y - x) with ⟨e2, _⟩ | ⟨e2, _⟩ <;>
    rcases abs_cases (rn y - y) with ⟨e3, _⟩ | ⟨e3, _⟩ <;> rcases abs_cases (rn x - y) with ⟨e4, _⟩ | ⟨e4, _⟩ <;>
    rw [e1, e2] at a <;> rw [e3, e4] at b <;> first | linarith | skip
  all_goals (have : x = y := by linarith); subst this; linarith

/-- The side is off both ends. -/
theorem side_range (hr : Nearest rn) (s : ℚ) : 0 < sideVal rn s ∧ sideVal rn s ≤ 1 - 1 / 2 ^ 20 := by
  have f20 : F32 (1 / 2 ^ 20) := by
    have := pow2_f32 (k := -20) (by norm_num) (by norm_num); norm_num at this ⊢; exact this
  have f19 : F32 (1 / 2 ^ 19) := by
    have := pow2_f32 (k := -19) (by norm_num) (by norm_num); norm_num at this ⊢; exact this
  have f1 : F32 (1 - 1 / 2 ^ 20) := by
    have := f32_scaled (m := 2 ^ 20 - 1) (e := -20) (by norm_num) (by norm_num) (by norm_num)
    norm_num at this ⊢; exact this
  have l1 : 1 / 2 ^ 20 ≤ rn (1 / 10 ^ 6) := rn_ge hr f20 (by norm_num)
  have l2 : rn (1 / 10 ^ 6) ≤ 1 / 2 ^ 19 := rn_le hr f19 (by norm_num)
  have h1 : rn (1 - rn (1 / 10 ^ 6)) ≤ 1 - 1 / 2 ^ 20 := rn_le hr f1 (by linarith)
  unfold sideVal
  refine ⟨lt_of_lt_of_le (lt_of_lt_of_le (by norm_num) l1) (le_max_right _ _), max_le ((min_le_right _ _).trans h1) (l2.trans (by norm_num))⟩

/-- The triangle does not leave the unit interval, in spite of the rounding. -/
theorem triangle_range (hr : Nearest rn) {s p : ℚ} (hs : 0 < s ∧ s ≤ 1 - 1 / 2 ^ 20) (hp : 0 ≤ p ∧ p < 1) : 0 ≤ triangle rn s p ∧ triangle rn s p ≤ 1 := by
  have f20 : F32 (1 / 2 ^ 20) := by
    have := pow2_f32 (k := -20) (by norm_num) (by norm_num); norm_num at this ⊢; exact this
  have d : 1 / 2 ^ 20 ≤ rn (1 - s) := rn_ge hr f20 (by linarith [hs.2])
  have d0 : 0 < rn (1 - s) := lt_of_lt_of_le (by norm_num) d
  have n0 : 0 ≤ rn (1 - p) := rn_ge hr f32_zero (by linarith [hp.2])
  unfold triangle
  constructor
  · exact le_min (rn_ge hr f32_zero (div_nonneg hp.1 hs.1.le)) (rn_ge hr f32_zero (div_nonneg n0 d0.le))
  · rcases le_total p s with h | h
    · exact (min_le_left _ _).trans (rn_le hr one32 ((div_le_one hs.1).2 h))
    · exact (min_le_right _ _).trans (rn_le hr one32 ((div_le_one d0).2 (rn_mono hr (by linarith))))

theorem triangle_f32 (hr : Nearest rn) (s p : ℚ) : F32 (triangle rn s p) := by
  unfold triangle
  rcases min_choice (rn (p / s)) (rn (rn (1 - p) / rn (1 - s))) with h | h <;> rw [h] <;> exact (hr _).1

theorem le_one_of_lt (hr : Nearest rn) {z : ℚ} (h : z < 1 + 1 / 2 ^ 24) : rn z ≤ 1 := by
  by_contra hc
  have g := gap_above_one (hr z).1 (not_le.1 hc)
  have n := (hr z).2 1 one32
  rcases abs_cases (rn z - z) with ⟨e1, _⟩ | ⟨e1, _⟩ <;> rcases abs_cases (1 - z) with ⟨e2, _⟩ | ⟨e2, _⟩ <;> rw [e1, e2] at n <;> norm_num at * <;> linarith

/-- The smooth step does not leave the unit interval, in spite of the rounding. -/
theorem smooth_range (hr : Nearest rn) {b : ℚ} (hb : F32 b) (h : 0 ≤ b ∧ b ≤ 1) : 0 ≤ smooth rn b ∧ smooth rn b ≤ 1 := by
  have bb : 0 ≤ rn (b * b) := rn_ge hr f32_zero (mul_nonneg h.1 h.1)
  have t0 : 0 ≤ rn (2 * b) := rn_ge hr f32_zero (by linarith [h.1])
  have t2 : rn (2 * b) ≤ 2 := rn_le hr two32 (by linarith [h.2])
  have u0 : 0 ≤ rn (3 - rn (2 * b)) := rn_ge hr f32_zero (by linarith)
  have u3 : rn (3 - rn (2 * b)) ≤ 3 := rn_le hr three32 (by linarith)
  unfold smooth
  refine ⟨rn_ge hr f32_zero (mul_nonneg bb u0), ?_⟩
  rcases le_or_gt b (1 / 2) with c | c
  · have q : rn (b * b) ≤ 1 / 4 := rn_le hr quarter32 (by nlinarith [h.1])
    exact rn_le hr one32 (by nlinarith)
  rcases eq_or_lt_of_le h.2 with rfl | c2
  · rw [show (1 : ℚ) * 1 = 1 by ring, show (2 : ℚ) * 1 = 2 by ring, rn_fix hr one32, rn_fix hr two32, show (3 : ℚ) - 2 = 1 by ring, rn_fix hr one32,
      show (1 : ℚ) * 1 = 1 by ring, rn_fix hr one32]
  obtain ⟨m, m1, m2, hm⟩ := upper_half hb c c2
  have mpos : 0 < m := by
    have : (0 : ℚ) < m * (2 : ℚ) ^ (-24 : ℤ) := by rw [← hm]; linarith
    have := (mul_pos_iff_of_pos_right (zpow_pos (by norm_num : (0 : ℚ) < 2) _)).1 this
    exact_mod_cast this
  rw [abs_of_pos mpos] at m1 m2
  have e23 : (2 : ℚ) ^ (-24 : ℤ) = 1 / 2 ^ 24 := by norm_num
  have e22 : (2 : ℚ) ^ (-23 : ℤ) = 1 / 2 ^ 23 := by norm_num
  have ft : F32 (2 * b) := by
    have := f32_scaled (m := m) (e := -23) (by rw [abs_of_pos mpos]; omega) (by norm_num) (by norm_num)
    rw [e22] at this
    rw [hm, e23]; convert this using 1; ring
  have fu : F32 (3 - 2 * b) := by
    have := f32_scaled (m := 3 * 2 ^ 23 - m) (e := -23) (by rw [abs_le]; omega) (by norm_num) (by norm_num)
    rw [e22] at this
    rw [hm, e23]; convert this using 1; push_cast; ring
  rw [rn_fix hr ft, rn_fix hr fu]
  have er := rn_err hr (x := b * b) (j := 0) (by norm_num) (by norm_num) (by
    rw [abs_of_nonneg (mul_nonneg h.1 h.1)]; norm_num; nlinarith [h.1])
  have e25 : (2 : ℚ) ^ ((0 : ℤ) - 25) = 1 / 2 ^ 25 := by norm_num
  rw [e25] at er
  have er := (abs_le.1 er).2
  apply le_one_of_lt hr
  have k1 : rn (b * b) * (3 - 2 * b) ≤ (b * b + 1 / 2 ^ 25) * (3 - 2 * b) := mul_le_mul_of_nonneg_right (by linarith) (by linarith)
  have k2 : b * b * (3 - 2 * b) ≤ 1 := by nlinarith [mul_nonneg (sq_nonneg (1 - b)) (by linarith : (0:ℚ) ≤ 1 + 2 * b)]
  have k3 : (1 / 2 ^ 25 : ℚ) * (3 - 2 * b) < 1 / 2 ^ 24 := by norm_num; linarith
  linarith

theorem carrier_range (hr : Nearest rn) {s q p : ℚ} (hs : 0 < s ∧ s ≤ 1 - 1 / 2 ^ 20) (hq : 0 ≤ q ∧ q ≤ 1) (hp : 0 ≤ p ∧ p < 1) :
    0 ≤ carrier rn s q p ∧ carrier rn s q p ≤ 1 := by
  obtain ⟨a, b⟩ := smooth_range hr (triangle_f32 hr s p) (triangle_range hr hs hp)
  obtain ⟨c, d⟩ := unit hr (x := 1 - q) ⟨by linarith [hq.2], by linarith [hq.1]⟩
  unfold carrier
  obtain ⟨e, f⟩ := unit hr (x := rn (1 - q) * smooth rn (triangle rn s p)) ⟨mul_nonneg c a, by nlinarith⟩
  exact unit hr ⟨by linarith, by linarith⟩

theorem rn_abs (hr : Nearest rn) {x a : ℚ} (ha : F32 a) (h : |x| ≤ a) : |rn x| ≤ a :=
  abs_le.2 ⟨rn_ge hr (f32_neg ha) (abs_le.1 h).1, rn_le hr ha (abs_le.1 h).2⟩

/-- The sum of two parts of a whole, each rounded. -/
theorem blend_range (hr : Nearest rn) {w c d : ℚ} (hF : F32 w) (hw : 0 ≤ w ∧ w ≤ 1) (hc : |c| ≤ 1) (hd : |d| ≤ 1) :
    |rn (rn (rn (1 - w) * c) + rn (w * d))| ≤ 1 := by
  obtain ⟨v0, v1⟩ := unit hr (x := 1 - w) ⟨by linarith [hw.2], by linarith [hw.1]⟩
  have a : |rn (rn (1 - w) * c)| ≤ rn (1 - w) := rn_abs hr (hr _).1 (by
    rw [abs_mul, abs_of_nonneg v0]; nlinarith [abs_nonneg c])
  have b : |rn (w * d)| ≤ w := rn_abs hr hF (by rw [abs_mul, abs_of_nonneg hw.1]; nlinarith [abs_nonneg d])
  have er := rn_err hr (x := 1 - w) (j := 0) (by norm_num) (by norm_num) (by
    rw [abs_of_nonneg (by linarith [hw.2])]; norm_num; linarith [hw.1])
  have e25 : (2 : ℚ) ^ ((0 : ℤ) - 25) = 1 / 2 ^ 25 := by norm_num
  rw [e25] at er
  have er := (abs_le.1 er).2
  have s := (abs_add_le (rn (rn (1 - w) * c)) (rn (w * d))).trans (add_le_add a b)
  have s1 : |rn (rn (1 - w) * c) + rn (w * d)| ≤ 1 + 1 / 2 ^ 25 := by linarith
  obtain ⟨s2, s3⟩ := abs_le.1 s1
  refine abs_le.2 ⟨?_, rn_le_one hr s3⟩
  -- the mirror image of rounding
  have hr' : Nearest (fun x => - rn (-x)) := fun x => ⟨f32_neg (hr _).1, fun y hy => by
    have := (hr (-x)).2 (-y) (f32_neg hy)
    rw [show -rn (-x) - x = -(rn (-x) - -x) by ring, abs_neg, show y - x = -(-y - -x) by ring, abs_neg]; exact this⟩
  have := rn_le_one hr' (z := -(rn (rn (1 - w) * c) + rn (w * d))) (by linarith)
  simp only [neg_neg] at this
  linarith

theorem modulator_range (hr : Nearest rn) (hcos : ∀ x, |cosf x| ≤ 1) {tau m p : ℚ} (hF : F32 m) (hm : 0 ≤ m) : |modulator rn cosf tau m p| ≤ 1 := by
  unfold modulator
  obtain ⟨a, b⟩ := fract_mem m hm
  refine blend_range hr (fract_f32 hF hm) ⟨a, b.le⟩ ?_ (hcos _)
  split
  · simp
  · exact hcos _

/-- **C142** The samples stay within -1 and 1, whatever the rounding does: for every list of frames, every side, every peak from 0 to 1 and every two
frequencies that are not negative. All that is used of the cosine is that it is never larger than 1. -/
theorem within (hr : Nearest rn) (hcos : ∀ x, |cosf x| ≤ 1) {sr tau : ℚ} (hs : Rate sr) : ∀ (l : List Input) (phase : ℚ), 0 ≤ phase → phase < 1 →
    (∀ i ∈ l, Fair sr i.base ∧ 0 ≤ i.form ∧ 0 ≤ i.peak ∧ i.peak ≤ 1) → ∀ w ∈ (run rn cosf tau (rn (1 / sr)) phase l).1, |w| ≤ 1
  | [], _, _, _, _, w, hw => by simp [run] at hw
  | i :: rest, phase, h0, h1, hl, w, hw => by
    obtain ⟨hf, fm, p0, p1⟩ := hl i (by simp)
    rw [run] at hw
    rcases List.mem_cons.1 hw with rfl | hw
    · unfold frame
      have c := carrier_range hr (side_range hr i.side) ⟨p0, p1⟩ ⟨h0, h1⟩
      have m := modulator_range hr hcos (tau := tau) (p := phase) (hr (i.form / max i.base (rn (1 / 10 ^ 6)))).1
        (rn_ge hr f32_zero (div_nonneg fm (hf.nonneg.trans (le_max_left _ _))))
      refine rn_abs hr one32 ?_
      rw [abs_mul, abs_of_nonneg c.1]
      nlinarith [abs_nonneg (modulator rn cosf tau (rn (i.form / max i.base (rn (1 / 10 ^ 6)))) phase)]
    · obtain ⟨a, b, -⟩ := phase_step hr hs hf h0 h1
      exact within hr hcos hs rest _ a b (fun j hj => hl j (by simp [hj])) w hw

/-- **C142** The oscillator stays in tune: after `n` frames its place in the period is at most `n / 2^23` of a period off the place of an ideal oscillator that
got the same base frequencies. -/
theorem drift (hr : Nearest rn) {sr tau : ℚ} (hs : Rate sr) (l : List Input) : ∀ (phase : ℚ), 0 ≤ phase → phase < 1 → (∀ i ∈ l, Fair sr i.base) →
    0 ≤ (run rn cosf tau (rn (1 / sr)) phase l).2 ∧ (run rn cosf tau (rn (1 / sr)) phase l).2 < 1 ∧
      Near (l.length / 2 ^ 23) (run rn cosf tau (rn (1 / sr)) phase l).2 (phase + (l.map (fun i => i.base / sr)).sum) := by
  induction l with
  | nil => intro phase h0 h1 _; exact ⟨h0, h1, near_mono (near_of_abs (d := 0) (by simp [run])) (by simp)⟩
  | cons i rest ih =>
    intro phase h0 h1 hl
    obtain ⟨a, b, n⟩ := phase_step hr hs (hl i (by simp)) h0 h1
    have e : (frame rn cosf tau (rn (1 / sr)) phase i).2 = Tracker.fract (rn (phase + rn (i.base * rn (1 / sr)))) := rfl
    rw [← e] at a b n
    obtain ⟨c, d, m⟩ := ih _ a b (fun j hj => hl j (by simp [hj]))
    have er : (run rn cosf tau (rn (1 / sr)) phase (i :: rest)).2 = (run rn cosf tau (rn (1 / sr)) (frame rn cosf tau (rn (1 / sr)) phase i).2 rest).2 := by rw [run]
    rw [er]
    refine ⟨c, d, ?_⟩
    have n0 := near_add n (rest.map (fun i : Input => i.base / sr)).sum
    have := near_trans m n0
    rw [List.map_cons, List.sum_cons, ← add_assoc]
    refine near_mono this ?_
    rw [List.length_cons]; push_cast; linarith

/-- **C142** Over the whole range of the base frequency (0.43 Hz and up) and sample rates up to 2 MHz the oscillator never gets stuck: every frame changes its
place in the period. -/
theorem moves (hr : Nearest rn) {sr tau phase : ℚ} (hs : Rate sr) (hsr : sr ≤ 2 ^ 21) (h0 : 0 ≤ phase) (h1 : phase < 1) (i : Input) (hf : Fair sr i.base)
    (hlow : 440 / 2 ^ 10 ≤ i.base) : (run rn cosf tau (rn (1 / sr)) phase [i]).2 ≠ phase := by
  obtain ⟨-, -, k, hk⟩ := drift (tau := tau) (cosf := cosf) hr hs [i] phase h0 h1 (by simpa using hf)
  intro e
  rw [e] at hk
  have hs0 : 0 < sr := by linarith [hs.low]
  have d1 : 1 / 2 ^ 23 < i.base / sr := by rw [lt_div_iff₀ hs0]; norm_num at hsr hlow ⊢; linarith
  have d2 : i.base / sr ≤ 1 / 2 := by rw [div_le_iff₀ hs0]; linarith [hf.half]
  simp only [List.length_cons, List.length_nil, List.map_cons, List.map_nil, List.sum_cons, List.sum_nil] at hk
  obtain ⟨k1, k2⟩ := abs_le.1 hk
  norm_num at k1 k2 d1
  rcases le_or_gt k 0 with c | c
  · have : (k : ℚ) ≤ 0 := by exact_mod_cast c
    linarith
  · have : (1 : ℚ) ≤ k := by exact_mod_cast c
    linarith

/-- The line with rounding is close to the line. -/
theorem triangle_close (hr : Nearest rn) {s p : ℚ} (hs : 0 < s ∧ s ≤ 1 - 1 / 2 ^ 20) (hF : F32 p) (hp : 0 ≤ p ∧ p < 1) :
    |triangle rn s p - line s p| ≤ 1 / 2 ^ 21 := by
  have f20 : F32 (1 / 2 ^ 20) := by
    have := pow2_f32 (k := -20) (by norm_num) (by norm_num); norm_num at this ⊢; exact this
  have d : 1 / 2 ^ 20 ≤ rn (1 - s) := rn_ge hr f20 (by linarith [hs.2])
  have d0 : 0 < rn (1 - s) := lt_of_lt_of_le (by norm_num) d
  have e25 : (2 : ℚ) ^ ((0 : ℤ) - 25) = 1 / 2 ^ 25 := by norm_num
  unfold triangle line
  split
  · next h =>
    have le1 : p / s ≤ 1 := (div_le_one hs.1).2 h
    have ge0 : 0 ≤ p / s := div_nonneg hp.1 hs.1.le
    have y1 : 1 ≤ rn (rn (1 - p) / rn (1 - s)) := rn_ge hr one32 ((one_le_div d0).2 (rn_mono hr (by linarith)))
    rw [min_eq_left ((rn_le hr one32 le1).trans y1)]
    have er := rn_err hr (x := p / s) (j := 0) (by norm_num) (by norm_num) (by rw [abs_of_nonneg ge0]; norm_num; exact le1)
    rw [e25] at er
    exact er.trans (by norm_num)
  · next h =>
    have h := not_le.1 h
    have x1 : 1 ≤ rn (p / s) := rn_ge hr one32 ((one_le_div hs.1).2 h.le)
    have nm : rn (1 - p) ≤ rn (1 - s) := rn_mono hr (by linarith)
    have b1 : rn (1 - p) / rn (1 - s) ≤ 1 := (div_le_one d0).2 nm
    rw [min_eq_right ((rn_le hr one32 b1).trans x1)]
    have hA := gap_below_one hF hp.2
    have n0 : 0 ≤ rn (1 - p) := rn_ge hr f32_zero (by linarith [hp.2])
    have er := rn_err hr (x := rn (1 - p) / rn (1 - s)) (j := 0) (by norm_num) (by norm_num) (by
      rw [abs_of_nonneg (div_nonneg n0 d0.le)]; norm_num; exact b1)
    rw [e25] at er
    have low : (2 : ℚ) ^ (-126 : ℤ) ≤ 1 / 2 ^ 24 := by norm_num
    have high : (1 : ℚ) < (2 : ℚ) ^ (127 : ℤ) := by norm_num
    have B20 : (1 / 2 ^ 20 : ℚ) ≤ 1 - s := by linarith [hs.2]
    have rA := NormFloatLemmas.rn_rel hr (x := 1 - p) (by rw [abs_of_nonneg (by linarith)]; exact low.trans (by linarith))
      (by rw [abs_of_nonneg (by linarith)]; exact lt_of_le_of_lt (by linarith [hp.1]) high)
    have rB := NormFloatLemmas.rn_rel hr (x := 1 - s) (by rw [abs_of_nonneg (by linarith)]; exact low.trans (le_trans (by norm_num) B20))
      (by rw [abs_of_nonneg (by linarith)]; exact lt_of_le_of_lt (by linarith [hs.1]) high)
    rw [abs_of_nonneg (by linarith : (0 : ℚ) ≤ 1 - p)] at rA
    have B0 : 0 < 1 - s := by norm_num at hs ⊢; linarith [hs.2]
    rw [abs_of_pos B0] at rB
    have A0 : 0 < 1 - p := by linarith [hp.2]
    generalize rn (1 - p) = A' at *
    generalize rn (1 - s) = B' at *
    generalize 1 - p = A at *
    generalize 1 - s = B at *
    have q : |A' / B' - A / B| ≤ 1 / 2 ^ 22 := by
      rw [div_sub_div _ _ d0.ne' B0.ne', abs_div, abs_of_pos (mul_pos d0 B0), div_le_iff₀ (mul_pos d0 B0)]
      have t : |A' * B - B' * A| ≤ A / 2 ^ 24 * B + B / 2 ^ 24 * A := by
        rw [show A' * B - B' * A = (A' - A) * B - (B' - B) * A by ring]
        refine (abs_sub _ _).trans (add_le_add ?_ ?_)
        · rw [abs_mul, abs_of_pos B0]; exact mul_le_mul_of_nonneg_right rA B0.le
        · rw [abs_mul, abs_of_pos A0]; exact mul_le_mul_of_nonneg_right rB A0.le
      have A2 : A ≤ 2 * B' := by
        have := (abs_le.1 rA).1
        norm_num at this; linarith
      refine t.trans ?_
      have : A * B ≤ 2 * B' * B := mul_le_mul_of_nonneg_right A2 B0.le
      norm_num; linarith
    have := (abs_sub_le (rn (A' / B')) (A' / B') (A / B)).trans (add_le_add er q)
    exact this.trans (by norm_num)

theorem line_range {s p : ℚ} (hs : 0 < s ∧ s < 1) (hp : 0 ≤ p ∧ p < 1) : 0 ≤ line s p ∧ line s p ≤ 1 := by
  unfold line
  split
  · next h => exact ⟨div_nonneg hp.1 hs.1.le, (div_le_one hs.1).2 h⟩
  · next h =>
    have := not_le.1 h
    exact ⟨div_nonneg (by linarith [hp.2]) (by linarith [hs.2]), (div_le_one (by linarith [hs.2])).2 (by linarith)⟩

/-- The smooth step with rounding is close to the smooth step. -/
theorem smooth_close (hr : Nearest rn) {b t : ℚ} (h : 0 ≤ b ∧ b ≤ 1) (ht : 0 ≤ t ∧ t ≤ 1) (hd : |b - t| ≤ 1 / 2 ^ 21) :
    |smooth rn b - t ^ 2 * (3 - 2 * t)| ≤ 3 / 2 ^ 21 := by
  have bb0 : 0 ≤ b * b := mul_nonneg h.1 h.1
  have bb1 : b * b ≤ 1 := by nlinarith [h.1, h.2]
  have e1 := rn_err hr (x := b * b) (j := 0) (by norm_num) (by norm_num) (by rw [abs_of_nonneg bb0]; norm_num; exact bb1)
  have e2 := rn_err hr (x := 2 * b) (j := 1) (by norm_num) (by norm_num) (by rw [abs_of_nonneg (by linarith [h.1])]; norm_num; linarith [h.2])
  have t0 : 0 ≤ rn (2 * b) := rn_ge hr f32_zero (by linarith [h.1])
  have t2 : rn (2 * b) ≤ 2 := rn_le hr two32 (by linarith [h.2])
  have e3 := rn_err hr (x := 3 - rn (2 * b)) (j := 2) (by norm_num) (by norm_num) (by rw [abs_of_nonneg (by linarith)]; norm_num; linarith)
  have u0 : 0 ≤ rn (3 - rn (2 * b)) := rn_ge hr f32_zero (by linarith)
  have u3 : rn (3 - rn (2 * b)) ≤ 3 := rn_le hr three32 (by linarith)
  obtain ⟨v0, v1⟩ := unit hr ⟨bb0, bb1⟩
  have e4 := rn_err hr (x := rn (b * b) * rn (3 - rn (2 * b))) (j := 2) (by norm_num) (by norm_num) (by
    rw [abs_of_nonneg (mul_nonneg v0 u0)]; norm_num; nlinarith)
  norm_num at e1 e2 e3 e4
  unfold smooth
  generalize rn (rn (b * b) * rn (3 - rn (2 * b))) = w at *
  generalize rn (3 - rn (2 * b)) = u at *
  generalize rn (2 * b) = z at *
  generalize rn (b * b) = v at *
  -- the product
  have p1 : |v * u - b * b * (3 - 2 * b)| ≤ 5 / 2 ^ 24 := by
    have i1 : |u - (3 - 2 * b)| ≤ 3 / 2 ^ 24 := by
      rw [show u - (3 - 2 * b) = (u - (3 - z)) - (z - 2 * b) by ring]
      exact (abs_sub _ _).trans ((add_le_add e3 e2).trans (by norm_num))
    rw [show v * u - b * b * (3 - 2 * b) = (v - b * b) * u + b * b * (u - (3 - 2 * b)) by ring]
    refine (abs_add_le _ _).trans ?_
    rw [abs_mul, abs_mul, abs_of_nonneg u0, abs_of_nonneg bb0]
    have a1 : |v - b * b| * u ≤ 1 / 33554432 * 3 := mul_le_mul e1 u3 u0 (by norm_num)
    have a2 : b * b * |u - (3 - 2 * b)| ≤ 1 * (3 / 2 ^ 24) := mul_le_mul bb1 i1 (abs_nonneg _) (by norm_num)
    refine (add_le_add a1 a2).trans (by norm_num)
  -- the curve
  have p2 : |b * b * (3 - 2 * b) - t ^ 2 * (3 - 2 * t)| ≤ 3 / 2 * (1 / 2 ^ 21) := by
    rw [show b * b * (3 - 2 * b) - t ^ 2 * (3 - 2 * t) = (b - t) * (3 * (b + t) - 2 * (b * b + b * t + t * t)) by ring, abs_mul, mul_comm]
    refine mul_le_mul ?_ hd (abs_nonneg _) (by norm_num)
    rw [abs_le]
    constructor
    · nlinarith [mul_nonneg h.1 ht.1, mul_nonneg h.1 (sub_nonneg.2 h.2), mul_nonneg ht.1 (sub_nonneg.2 ht.2), mul_nonneg h.1 (sub_nonneg.2 ht.2), mul_nonneg ht.1 (sub_nonneg.2 h.2)]
    · nlinarith [sq_nonneg (b + t - 1), sq_nonneg (b - t)]
  have := (abs_sub_le w (v * u) (t ^ 2 * (3 - 2 * t))).trans (add_le_add e4 ((abs_sub_le _ _ _).trans (add_le_add p1 p2)))
  exact this.trans (by norm_num)

/-- The carrier with rounding is close to the loudness. -/
theorem carrier_close (hr : Nearest rn) {s q p : ℚ} (hs : 0 < s ∧ s ≤ 1 - 1 / 2 ^ 20) (hq : 0 ≤ q ∧ q ≤ 1) (hF : F32 p) (hp : 0 ≤ p ∧ p < 1) :
    |carrier rn s q p - loudness s q p| ≤ 1 / 2 ^ 19 := by
  have ht := line_range (s := s) (p := p) ⟨hs.1, by norm_num at hs ⊢; linarith [hs.2]⟩ hp
  have hb := triangle_range hr hs hp
  have k := smooth_close hr hb ht (triangle_close hr hs hF hp)
  obtain ⟨a, b⟩ := smooth_range hr (triangle_f32 hr s p) hb
  obtain ⟨c, d⟩ := unit hr (x := 1 - q) ⟨by linarith [hq.2], by linarith [hq.1]⟩
  have e1 := rn_err hr (x := 1 - q) (j := 0) (by norm_num) (by norm_num) (by rw [abs_of_nonneg (by linarith [hq.2])]; norm_num; linarith [hq.1])
  have pr : rn (1 - q) * smooth rn (triangle rn s p) ≤ 1 := by nlinarith
  have e2 := rn_err hr (x := rn (1 - q) * smooth rn (triangle rn s p)) (j := 0) (by norm_num) (by norm_num) (by
    rw [abs_of_nonneg (mul_nonneg c a)]; norm_num; exact pr)
  obtain ⟨g, f⟩ := unit hr (x := rn (1 - q) * smooth rn (triangle rn s p)) ⟨mul_nonneg c a, pr⟩
  have e3 := rn_err hr (x := 1 - rn (rn (1 - q) * smooth rn (triangle rn s p))) (j := 0) (by norm_num) (by norm_num) (by
    rw [abs_of_nonneg (by linarith)]; norm_num; linarith)
  norm_num at e1 e2 e3
  unfold carrier loudness
  generalize line s p ^ 2 * (3 - 2 * line s p) = S at *
  generalize smooth rn (triangle rn s p) = w at *
  generalize rn (1 - rn (rn (1 - q) * w)) = r at *
  generalize rn (rn (1 - q) * w) = z at *
  generalize rn (1 - q) = y at *
  have m : |y * w - (1 - q) * S| ≤ 1 / 33554432 + 3 / 2 ^ 21 := by
    rw [show y * w - (1 - q) * S = (y - (1 - q)) * w + (1 - q) * (w - S) by ring]
    refine (abs_add_le _ _).trans (add_le_add ?_ ?_)
    · rw [abs_mul, abs_of_nonneg a]
      exact (mul_le_mul e1 b a (by norm_num)).trans (by norm_num)
    · rw [abs_mul, abs_of_nonneg (by linarith [hq.2])]
      exact (mul_le_mul (by linarith [hq.1] : 1 - q ≤ 1) k (abs_nonneg _) (by norm_num)).trans (by norm_num)
  rw [show r - (1 - (1 - q) * S) = (r - (1 - z)) - ((z - y * w) + (y * w - (1 - q) * S)) by ring]
  exact (abs_sub _ _).trans ((add_le_add e3 ((abs_add_le _ _).trans (add_le_add e2 m))).trans (by norm_num))

/-- **C142** The shape of the period: in every frame the sample is the modulator, a number within [-1, 1] that depends on neither side nor peak, times the
loudness that side and peak ask for at the place in the period, up to `2^-18`. -/
theorem shaped (hr : Nearest rn) (hcos : ∀ x, |cosf x| ≤ 1) {sr tau : ℚ} (hs : Rate sr) (l : List Input) : ∀ (phase : ℚ), F32 phase → 0 ≤ phase → phase < 1 →
    (∀ i ∈ l, Fair sr i.base ∧ 0 ≤ i.form ∧ 0 ≤ i.peak ∧ i.peak ≤ 1) → ∀ (k : Nat) (i : Input), l[k]? = some i →
      ∃ w m p : ℚ, (run rn cosf tau (rn (1 / sr)) phase l).1[k]? = some w ∧ p = (run rn cosf tau (rn (1 / sr)) phase (l.take k)).2 ∧
        m = modulator rn cosf tau (rn (i.form / max i.base (rn (1 / 10 ^ 6)))) p ∧ |m| ≤ 1 ∧ |w - loudness (sideVal rn i.side) i.peak p * m| ≤ 1 / 2 ^ 18 := by
  induction l with
  | nil => intro phase _ _ _ _ k i hk; simp at hk
  | cons i rest ih =>
    intro phase hF h0 h1 hl k j hk
    obtain ⟨hf, fm, p0, p1⟩ := hl i (by simp)
    have er : run rn cosf tau (rn (1 / sr)) phase (i :: rest) = ((frame rn cosf tau (rn (1 / sr)) phase i).1 ::
      (run rn cosf tau (rn (1 / sr)) (frame rn cosf tau (rn (1 / sr)) phase i).2 rest).1, (run rn cosf tau (rn (1 / sr)) (frame rn cosf tau (rn (1 / sr)) phase i).2 rest).2) := by rw [run]
    cases k with
    | zero =>
      simp only [List.getElem?_cons_zero, Option.some.injEq] at hk
      subst hk
      have m1 := modulator_range hr hcos (tau := tau) (p := phase) (hr (i.form / max i.base (rn (1 / 10 ^ 6)))).1
        (rn_ge hr f32_zero (div_nonneg fm (hf.nonneg.trans (le_max_left _ _))))
      refine ⟨_, _, phase, by rw [er]; rfl, rfl, rfl, m1, ?_⟩
      have c := carrier_close hr (side_range hr i.side) ⟨p0, p1⟩ hF ⟨h0, h1⟩
      have cr := carrier_range hr (side_range hr i.side) ⟨p0, p1⟩ ⟨h0, h1⟩
      unfold frame
      simp only
      generalize modulator rn cosf tau (rn (i.form / max i.base (rn (1 / 10 ^ 6)))) phase = m at *
      generalize carrier rn (sideVal rn i.side) i.peak phase = C at *
      have cm : |C * m| ≤ 1 := by rw [abs_mul, abs_of_nonneg cr.1]; nlinarith [abs_nonneg m]
      have e := rn_err hr (x := C * m) (j := 0) (by norm_num) (by norm_num) (by norm_num; rw [← abs_mul]; exact cm)
      norm_num at e
      refine (abs_sub_le _ (C * m) _).trans ((add_le_add e (c := |C * m - loudness (sideVal rn i.side) i.peak phase * m|) (d := 1 / 2 ^ 19) ?_).trans (by norm_num))
      rw [← sub_mul, abs_mul]
      exact (mul_le_mul c m1 (abs_nonneg _) (by norm_num)).trans (by norm_num)
    | succ k =>
      rw [List.getElem?_cons_succ] at hk
      obtain ⟨a, b, -⟩ := phase_step hr hs hf h0 h1
      have e : (frame rn cosf tau (rn (1 / sr)) phase i).2 = Tracker.fract (rn (phase + rn (i.base * rn (1 / sr)))) := rfl
      have F := fract_f32 (hr (phase + rn (i.base * rn (1 / sr)))).1 (rn_ge hr f32_zero (add_nonneg h0 (step_err hr hs hf).1))
      rw [← e] at a b F
      obtain ⟨w, m, p, h2, h3, h4⟩ := ih _ F a b (fun j hj => hl j (by simp [hj])) k j hk
      refine ⟨w, m, p, by rw [er]; simpa using h2, ?_, h4⟩
      rw [h3, List.take_succ_cons]
      have er2 : run rn cosf tau (rn (1 / sr)) phase (i :: rest.take k) = ((frame rn cosf tau (rn (1 / sr)) phase i).1 ::
        (run rn cosf tau (rn (1 / sr)) (frame rn cosf tau (rn (1 / sr)) phase i).2 (rest.take k)).1, (run rn cosf tau (rn (1 / sr)) (frame rn cosf tau (rn (1 / sr)) phase i).2 (rest.take k)).2) := by rw [run]
      rw [er2]

/-- There are roundings and frames that the theorems speak of. -/
example : ∃ rn : ℚ → ℚ, Nearest rn ∧ Rate 44100 ∧ (∀ i ∈ [(⟨440, 880, 1 / 2, 1 / 4⟩ : Input), ⟨110, 1000, 0, 1⟩], Fair 44100 i.base ∧ 0 ≤ i.form ∧ 0 ≤ i.peak ∧ i.peak ≤ 1) := by
  obtain ⟨rn, h⟩ := nearest_exists
  refine ⟨rn, h, ⟨by norm_num, by norm_num⟩, ?_⟩
  intro i hi
  simp only [List.mem_cons, List.mem_nil_iff, or_false] at hi
  rcases hi with rfl | rfl <;> refine ⟨⟨?_, ?_⟩, ?_, ?_, ?_⟩ <;> norm_num

end HexoDSP.FormFMFloatProps
