import Verif.Spec.SinFloat
import Verif.Lemmas.FloatSeq
import Verif.Props.SinNode
/-!
# C138: how far the sine oscillator drifts with `f32` numbers

The frequency is `440 * 2^n` with `n` between -10 and 10 (`src/dsp/mod.rs:1050-1055`).
-/

set_option linter.unusedSectionVars false

namespace HexoDSP.SinFloatProps
open HexoDSP.SinNode HexoDSP.SinSpec
open HexoDSP.Tracker (fract)
open HexoDSP.FloatLemmas (rn_ge rn_le rn_fix rn_err rn_unique f32_zero f32_neg)
open HexoDSP.FloatSeq.Lemmas (fract_mem)
open HexoDSP.FloatNodesProps (one_f32)

variable {rn : ℚ → ℚ}

theorem near_refl (a : ℚ) : Near 0 a a := ⟨0, by simp⟩

theorem near_mono {d d' a b : ℚ} (h : Near d a b) (hd : d ≤ d') : Near d' a b := by
  obtain ⟨k, hk⟩ := h; exact ⟨k, hk.trans hd⟩

theorem near_trans {d d' a b c : ℚ} (h : Near d a b) (h' : Near d' b c) : Near (d + d') a c := by
  obtain ⟨k, hk⟩ := h
  obtain ⟨l, hl⟩ := h'
  refine ⟨k + l, ?_⟩
  have : a - c + ((k + l : ℤ) : ℚ) = (a - b + k) + (b - c + l) := by push_cast; ring
  rw [this]
  exact (abs_add_le _ _).trans (add_le_add hk hl)

theorem near_add {d a b : ℚ} (h : Near d a b) (x : ℚ) : Near d (a + x) (b + x) := by
  obtain ⟨k, hk⟩ := h
  exact ⟨k, by rw [show a + x - (b + x) + k = a - b + k by ring]; exact hk⟩

theorem near_of_abs {d a b : ℚ} (h : |a - b| ≤ d) : Near d a b := ⟨0, by simpa using h⟩

theorem near_fract {x : ℚ} (h : 0 ≤ x) : Near 0 (fract x) x := by
  refine ⟨⌊x⌋, ?_⟩
  unfold fract
  rw [if_pos h]
  simp

/-- The rounded inverse of the sample rate. -/
theorem isr_err (hr : Nearest rn) {sr : ℚ} {j : ℕ} (hj : j ≤ 100) (h1 : (2 : ℚ) ^ j ≤ sr) : |rn (1 / sr) - 1 / sr| ≤ 1 / 2 ^ (j + 25) := by
  have hp : (0 : ℚ) < 2 ^ j := by positivity
  have h0 : 0 < sr := lt_of_lt_of_le hp h1
  have := rn_err hr (x := 1 / sr) (j := -(j : ℤ)) (by omega) (by omega) (by
    rw [abs_of_nonneg (by positivity), zpow_neg, zpow_natCast, ← one_div]
    exact one_div_le_one_div_of_le hp h1)
  rw [show (-(j : ℤ) - 25) = -((j + 25 : ℕ) : ℤ) by push_cast; ring, zpow_neg, zpow_natCast, ← one_div] at this
  exact this

theorem rate_octave {sr : ℚ} (h : Rate sr) : ∃ j : ℕ, j ≤ 100 ∧ (2 : ℚ) ^ j ≤ sr ∧ sr ≤ 2 ^ (j + 1) := by
  have h1 := h.low
  have key : ∀ n : ℕ, n ≤ 100 → sr < 2 ^ n → ∃ j : ℕ, j ≤ 100 ∧ (2 : ℚ) ^ j ≤ sr ∧ sr ≤ 2 ^ (j + 1) := by
    intro n
    induction n with
    | zero => intro _ h2; norm_num at h2; linarith
    | succ n ih =>
      intro hn h2
      rcases lt_or_ge sr (2 ^ n) with h3 | h3
      · exact ih (by omega) h3
      · exact ⟨n, by omega, h3, h2.le⟩
  exact key 100 le_rfl h.high

/-- The step of one frame. -/
theorem step_err (hr : Nearest rn) {sr f : ℚ} (hs : Rate sr) (hf : Fair sr f) :
    0 ≤ rn (f * rn (1 / sr)) ∧ rn (f * rn (1 / sr)) ≤ 1 ∧ |rn (f * rn (1 / sr)) - f / sr| ≤ 2 / 2 ^ 25 := by
  obtain ⟨j, hj, h1, h2⟩ := rate_octave hs
  have hsr : 0 < sr := by linarith [hs.low]
  have he := isr_err hr hj h1
  have hi0 : 0 ≤ rn (1 / sr) := rn_ge hr f32_zero (by positivity)
  have hp : (0 : ℚ) < 2 ^ j := by positivity
  have hfj : f ≤ 2 ^ j := by
    have := hf.half
    rw [pow_succ] at h2
    linarith
  have e1 : |f * rn (1 / sr) - f / sr| ≤ 1 / 2 ^ 25 := by
    rw [show f * rn (1 / sr) - f / sr = f * (rn (1 / sr) - 1 / sr) by ring, abs_mul, abs_of_nonneg hf.nonneg]
    calc f * |rn (1 / sr) - 1 / sr| ≤ 2 ^ j * (1 / 2 ^ (j + 25)) := mul_le_mul hfj he (abs_nonneg _) hp.le
      _ = 1 / 2 ^ 25 := by rw [pow_add]; field_simp
  have hfs : f / sr ≤ 1 / 2 := by
    rw [div_le_iff₀ hsr]; linarith [hf.half]
  have hx : |f * rn (1 / sr)| ≤ (2 : ℚ) ^ (0 : ℤ) := by
    rw [abs_of_nonneg (mul_nonneg hf.nonneg hi0)]
    have := (abs_le.1 e1).2
    norm_num at this ⊢
    linarith
  have e2 := rn_err hr (by norm_num) (by norm_num) hx
  have e3 : ((2 : ℚ) ^ ((0 : ℤ) - 25)) = 1 / 2 ^ 25 := by rw [zero_sub, zpow_neg, one_div]; rfl
  rw [e3] at e2
  refine ⟨rn_ge hr f32_zero (mul_nonneg hf.nonneg hi0), rn_le hr one_f32 ?_, ?_⟩
  · rw [abs_of_nonneg (mul_nonneg hf.nonneg hi0)] at hx; simpa using hx
  · rw [show rn (f * rn (1 / sr)) - f / sr = (rn (f * rn (1 / sr)) - f * rn (1 / sr)) + (f * rn (1 / sr) - f / sr) by ring]
    refine (abs_add_le _ _).trans ?_
    linarith

theorem phase_step (hr : Nearest rn) {sr f phase : ℚ} (hs : Rate sr) (hf : Fair sr f) (h0 : 0 ≤ phase) (h1 : phase < 1) :
    0 ≤ fract (rn (phase + rn (f * rn (1 / sr)))) ∧ fract (rn (phase + rn (f * rn (1 / sr)))) < 1 ∧
    Near (1 / 2 ^ 23) (fract (rn (phase + rn (f * rn (1 / sr))))) (phase + f / sr) := by
  obtain ⟨d0, d1, d2⟩ := step_err hr hs hf
  have hx0 : 0 ≤ rn (phase + rn (f * rn (1 / sr))) := rn_ge hr f32_zero (add_nonneg h0 d0)
  have e := rn_err hr (x := phase + rn (f * rn (1 / sr))) (j := 1) (by norm_num) (by norm_num) (by
    rw [abs_of_nonneg (add_nonneg h0 d0)]
    have : (2 : ℚ) ^ (1 : ℤ) = 2 := by norm_num
    linarith)
  have e3 : ((2 : ℚ) ^ ((1 : ℤ) - 25)) = 1 / 2 ^ 24 := by rw [show (1 : ℤ) - 25 = -24 by norm_num, zpow_neg, one_div]; rfl
  rw [e3] at e
  refine ⟨(fract_unit' hx0).1, (fract_unit' hx0).2, ?_⟩
  have n1 := near_trans (near_fract hx0) (near_of_abs e)
  have n2 : Near (2 / 2 ^ 25) (phase + rn (f * rn (1 / sr))) (phase + f / sr) := by
    refine near_of_abs ?_
    rw [show phase + rn (f * rn (1 / sr)) - (phase + f / sr) = rn (f * rn (1 / sr)) - f / sr by ring]
    exact d2
  exact near_mono (near_trans n1 n2) (by norm_num)
where
  fract_unit' {x : ℚ} (h : 0 ≤ x) : 0 ≤ fract x ∧ fract x < 1 := fract_mem x h

theorem heard_step (hr : Nearest rn) {phase pm p : ℚ} (h0 : 0 ≤ phase) (h1 : phase < 1) (hm : |pm| ≤ 1) (fuel : Nat)
    (h : wrap rn fuel (rn (phase + pm)) = some p) : 0 ≤ p ∧ Near (1 / 2 ^ 23) p (phase + pm) := by
  obtain ⟨m1, m2⟩ := abs_le.1 hm
  have hneg : F32 (-1) := f32_neg one_f32
  have e := rn_err hr (x := phase + pm) (j := 1) (by norm_num) (by norm_num) (by
    rw [abs_le]; constructor <;> norm_num <;> linarith)
  have e3 : ((2 : ℚ) ^ ((1 : ℤ) - 25)) = 1 / 2 ^ 24 := by rw [show (1 : ℤ) - 25 = -24 by norm_num, zpow_neg, one_div]; rfl
  rw [e3] at e
  have hge : -1 ≤ rn (phase + pm) := rn_ge hr hneg (by linarith)
  cases fuel with
  | zero =>
    rw [wrap] at h
    split at h
    · cases h
    · next hx => rw [← Option.some.inj h]; exact ⟨not_lt.1 hx, near_mono (near_of_abs e) (by norm_num)⟩
  | succ fuel =>
    rw [wrap] at h
    split at h
    · next hx =>
      have hy : 0 ≤ rn (rn (phase + pm) + 1) := rn_ge hr f32_zero (by linarith)
      have hw : wrap rn fuel (rn (rn (phase + pm) + 1)) = some (rn (rn (phase + pm) + 1)) := by
        cases fuel <;> rw [wrap, if_neg (not_lt.2 hy)]
      rw [hw] at h
      rw [← Option.some.inj h]
      refine ⟨hy, ?_⟩
      have e' := rn_err hr (x := rn (phase + pm) + 1) (j := 1) (by norm_num) (by norm_num) (by
        rw [abs_le]; constructor <;> norm_num <;> linarith)
      rw [e3] at e'
      have n1 : Near (1 / 2 ^ 24) (rn (rn (phase + pm) + 1)) (rn (phase + pm)) := ⟨-1, by
        push_cast
        rw [show rn (rn (phase + pm) + 1) - rn (phase + pm) + -1 = rn (rn (phase + pm) + 1) - (rn (phase + pm) + 1) by ring]
        exact e'⟩
      exact near_mono (near_trans n1 (near_of_abs e)) (by norm_num)
    · next hx => rw [← Option.some.inj h]; exact ⟨not_lt.1 hx, near_mono (near_of_abs e) (by norm_num)⟩

/-- **C138** In `f32` arithmetic, with whatever rounding to the nearest: after any number of frames, in which the frequency may change, the oscillator has turned
as far as the frequencies say, up to one part in `2^23` of a turn for every frame. That is an error of at most `2^-23` times the sample rate in the frequency. -/
theorem drift (hr : Nearest rn) {sr : ℚ} (hs : Rate sr) (fuel : Nat) : ∀ (l : List (ℚ × ℚ)) (phase : ℚ) (ps : List ℚ) (phase' : ℚ), 0 ≤ phase → phase < 1 →
    (∀ f ∈ l, Fair sr f.1) → run rn fuel (rn (1 / sr)) phase l = some (ps, phase') →
      0 ≤ phase' ∧ phase' < 1 ∧ Near (l.length / 2 ^ 23) phase' (phase + (l.map (fun f => f.1 / sr)).sum)
  | [], phase, ps, phase', h0, h1, _, h => by
    rw [run] at h
    obtain ⟨-, rfl⟩ := Prod.mk.inj (Option.some.inj h)
    exact ⟨h0, h1, near_mono (near_of_abs (d := 0) (by simp)) (by simp)⟩
  | (freq, pm) :: rest, phase, ps, phase', h0, h1, hf, h => by
    rw [run] at h
    cases hfr : frame rn fuel (rn (1 / sr)) phase freq pm with
    | none => rw [hfr] at h; cases h
    | some r =>
      obtain ⟨q, ph⟩ := r
      rw [hfr] at h
      obtain ⟨⟨qs, ph'⟩, hrun, he⟩ := Option.map_eq_some_iff.1 h
      obtain ⟨-, rfl⟩ := Prod.mk.inj he
      unfold frame at hfr
      cases hw : wrap rn fuel (rn (phase + pm)) with
      | none => rw [hw] at hfr; cases hfr
      | some u =>
        rw [hw] at hfr
        obtain ⟨-, hph⟩ := Prod.mk.inj (Option.some.inj hfr)
        obtain ⟨a, b, c⟩ := phase_step (f := freq) hr hs (hf (freq, pm) List.mem_cons_self) h0 h1
        rw [hph] at a b c
        obtain ⟨a', b', c'⟩ := drift hr hs fuel rest _ _ _ a b (fun f hm => hf f (List.mem_cons_of_mem _ hm)) hrun
        refine ⟨a', b', ?_⟩
        have n0 := near_add (x := (rest.map (fun f : ℚ × ℚ => f.1 / sr)).sum) c
        have n := near_trans c' n0
        rw [List.map_cons, List.sum_cons, ← add_assoc]
        refine near_mono n ?_
        rw [List.length_cons]; push_cast; linarith

/-- **C138** What is heard: for a phase modulation between -1 and 1 the sine in frame `i` is taken at the right place, up to `i + 1` parts in `2^23` of a turn. -/
theorem heard_drift (hr : Nearest rn) {sr : ℚ} (hs : Rate sr) (fuel : Nat) : ∀ (l : List (ℚ × ℚ)) (phase : ℚ) (ps : List ℚ) (phase' : ℚ), 0 ≤ phase → phase < 1 →
    (∀ f ∈ l, Fair sr f.1 ∧ |f.2| ≤ 1) → run rn fuel (rn (1 / sr)) phase l = some (ps, phase') → ∀ (i : Nat) f p, l[i]? = some f → ps[i]? = some p →
      0 ≤ p ∧ p < 1 ∧ Near ((i + 1) / 2 ^ 23) p (phase + ((l.take i).map (fun f => f.1 / sr)).sum + f.2)
  | [], phase, ps, phase', _, _, _, _, i, f, p, hl, _ => by simp at hl
  | (freq, pm) :: rest, phase, ps, phase', h0, h1, hf, h, i, f, p, hl, hps => by
    rw [run] at h
    cases hfr : frame rn fuel (rn (1 / sr)) phase freq pm with
    | none => rw [hfr] at h; cases h
    | some r =>
      obtain ⟨q, ph⟩ := r
      rw [hfr] at h
      obtain ⟨⟨qs, ph'⟩, hrun, he⟩ := Option.map_eq_some_iff.1 h
      obtain ⟨rfl, rfl⟩ := Prod.mk.inj he
      unfold frame at hfr
      cases hw : wrap rn fuel (rn (phase + pm)) with
      | none => rw [hw] at hfr; cases hfr
      | some u =>
        rw [hw] at hfr
        obtain ⟨rfl, hph⟩ := Prod.mk.inj (Option.some.inj hfr)
        cases i with
        | zero =>
          simp only [List.getElem?_cons_zero, Option.some.injEq] at hl hps
          subst hl hps
          obtain ⟨u0, un⟩ := heard_step hr h0 h1 (hf _ List.mem_cons_self).2 fuel hw
          obtain ⟨f0, f1⟩ := fract_mem u u0
          refine ⟨f0, f1, ?_⟩
          have := near_trans (near_fract u0) un
          simp only [List.take_zero, List.map_nil, List.sum_nil, add_zero]
          exact near_mono this (by norm_num)
        | succ i =>
          simp only [List.getElem?_cons_succ] at hl hps
          obtain ⟨a, b, c⟩ := phase_step (f := freq) hr hs (hf (freq, pm) List.mem_cons_self).1 h0 h1
          rw [hph] at a b c
          obtain ⟨a', b', c'⟩ := heard_drift hr hs fuel rest _ _ _ a b (fun f hm => hf f (List.mem_cons_of_mem _ hm)) hrun i f p hl hps
          refine ⟨a', b', ?_⟩
          have n0 := near_add (x := f.2) (near_add (x := ((rest.take i).map (fun f : ℚ × ℚ => f.1 / sr)).sum) c)
          have n := near_trans c' n0
          rw [List.take_succ_cons, List.map_cons, List.sum_cons, ← add_assoc]
          refine near_mono n ?_
          push_cast; linarith

/-- As long as the frequency is above a `2^23`-th of the sample rate (0.0053 Hz at 44100 Hz) the oscillator moves in every frame. -/
theorem moves_above (hr : Nearest rn) {sr : ℚ} (hs : Rate sr) (fuel : Nat) {phase f pm q phase' : ℚ} (h0 : 0 ≤ phase) (h1 : phase < 1) (hf : Fair sr f)
    (hlow : sr / 2 ^ 23 < f) (h : frame rn fuel (rn (1 / sr)) phase f pm = some (q, phase')) : phase' ≠ phase := by
  have hsr : 0 < sr := by linarith [hs.low]
  have hrun : run rn fuel (rn (1 / sr)) phase [(f, pm)] = some ([q], phase') := by rw [run, h]; rfl
  obtain ⟨-, -, k, hk⟩ := drift hr hs fuel [(f, pm)] phase [q] phase' h0 h1 (by simpa using hf) hrun
  rintro rfl
  have d1 : 1 / 2 ^ 23 < f / sr := by rw [lt_div_iff₀ hsr]; linarith
  have d2 : f / sr ≤ 1 / 2 := by rw [div_le_iff₀ hsr]; linarith [hf.half]
  simp only [List.map_cons, List.map_nil, List.sum_cons, List.sum_nil, add_zero, List.length_cons, List.length_nil] at hk
  rw [show phase' - (phase' + f / sr) + k = k - f / sr by ring] at hk
  obtain ⟨k1, k2⟩ := abs_le.1 hk
  norm_num at k1 k2 d1
  rcases lt_trichotomy k 0 with hk0 | rfl | hk0
  · have : (k : ℚ) ≤ -1 := by exact_mod_cast Int.le_sub_one_of_lt hk0
    linarith
  · simp at k1; linarith
  · have : (1 : ℚ) ≤ k := by exact_mod_cast hk0
    linarith

/-- **C138** The oscillator moves in every frame, at every pitch: the lowest frequency that the pitch input can ask for is `440 / 2^10` Hz. -/
theorem moves (hr : Nearest rn) {sr : ℚ} (hs : Rate sr) (hsr : sr ≤ 2 ^ 21) (fuel : Nat) {phase f pm q phase' : ℚ} (h0 : 0 ≤ phase) (h1 : phase < 1) (hf : Fair sr f)
    (hlow : 440 / 2 ^ 10 ≤ f) (h : frame rn fuel (rn (1 / sr)) phase f pm = some (q, phase')) : phase' ≠ phase := by
  refine moves_above hr hs fuel h0 h1 hf ?_ h
  norm_num at hsr hlow ⊢
  linarith

theorem upper_half {x : ℚ} (hx : F32 x) (h0 : 1 / 2 < x) (h1 : x < 1) : ∃ m : ℤ, 2 ^ 23 < |m| ∧ |m| < 2 ^ 24 ∧ x = m * (2 : ℚ) ^ (-24 : ℤ) := by
  obtain ⟨m, e, hm, h2, h3, rfl⟩ := hx
  have hp : (0 : ℚ) < (2 : ℚ) ^ e := zpow_pos (by norm_num) _
  have hm' : (m : ℚ) < 2 ^ 24 := by exact_mod_cast (abs_lt.1 hm).2
  have he : -24 ≤ e := by
    by_contra hc
    have : (2 : ℚ) ^ e ≤ (2 : ℚ) ^ (-25 : ℤ) := zpow_le_zpow_right₀ (by norm_num) (by omega)
    have h5 : (m : ℚ) * (2 : ℚ) ^ e ≤ 2 ^ 24 * (2 : ℚ) ^ (-25 : ℤ) := by
      refine (mul_le_mul_of_nonneg_right hm'.le hp.le).trans ?_
      exact mul_le_mul_of_nonneg_left this (by norm_num)
    norm_num at h5
    linarith
  obtain ⟨n, rfl⟩ : ∃ n : ℕ, e = (n : ℤ) - 24 := ⟨(e + 24).toNat, by omega⟩
  have hx : (m : ℚ) * (2 : ℚ) ^ ((n : ℤ) - 24) = ((m * 2 ^ n : ℤ) : ℚ) * (2 : ℚ) ^ (-24 : ℤ) := by
    rw [sub_eq_add_neg, zpow_add₀ (by norm_num), zpow_natCast]; push_cast; ring
  rw [hx] at h0 h1
  norm_num at h0 h1
  have a1 : (2 ^ 23 : ℚ) < ((m * 2 ^ n : ℤ) : ℚ) := by push_cast; linarith
  have a2 : ((m * 2 ^ n : ℤ) : ℚ) < (2 ^ 24 : ℚ) := by push_cast; linarith
  have b1 : (2 ^ 23 : ℤ) < m * 2 ^ n := by exact_mod_cast a1
  have b2 : m * 2 ^ n < (2 ^ 24 : ℤ) := by exact_mod_cast a2
  have b0 : 0 ≤ m * 2 ^ n := by linarith
  exact ⟨m * 2 ^ n, by rwa [abs_of_nonneg b0], by rwa [abs_of_nonneg b0], hx⟩

theorem stuck_step (hr : Nearest rn) {phase d : ℚ} (hF : F32 phase) (h0 : 1 / 2 < phase) (h1 : phase < 1) (d0 : 0 ≤ d) (d1 : d ≤ 1 / 2 ^ 26) :
    fract (rn (phase + d)) = phase := by
  obtain ⟨m, m1, m2, hm⟩ := upper_half hF h0 h1
  have : rn (phase + d) = m * (2 : ℚ) ^ (-24 : ℤ) := by
    refine rn_unique hr m1 m2 (by norm_num) (by norm_num) ?_
    rw [← hm, add_sub_cancel_left, abs_of_nonneg d0]
    norm_num at d1 ⊢
    linarith
  rw [this, ← hm]
  unfold fract
  rw [if_pos (by linarith), Int.floor_eq_zero_iff.2 ⟨by linarith, h1⟩]
  simp

/-- **C138** The sample rate must not be too high for that: at a frequency of a `2^27`-th of the sample rate or less the oscillator stands still in the upper half of
its circle, for ever. (At 44100 Hz this is 0.00033 Hz, which the pitch input cannot ask for.) -/
theorem stands_still (hr : Nearest rn) {sr : ℚ} (hs : Rate sr) (fuel : Nat) {phase : ℚ} (hF : F32 phase) (h0 : 1 / 2 < phase) (h1 : phase < 1) :
    ∀ (l : List (ℚ × ℚ)) (ps : List ℚ) (phase' : ℚ), (∀ f ∈ l, 0 ≤ f.1 ∧ f.1 ≤ sr / 2 ^ 27) → run rn fuel (rn (1 / sr)) phase l = some (ps, phase') → phase' = phase
  | [], ps, phase', _, h => by
    rw [run] at h
    exact (Prod.mk.inj (Option.some.inj h)).2.symm
  | (freq, pm) :: rest, ps, phase', hf, h => by
    rw [run] at h
    cases hfr : frame rn fuel (rn (1 / sr)) phase freq pm with
    | none => rw [hfr] at h; cases h
    | some r =>
      obtain ⟨q, ph⟩ := r
      rw [hfr] at h
      obtain ⟨⟨qs, ph'⟩, hrun, he⟩ := Option.map_eq_some_iff.1 h
      obtain ⟨-, rfl⟩ := Prod.mk.inj he
      unfold frame at hfr
      cases hw : wrap rn fuel (rn (phase + pm)) with
      | none => rw [hw] at hfr; cases hfr
      | some u =>
        rw [hw] at hfr
        obtain ⟨-, rfl⟩ := Prod.mk.inj (Option.some.inj hfr)
        have hsr : 0 < sr := by linarith [hs.low]
        obtain ⟨f0, f1⟩ := hf _ List.mem_cons_self
        obtain ⟨j, hj, j1, j2⟩ := rate_octave hs
        have hi0 : 0 ≤ rn (1 / sr) := rn_ge hr f32_zero (by positivity)
        have hi : rn (1 / sr) ≤ 1 / 2 ^ j := by
          have hp : (0 : ℚ) < 2 ^ j := by positivity
          refine rn_le hr ⟨1, -(j : ℤ), by norm_num, by omega, by omega, by rw [zpow_neg, zpow_natCast, one_div]; simp⟩ (one_div_le_one_div_of_le hp j1)
        have hd : freq * rn (1 / sr) ≤ 1 / 2 ^ 26 := by
          have hp : (0 : ℚ) < 2 ^ j := by positivity
          calc freq * rn (1 / sr) ≤ (2 ^ (j + 1) / 2 ^ 27) * (1 / 2 ^ j) := mul_le_mul (f1.trans (by gcongr)) hi hi0 (by positivity)
            _ = 1 / 2 ^ 26 := by rw [pow_succ]; field_simp
        have hstep : fract (rn (phase + rn (freq * rn (1 / sr)))) = phase := by
          refine stuck_step hr hF h0 h1 (rn_ge hr f32_zero (mul_nonneg f0 hi0)) (rn_le hr ⟨1, -26, by norm_num, by norm_num, by norm_num, ?_⟩ hd)
          norm_num
        rw [hstep] at hrun
        exact stands_still hr hs fuel hF h0 h1 rest qs ph' (fun f hm => hf f (List.mem_cons_of_mem _ hm)) hrun

/-- A sample rate, a frequency and a phase that is stuck. -/
example : Rate 44100 ∧ Fair 44100 440 ∧ (44100 : ℚ) ≤ 2 ^ 21 ∧ (440 : ℚ) / 2 ^ 10 ≤ 440 ∧ F32 (3 / 4) ∧ (1 : ℚ) / 4000 ≤ 44100 / 2 ^ 27 :=
  ⟨⟨by norm_num, by norm_num⟩, ⟨by norm_num, by norm_num⟩, by norm_num, by norm_num, ⟨3, -2, by norm_num, by norm_num, by norm_num, by norm_num⟩, by norm_num⟩

/-- Every block of `f32` numbers is computed (C89), so that the theorems say something of every block. -/
example (hr : Nearest rn) (l : List (ℚ × ℚ)) (h : ∀ f ∈ l, Fair 44100 f.1 ∧ |f.2| ≤ 1) :
    ∃ ps phase', run rn (2 ^ 25) (rn (1 / 44100)) (1 / 2) l = some (ps, phase') ∧ ps.length = l.length := by
  obtain ⟨ps, p, h1, h2, -⟩ := SinProps.block_ends_partial hr (rn_ge hr f32_zero (by norm_num) : 0 ≤ rn (1 / 44100)) l (1 / 2) (by norm_num)
    (fun f hf => ⟨(h f hf).1.nonneg, by have := (abs_le.1 (h f hf).2).1; linarith⟩)
  exact ⟨ps, p, h1, h2⟩

end HexoDSP.SinFloatProps
