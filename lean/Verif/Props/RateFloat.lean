import Verif.Model.RateFloat
import Verif.Model.Osc
import Verif.Model.Reverb
import Verif.Props.ScopeClock
/-!
# The rates of LFO and oversampled oscillator with `f32` numbers (C151)
-/

set_option linter.unusedSectionVars false

namespace HexoDSP.RateFloatProps
open HexoDSP HexoDSP.SinSpec HexoDSP.FloatLemmas HexoDSP.FormFMFloatProps HexoDSP.RateFloat

variable {rn : ℚ → ℚ}

theorem clamp_eq {x lo hi : ℚ} : MapNodes.clamp x lo hi = max lo (min x hi) := rfl

theorem tenth (hr : Nearest rn) : |rn (1 / 10) - 1 / 10| ≤ 1 / 10 * (1 / 2 ^ 24) := by
  obtain ⟨a, b⟩ := ScopeClockProps.rel hr (x := 1 / 10) (by norm_num) (by norm_num)
  rw [abs_le]; constructor <;> linarith

/-- **C151** The LFO runs with the frequency that belongs to its period in ms, limited to 0.1 to 300000, up to a relative error of `2^-22`. -/
theorem lfo_rate (hr : Nearest rn) (time : ℚ) :
    |lfoRate rn time - 1000 / max (1 / 10) (min time 300000)| ≤ 1000 / max (1 / 10) (min time 300000) * (1 / 2 ^ 22) := by
  unfold lfoRate
  have t := tenth hr
  generalize rn (1 / 10) = a at *
  obtain ⟨t1, t2⟩ := abs_le.1 t
  norm_num at t1 t2
  rw [clamp_eq]
  have m0 : 0 < max (1 / 10) (min time 300000) := lt_max_of_lt_left (by norm_num)
  have m1 : (1 / 10 : ℚ) ≤ max (1 / 10) (min time 300000) := le_max_left _ _
  have m2 : max (1 / 10) (min time 300000) ≤ (300000 : ℚ) := max_le (by norm_num) (min_le_right _ _)
  have n1 : max a (min time 300000) ≤ max (1 / 10) (min time 300000) * (1 + 1 / 2 ^ 24) := by
    refine max_le (by linarith) ?_
    have := le_max_right (1 / 10) (min time 300000)
    linarith
  have n2 : max (1 / 10) (min time 300000) * (1 - 1 / 2 ^ 24) ≤ max a (min time 300000) := by
    rcases max_cases (1 / 10 : ℚ) (min time 300000) with ⟨h, -⟩ | ⟨h, -⟩
    · rw [h]; exact le_trans (by linarith) (le_max_left _ _)
    · refine le_trans ?_ (le_max_right a _)
      linarith
  generalize max (1 / 10 : ℚ) (min time 300000) = m at *
  generalize max a (min time 300000) = n at *
  have n0 : 0 < n := lt_of_lt_of_le (by norm_num; linarith) n2
  have q1 : 1000 / m * (1 - 1 / 2 ^ 24) ≤ 1000 / n := by
    rw [div_mul_eq_mul_div, div_le_div_iff₀ m0 n0]
    norm_num at n1 ⊢
    nlinarith
  have q2 : 1000 / n ≤ 1000 / m * (1 + 1 / 2 ^ 23) := by
    rw [div_mul_eq_mul_div, div_le_div_iff₀ n0 m0]
    norm_num at n2 ⊢
    nlinarith
  have f1 : (1 : ℚ) / 300 ≤ 1000 / m := by rw [div_le_div_iff₀ (by norm_num) m0]; linarith
  have f2 : 1000 / m ≤ (10000 : ℚ) := by rw [div_le_iff₀ m0]; linarith
  generalize 1000 / m = f at *
  generalize 1000 / n = g at *
  obtain ⟨r1, r2⟩ := ScopeClockProps.rel hr (x := g) (by norm_num at q1 ⊢; linarith) (by norm_num at q2 ⊢; linarith)
  generalize rn g = w at *
  norm_num at q1 q2 r1 r2 ⊢
  rw [abs_le]
  constructor <;> linarith

/-- **C151** A longer period is never faster, and the LFO always runs forwards, at less than 10001 Hz. -/
theorem lfo_order (hr : Nearest rn) {s t : ℚ} (h : s ≤ t) : lfoRate rn t ≤ lfoRate rn s ∧ 1 / 301 < lfoRate rn t ∧ lfoRate rn t < 10001 := by
  refine ⟨?_, ?_⟩
  · unfold lfoRate
    have u := tenth hr
    generalize rn (1 / 10) = a at *
    obtain ⟨t1, t2⟩ := abs_le.1 u
    norm_num at t1 t2
    rw [clamp_eq, clamp_eq]
    refine rn_mono hr (div_le_div_of_nonneg_left (by norm_num) (lt_max_of_lt_left (by linarith)) (max_le_max le_rfl (min_le_min h le_rfl)))
  · have e := lfo_rate hr t
    have m0 : 0 < max (1 / 10) (min t 300000) := lt_max_of_lt_left (by norm_num)
    have m1 : (1 / 10 : ℚ) ≤ max (1 / 10) (min t 300000) := le_max_left _ _
    have m2 : max (1 / 10) (min t 300000) ≤ (300000 : ℚ) := max_le (by norm_num) (min_le_right _ _)
    generalize max (1 / 10 : ℚ) (min t 300000) = m at *
    have f1 : (1 : ℚ) / 300 ≤ 1000 / m := by rw [div_le_div_iff₀ (by norm_num) m0]; linarith
    have f2 : 1000 / m ≤ (10000 : ℚ) := by rw [div_le_iff₀ m0]; linarith
    generalize 1000 / m = f at *
    obtain ⟨e1, e2⟩ := abs_le.1 e
    norm_num at e1 e2
    constructor <;> linarith

theorem times_four {x : ℚ} (h : F32 x) (hx : |x| ≤ 2 ^ 40) : F32 (x * 4) := by
  obtain ⟨m, e, h1, h2, h3, rfl⟩ := h
  rcases le_or_gt e 102 with g | g
  · refine ⟨m, e + 2, h1, by omega, by omega, ?_⟩
    rw [zpow_add₀ (by norm_num)]; norm_num; ring
  · rcases eq_or_ne m 0 with z | z
    · rw [z]; simpa using f32_zero
    · exfalso
      have m1 : (1 : ℚ) ≤ |(m : ℚ)| := by exact_mod_cast Int.one_le_abs z
      have p : (2 : ℚ) ^ (41 : ℤ) ≤ (2 : ℚ) ^ e := zpow_le_zpow_right₀ (by norm_num) (by omega)
      rw [abs_mul, abs_of_pos (zpow_pos (by norm_num : (0 : ℚ) < 2) e)] at hx
      have := mul_le_mul m1 p (by positivity) (abs_nonneg _)
      norm_num at this hx
      linarith

/-- **C151** The oscillator with oversampling makes four steps in each frame. They are together exactly as long as the one step without oversampling, and that is a frame, up to a relative error of `2^-22`. -/
theorem vosc_step (hr : Nearest rn) {srate : ℚ} (h1 : 1000 ≤ srate) (h2 : srate ≤ 1000000) :
    step rn false (israte rn srate) = 4 * step rn true (israte rn srate) ∧
    |step rn false (israte rn srate) - 1 / srate| ≤ 1 / srate * (1 / 2 ^ 22) := by
  have s0 : 0 < srate := by linarith
  obtain ⟨a1, a2⟩ := ScopeClockProps.rel hr (x := srate * 4) (by norm_num; linarith) (by norm_num; linarith)
  have e : |israte rn srate - 1 / (srate * 4)| ≤ 1 / (srate * 4) * (1 / 2 ^ 22) := by
    unfold israte
    generalize rn (srate * 4) = a at *
    norm_num at a1 a2
    have a0 : 0 < a := by linarith
    have q1 : 1 / (srate * 4) * (1 - 1 / 2 ^ 24) ≤ 1 / a := by
      rw [div_mul_eq_mul_div, div_le_div_iff₀ (by linarith) a0]
      norm_num
      nlinarith
    have q2 : 1 / a ≤ 1 / (srate * 4) * (1 + 1 / 2 ^ 23) := by
      rw [div_mul_eq_mul_div, div_le_div_iff₀ a0 (by linarith)]
      norm_num
      nlinarith
    have f1 : (1 : ℚ) / 4000000 ≤ 1 / (srate * 4) := by rw [div_le_div_iff₀ (by norm_num) (by linarith)]; linarith
    have f2 : 1 / (srate * 4) ≤ (1 : ℚ) := by rw [div_le_iff₀ (by linarith)]; linarith
    generalize 1 / (srate * 4) = f at *
    generalize 1 / a = g at *
    obtain ⟨r1, r2⟩ := ScopeClockProps.rel hr (x := g) (by norm_num at q1 ⊢; linarith) (by norm_num at q2 ⊢; linarith)
    generalize rn g = w at *
    norm_num at q1 q2 r1 r2 ⊢
    rw [abs_le]
    constructor <;> linarith
  have F : F32 (israte rn srate) := (hr _).1
  have d : (1 : ℚ) / srate = 1 / (srate * 4) * 4 := by field_simp
  have f0 : 0 < 1 / (srate * 4) := by positivity
  have f2 : 1 / (srate * 4) ≤ (1 : ℚ) := by rw [div_le_iff₀ (by linarith)]; linarith
  rw [d]
  generalize 1 / (srate * 4) = f at *
  generalize israte rn srate = x at *
  obtain ⟨e1, e2⟩ := abs_le.1 e
  norm_num at e1 e2
  have ex : rn (x * 4) = x * 4 := rn_fix hr (times_four F (abs_le.2 ⟨by norm_num; linarith, by norm_num; linarith⟩))
  have st : step rn false x = x * 4 := ex
  have st2 : step rn true x = x := rfl
  rw [st, st2]
  refine ⟨by ring, ?_⟩
  norm_num
  rw [abs_le]
  constructor <;> linarith

/-- **C151** With exact numbers these are the nodes of C107 and C104: the frequency given to the LFO, and the steps of the oscillator, after `set_sample_rate`. -/
theorem same_rates {S T O : Type} (E : Reverb.Lfo S T) (n : Reverb.TsLFO S T) (f : Reverb.LFrame) (V : Osc.Vps S O) (v : Osc.VOsc S O) (srate : ℚ) (c : Osc.VSet) (g : Osc.VFrame) :
    (n.tick E f).2 = (E.next (E.set (if (E.check n.trig f.trig).2 then E.reset n.lfo else n.lfo) (lfoRate id f.time) f.rev)).2 ∧
    (v.run V [.rate srate]).1.israte = israte id srate ∧
    (c.ovrsmpl ≠ 1 → (v.tick V c g).1.osc = (V.next v.osc g.freq (step id false v.israte) (Osc.clamp 0 1 g.d) (V.limitV (Osc.clamp 0 1 g.d) (Osc.clamp 0 1 g.v + Osc.clamp 0 20 g.vs))).1) := by
  refine ⟨?_, ?_, fun h => ?_⟩
  · have : Reverb.clamp (1 / 10) 300000 f.time = MapNodes.clamp f.time (1 / 10) 300000 := by
      rw [clamp_eq]
      unfold Reverb.clamp
      split
      · rename_i a
        rw [min_eq_left (by linarith), max_eq_left a.le]
      · rename_i a
        split
        · rename_i b
          rw [min_eq_right b.le, max_eq_right (by norm_num)]
        · rename_i b
          rw [min_eq_left (by linarith), max_eq_right (by linarith)]
    simp only [Reverb.TsLFO.tick, this, lfoRate, id]
  · simp [Osc.VOsc.run, israte, Osc.OVERSAMPLING]
  · simp [Osc.VOsc.tick, h, step, Osc.OVERSAMPLING]

-- a period of a minute; 48 kHz
example : ∃ rn, Nearest rn ∧ |lfoRate rn 60000 - 1 / 60| ≤ 1 / 2 ^ 27 ∧ step rn false (israte rn 48000) = 4 * step rn true (israte rn 48000) := by
  obtain ⟨rn, hr⟩ := nearest_exists
  refine ⟨rn, hr, ?_, (vosc_step hr (by norm_num) (by norm_num)).1⟩
  have := lfo_rate hr 60000
  norm_num at this ⊢
  linarith

end HexoDSP.RateFloatProps
