import Verif.Model.ScopeClock
import Verif.Lemmas.NormFloat
import Verif.Props.FormFMFloat
/-!
# The scope keeps time with `f32` numbers (C145)
-/

set_option linter.unusedSectionVars false

namespace HexoDSP.ScopeClockProps
open HexoDSP.ScopeClock HexoDSP.SinSpec HexoDSP.FloatLemmas HexoDSP.NormFloatLemmas HexoDSP.FormFMFloatProps

variable {rn : ℚ → ℚ}

/-- **C145** With exact numbers this is the clock of C85. -/
theorem same_clock {T : Type} (s : ScopeNode.Settings) (n m : ScopeNode.Node T) (f : ScopeNode.Frame) (h : n.record s f = some m) :
    (⟨m.idx, m.frameTime⟩ : Clock) = Clock.tick id s.timePerBlock s.sampleTime ⟨n.idx, n.frameTime⟩ := by
  unfold ScopeNode.Node.record at h
  unfold Clock.tick
  simp only at h ⊢
  split at h
  · rename_i hc
    rw [if_pos hc]
    obtain ⟨_, _, rfl⟩ := Option.map_eq_some_iff.1 h
    rfl
  · rename_i hc
    rw [if_neg hc]
    cases h
    rfl

/-- Rounding of a number of ordinary size. -/
theorem rel (hr : Nearest rn) {x : ℚ} (h1 : 1 / 2 ^ 40 ≤ x) (h2 : x ≤ 2 ^ 40) : x * (1 - 1 / 2 ^ 24) ≤ rn x ∧ rn x ≤ x * (1 + 1 / 2 ^ 24) := by
  have low : (2 : ℚ) ^ (-126 : ℤ) ≤ 1 / 2 ^ 40 := by
    have := zpow_le_zpow_right₀ (by norm_num : (1 : ℚ) ≤ 2) (show (-126 : ℤ) ≤ -40 by norm_num)
    refine this.trans (le_of_eq ?_)
    norm_num
  have high : (2 : ℚ) ^ 40 < (2 : ℚ) ^ (127 : ℤ) := by
    have := zpow_lt_zpow_right₀ (by norm_num : (1 : ℚ) < 2) (show (40 : ℤ) < 127 by norm_num)
    refine lt_of_le_of_lt (le_of_eq ?_) this
    norm_num
  have x0 : 0 < x := lt_of_lt_of_le (by norm_num) h1
  have e := rn_rel hr (x := x) (by rw [abs_of_pos x0]; exact low.trans h1) (by rw [abs_of_pos x0]; exact lt_of_le_of_lt h2 high)
  rw [abs_of_pos x0] at e
  obtain ⟨a, b⟩ := abs_le.1 e
  constructor <;> linarith

/-- What the clock shows: the points finished and the time in the present point are the time played, up to the roundings. -/
theorem clock_inv (hr : Nearest rn) {tpb st : ℚ} (ht : F32 tpb) (h1 : 1 / 2 ^ 20 ≤ tpb) (h2 : tpb ≤ 2 ^ 10) (s0 : 0 ≤ st) (s1 : st ≤ tpb) (k : ℕ) :
    0 ≤ (after rn tpb st k).frameTime ∧ (after rn tpb st k).frameTime ≤ 2 * tpb ∧
    |((after rn tpb st k).idx * tpb + (after rn tpb st k).frameTime) - k * st| ≤ k * (tpb / 2 ^ 22) := by
  have t0 : 0 < tpb := lt_of_lt_of_le (by norm_num) h1
  obtain ⟨j, j1, j2⟩ := exists_mem_Ico_zpow (show 0 < 2 * tpb by linarith) (show (1 : ℚ) < 2 by norm_num)
  have jl : -30 < j := by
    by_contra hc
    have := zpow_le_zpow_right₀ (by norm_num : (1 : ℚ) ≤ 2) (show j + 1 ≤ -29 by omega)
    have e : (2 : ℚ) ^ (-29 : ℤ) = 1 / 2 ^ 29 := by norm_num
    rw [e] at this
    have : (1 : ℚ) / 2 ^ 29 < 1 / 2 ^ 20 := by norm_num
    linarith
  have ju : j < 30 := by
    by_contra hc
    have := zpow_le_zpow_right₀ (by norm_num : (1 : ℚ) ≤ 2) (show (30 : ℤ) ≤ j by omega)
    have e : (2 : ℚ) ^ (30 : ℤ) = 2 ^ 30 := by norm_num
    rw [e] at this
    norm_num at this h2
    linarith
  have hP : (2 : ℚ) ^ (j + 1) ≤ 4 * tpb := by
    rw [zpow_add₀ (by norm_num)]; norm_num; linarith
  have f2 : F32 (2 * tpb) := by
    obtain ⟨m, e, a, b, c, hm⟩ := ht
    refine ⟨m, e + 1, a, by omega, ?_, by rw [hm, zpow_add₀ (by norm_num)]; norm_num; ring⟩
    by_contra hc
    have e104 : 104 ≤ e := by omega
    have m1 : 1 ≤ m := by
      by_contra hm0
      have : (m : ℚ) ≤ 0 := by exact_mod_cast (by omega : m ≤ 0)
      have hp : (0 : ℚ) < (2 : ℚ) ^ e := zpow_pos (by norm_num) _
      nlinarith
    have := zpow_le_zpow_right₀ (by norm_num : (1 : ℚ) ≤ 2) (show (30 : ℤ) ≤ e by omega)
    have e30 : (2 : ℚ) ^ (30 : ℤ) = 2 ^ 30 := by norm_num
    rw [e30] at this
    have m1 : (1 : ℚ) ≤ m := by exact_mod_cast m1
    have : (2 : ℚ) ^ 30 ≤ tpb := by rw [hm]; nlinarith
    norm_num at this h2
    linarith
  have eJ : (2 : ℚ) ^ (j + 1 - 25) = (2 : ℚ) ^ (j + 1) / 2 ^ 25 := by
    rw [zpow_sub₀ (by norm_num)]; norm_num
  have err : ∀ x, 0 ≤ x → x ≤ 2 * tpb → |rn x - x| ≤ tpb / 2 ^ 23 := by
    intro x x0 x1
    have := rn_err hr (x := x) (j := j + 1) (by omega) (by omega) (by rw [abs_of_nonneg x0]; linarith)
    rw [eJ] at this
    refine this.trans ?_
    have : (2 : ℚ) ^ (j + 1) / 2 ^ 25 ≤ 4 * tpb / 2 ^ 25 := by apply div_le_div_of_nonneg_right hP; norm_num
    refine this.trans (le_of_eq ?_)
    ring
  induction k with
  | zero => simp [after, t0.le]
  | succ k ih =>
    obtain ⟨i1, i2, i3⟩ := ih
    rw [after]
    generalize after rn tpb st k = c at *
    obtain ⟨n, ft⟩ := c
    simp only at i1 i2 i3
    unfold Clock.tick
    simp only
    split
    · rename_i hc
      simp only
      have a0 : 0 ≤ rn (ft - tpb) := rn_ge hr f32_zero (by linarith)
      have a1 : rn (ft - tpb) ≤ tpb := rn_le hr ht (by linarith)
      have e1 := err (ft - tpb) (by linarith) (by linarith)
      have e2 := err (rn (ft - tpb) + st) (by linarith) (by linarith)
      refine ⟨rn_ge hr f32_zero (by linarith), rn_le hr f2 (by linarith), ?_⟩
      obtain ⟨b1, b2⟩ := abs_le.1 e1
      obtain ⟨b3, b4⟩ := abs_le.1 e2
      obtain ⟨b5, b6⟩ := abs_le.1 i3
      have e : tpb / 2 ^ 22 = tpb / 2 ^ 23 + tpb / 2 ^ 23 := by ring
      push_cast
      rw [add_mul (k : ℚ) 1 (tpb / 2 ^ 22), one_mul, e] at *
      rw [abs_le]
      constructor <;> linarith
    · rename_i hc
      simp only
      have hc := not_le.1 hc
      have e1 := err (ft + st) (by linarith) (by linarith)
      refine ⟨rn_ge hr f32_zero (by linarith), rn_le hr f2 (by linarith), ?_⟩
      obtain ⟨b1, b2⟩ := abs_le.1 e1
      obtain ⟨b5, b6⟩ := abs_le.1 i3
      have e : tpb / 2 ^ 22 = tpb / 2 ^ 23 + tpb / 2 ^ 23 := by ring
      have p23 : 0 ≤ tpb / 2 ^ 23 := by positivity
      push_cast
      rw [add_mul (k : ℚ) 1 (tpb / 2 ^ 22), one_mul, e] at *
      rw [abs_le]
      constructor <;> linarith

theorem clamped_range (hr : Nearest rn) (time : ℚ) : 1 / 16 ≤ clamped rn time ∧ clamped rn time ≤ 300000 := by
  have a : (1 : ℚ) / 16 ≤ rn (1 / 10) := rn_ge hr (by have := pow2_f32 (k := -4) (by norm_num) (by norm_num); norm_num at this ⊢; exact this) (by norm_num)
  have b : rn (1 / 10) ≤ 1 := rn_le hr one32 (by norm_num)
  unfold clamped
  exact ⟨a.trans (le_max_left _ _), max_le (by linarith) (min_le_right _ _)⟩

/-- **C145** How many points are finished after `k` frames of a recording, with `f32` arithmetic: as many as the time setting and the sample rate ask for (a point takes
`time * srate / 512000` frames), up to two points and a four-millionth of the frames played and of the points asked for. The setting must
ask for points at least as long as a sample. -/
theorem keeps_time (hr : Nearest rn) {time srate : ℚ} (h1 : 1000 ≤ srate) (h2 : srate ≤ 1000000) (hslow : sampleTime rn srate ≤ timePerBlock rn time) (k : ℕ) :
    |((after rn (timePerBlock rn time) (sampleTime rn srate) k).idx : ℚ) - k / (clamped rn time * srate / 512000)| ≤
      2 + (k + k / (clamped rn time * srate / 512000)) / 2 ^ 22 := by
  obtain ⟨c1, c2⟩ := clamped_range hr time
  have m := rel hr (x := srate / 1000) (by norm_num; linarith) (by norm_num; linarith)
  change _ ≤ srateMs rn srate ∧ srateMs rn srate ≤ _ at m
  have m0 : 1 / 2 ≤ srateMs rn srate := by norm_num at m ⊢; linarith
  have m1 : srateMs rn srate ≤ 2 ^ 11 := by norm_num at m ⊢; linarith
  have mp : 0 < srateMs rn srate := by linarith
  have s := rel hr (x := 1 / srateMs rn srate) (by
    rw [div_le_div_iff₀ (by norm_num) mp]; norm_num at m1 ⊢; linarith) (by
    rw [div_le_iff₀ mp]; norm_num at m0 ⊢; linarith)
  change _ ≤ sampleTime rn srate ∧ sampleTime rn srate ≤ _ at s
  have t := rel hr (x := clamped rn time / 512) (by norm_num at c1 ⊢; linarith) (by norm_num; linarith)
  change _ ≤ timePerBlock rn time ∧ timePerBlock rn time ≤ _ at t
  have tF : F32 (timePerBlock rn time) := (hr _).1
  have sp : 0 < sampleTime rn srate := lt_of_lt_of_le (mul_pos (by positivity) (by norm_num)) s.1
  have tl : 1 / 2 ^ 20 ≤ timePerBlock rn time := by norm_num at t c1 ⊢; linarith
  have tu : timePerBlock rn time ≤ 2 ^ 10 := by norm_num at t ⊢; linarith
  obtain ⟨i1, i2, i3⟩ := clock_inv hr tF tl tu sp.le hslow k
  generalize after rn (timePerBlock rn time) (sampleTime rn srate) k = c at *
  obtain ⟨n, ft⟩ := c
  simp only at *
  generalize timePerBlock rn time = P at *
  generalize sampleTime rn srate = S at *
  generalize clamped rn time = C at *
  generalize srateMs rn srate = M at *
  have P0 : 0 < P := lt_of_lt_of_le (by norm_num) tl
  have k0 : (0 : ℚ) ≤ k := Nat.cast_nonneg _
  -- the ratio asked for
  set x : ℚ := 512000 / (C * srate) with hx
  have Csr : 0 < C * srate := mul_pos (by linarith) (by linarith)
  have x0 : 0 < x := by rw [hx]; positivity
  have hk : (k : ℚ) / (C * srate / 512000) = k * x := by rw [hx]; field_simp
  rw [hk]
  -- in products
  have SM : S * M ≤ 1 + 1 / 2 ^ 24 ∧ 1 - 1 / 2 ^ 24 ≤ S * M := by
    constructor
    · have := mul_le_mul_of_nonneg_right s.2 mp.le
      refine this.trans (le_of_eq ?_); field_simp
    · have := mul_le_mul_of_nonneg_right s.1 mp.le
      refine le_trans (le_of_eq ?_) this; field_simp
  have xC : x * (C / 512) * (srate / 1000) = 1 := by rw [hx]; field_simp; norm_num
  -- S against x P
  have up : S ≤ x * P * (1 + 1 / 2 ^ 22) := by
    have a1 : S * (srate / 1000) * (1 - 1 / 2 ^ 24) ≤ 1 + 1 / 2 ^ 24 := by
      have := mul_le_mul_of_nonneg_left m.1 sp.le
      calc S * (srate / 1000) * (1 - 1 / 2 ^ 24) = S * (srate / 1000 * (1 - 1 / 2 ^ 24)) := by ring
        _ ≤ S * M := this
        _ ≤ _ := SM.1
    have a2 : 1 - 1 / 2 ^ 24 ≤ x * P * (srate / 1000) := by
      have := mul_le_mul_of_nonneg_left t.1 (show 0 ≤ x * (srate / 1000) by positivity)
      calc (1 : ℚ) - 1 / 2 ^ 24 = x * (C / 512) * (srate / 1000) * (1 - 1 / 2 ^ 24) := by rw [xC]; ring
        _ = x * (srate / 1000) * (C / 512 * (1 - 1 / 2 ^ 24)) := by ring
        _ ≤ x * (srate / 1000) * P := this
        _ = _ := by ring
    have q : 0 < srate / 1000 := by linarith
    by_contra hc
    have hc := mul_lt_mul_of_pos_right (not_le.1 hc) q
    have : x * P * (1 + 1 / 2 ^ 22) * (srate / 1000) = x * P * (srate / 1000) * (1 + 1 / 2 ^ 22) := by ring
    rw [this] at hc
    generalize x * P * (srate / 1000) = A at *
    generalize S * (srate / 1000) = B at *
    norm_num at *
    linarith
  have lo : x * P * (1 - 1 / 2 ^ 22) ≤ S := by
    have a1 : 1 - 1 / 2 ^ 24 ≤ S * (srate / 1000) * (1 + 1 / 2 ^ 24) := by
      have := mul_le_mul_of_nonneg_left m.2 sp.le
      calc (1 : ℚ) - 1 / 2 ^ 24 ≤ S * M := SM.2
        _ ≤ S * (srate / 1000 * (1 + 1 / 2 ^ 24)) := this
        _ = _ := by ring
    have a2 : x * P * (srate / 1000) ≤ 1 + 1 / 2 ^ 24 := by
      have := mul_le_mul_of_nonneg_left t.2 (show 0 ≤ x * (srate / 1000) by positivity)
      calc x * P * (srate / 1000) = x * (srate / 1000) * P := by ring
        _ ≤ x * (srate / 1000) * (C / 512 * (1 + 1 / 2 ^ 24)) := this
        _ = x * (C / 512) * (srate / 1000) * (1 + 1 / 2 ^ 24) := by ring
        _ = _ := by rw [xC]; ring
    have q : 0 < srate / 1000 := by linarith
    by_contra hc
    have hc := mul_lt_mul_of_pos_right (not_le.1 hc) q
    have : x * P * (1 - 1 / 2 ^ 22) * (srate / 1000) = x * P * (srate / 1000) * (1 - 1 / 2 ^ 22) := by ring
    rw [this] at hc
    generalize x * P * (srate / 1000) = A at *
    generalize S * (srate / 1000) = B at *
    norm_num at *
    linarith
  have xP0 : 0 ≤ x * P := by positivity
  -- everything times P
  obtain ⟨b1, b2⟩ := abs_le.1 i3
  have ku := mul_le_mul_of_nonneg_left up k0
  have kl := mul_le_mul_of_nonneg_left lo k0
  have kP : 0 ≤ k * P := by positivity
  have key : |(n - k * x) * P| ≤ (2 + (k + k * x) / 2 ^ 22) * P := by
    have e1 : (n - k * x) * P = n * P - k * (x * P) := by ring
    have e2 : (2 + ((k : ℚ) + k * x) / 2 ^ 22) * P = 2 * P + (k * P / 2 ^ 22 + k * (x * P) / 2 ^ 22) := by ring
    have e3 : (k : ℚ) * (P / 2 ^ 22) = k * P / 2 ^ 22 := by ring
    have e4 : (k : ℚ) * (x * P * (1 + 1 / 2 ^ 22)) = k * (x * P) + k * (x * P) / 2 ^ 22 := by ring
    have e5 : (k : ℚ) * (x * P * (1 - 1 / 2 ^ 22)) = k * (x * P) - k * (x * P) / 2 ^ 22 := by ring
    rw [e3] at b1 b2
    rw [e4] at ku
    rw [e5] at kl
    rw [e1, e2, abs_le]
    generalize (k : ℚ) * (x * P) = A at *
    generalize (k : ℚ) * P = B at *
    constructor <;> norm_num at * <;> linarith
  rw [abs_mul, abs_of_pos P0] at key
  exact le_of_mul_le_mul_right key P0

/-- **C145** The recording gets done: after the time for 700 points all 512 points are written, at every setting (with exact numbers it is 513). -/
theorem finishes (hr : Nearest rn) {time srate : ℚ} (h1 : 1000 ≤ srate) (h2 : srate ≤ 1000000) (hslow : sampleTime rn srate ≤ timePerBlock rn time) (k : ℕ)
    (hk : 700 * (clamped rn time * srate / 512000) ≤ k) :
    512 ≤ (after rn (timePerBlock rn time) (sampleTime rn srate) k).idx := by
  obtain ⟨c1, c2⟩ := clamped_range hr time
  have h := (abs_le.1 (keeps_time hr h1 h2 hslow k)).1
  have N0 : 0 < clamped rn time * srate / 512000 := div_pos (mul_pos (by linarith) (by linarith)) (by norm_num)
  have N1 : clamped rn time * srate / 512000 ≤ 2 ^ 20 := by
    rw [div_le_iff₀ (by norm_num)]
    have := mul_le_mul c2 h2 (by linarith) (by norm_num)
    norm_num at this ⊢
    linarith
  generalize clamped rn time * srate / 512000 = N at *
  generalize (after rn (timePerBlock rn time) (sampleTime rn srate) k).idx = n at *
  have y : 700 ≤ (k : ℚ) / N := by rwa [le_div_iff₀ N0]
  have ky : (k : ℚ) = k / N * N := by field_simp
  have kN : (k : ℚ) ≤ k / N * 2 ^ 20 := by
    conv_lhs => rw [ky]
    exact mul_le_mul_of_nonneg_left N1 (by linarith)
  generalize (k : ℚ) / N = q at *
  have : (512 : ℚ) ≤ n := by
    norm_num at h kN
    linarith
  exact_mod_cast this

-- five minutes on the screen at 44100 Hz: a recording of 512 points has 13230000 frames
example : ∃ rn, Nearest rn ∧ sampleTime rn 44100 ≤ timePerBlock rn 300000 := by
  obtain ⟨rn, hr⟩ := nearest_exists
  refine ⟨rn, hr, ?_⟩
  have a : 44 ≤ srateMs rn 44100 := rn_ge hr (by simpa using int_f32 (m := 44) (by norm_num)) (by norm_num)
  have b : sampleTime rn 44100 ≤ 1 := rn_le hr one32 (by rw [div_le_one (by linarith)]; linarith)
  have c : 300000 ≤ clamped rn 300000 := by unfold clamped; simp
  have d : 1 ≤ timePerBlock rn 300000 := rn_ge hr one32 (by linarith)
  exact b.trans d

end HexoDSP.ScopeClockProps
