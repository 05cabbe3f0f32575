import Verif.Model.BowStriFloat
import Verif.Props.ScopeClock
import Verif.Props.BowStri
/-!
# The bowed string is tuned with `f32` numbers (C148)
-/

set_option linter.unusedSectionVars false

namespace HexoDSP.BowStriFloatProps
open HexoDSP HexoDSP.SinSpec HexoDSP.FloatLemmas HexoDSP.FormFMFloatProps HexoDSP.BowStriFloat HexoDSP.ScopeClockProps

variable {rn : ℚ → ℚ}

theorem literals (hr : Nearest rn) : 99/10000 ≤ rn (1/100) ∧ rn (1/100) ≤ 101/10000 ∧ 9899/10000 ≤ rn (99/100) ∧ rn (99/100) ≤ 9901/10000 := by
  have a := rel hr (x := 1/100) (by norm_num) (by norm_num)
  have b := rel hr (x := 99/100) (by norm_num) (by norm_num)
  norm_num at a b ⊢
  exact ⟨by linarith, by linarith, by linarith, by linarith⟩

theorem bow_range (hr : Nearest rn) (pos : ℚ) : 99/10000 ≤ bowPosition rn pos ∧ bowPosition rn pos ≤ 9901/10000 := by
  obtain ⟨a, b, c, d⟩ := literals hr
  have := BowStriProps.clamp_range (lo := rn (1/100)) (hi := rn (99/100)) (by linarith) (rn (rn (pos + 1) / 2))
  exact ⟨by unfold bowPosition; linarith [this.1], by unfold bowPosition; linarith [this.2]⟩

theorem total (hr : Nearest rn) {srate freq : ℚ} (h1 : 1000 ≤ srate) (h2 : srate ≤ 1000000) (hf : freq ≤ srate) :
    totalLen rn srate freq = rn (srate / max freq 20) ∧ 1 ≤ srate / max freq 20 ∧ srate / max freq 20 ≤ 50000 := by
  have m0 : (20 : ℚ) ≤ max freq 20 := le_max_right _ _
  have m1 : max freq 20 ≤ srate := max_le hf (by linarith)
  have a : 1 ≤ srate / max freq 20 := by rw [le_div_iff₀ (by linarith)]; linarith
  have b : srate / max freq 20 ≤ 50000 := by rw [div_le_iff₀ (by linarith)]; linarith
  refine ⟨?_, a, b⟩
  have : 1 ≤ rn (srate / max freq 20) := rn_ge hr one32 a
  unfold totalLen
  simp only
  rw [if_neg (by linarith)]

/-- **C148** The waves on both sides of the bow together take one period of the frequency, up to a four-millionth of it (less than a thousandth of a cent), wherever the bow is; and no side is
shorter than a 103rd part of the string. Frequencies below 20 Hz are taken as 20 Hz. -/
theorem one_period (hr : Nearest rn) {srate freq : ℚ} (pos : ℚ) (h1 : 1000 ≤ srate) (h2 : srate ≤ 1000000) (hf : freq ≤ srate) :
    |nutLen rn srate freq pos + bridgeLen rn srate freq pos - srate / max freq 20| ≤ srate / max freq 20 / 2 ^ 22 ∧
    srate / max freq 20 / 103 ≤ nutLen rn srate freq pos ∧ srate / max freq 20 / 103 ≤ bridgeLen rn srate freq pos := by
  obtain ⟨e, l1, l2⟩ := total hr h1 h2 hf
  obtain ⟨p1, p2⟩ := bow_range hr pos
  unfold nutLen bridgeLen
  rw [e]
  generalize srate / max freq 20 = L at *
  have t := rel hr (x := L) (by norm_num at l1 ⊢; linarith) (by norm_num; linarith)
  generalize bowPosition rn pos = b at *
  have q := rel hr (x := 1 - b) (by norm_num at p2 ⊢; linarith) (by norm_num; linarith)
  generalize rn L = S at *
  generalize rn (1 - b) = c at *
  have t1 : L * (99/100) ≤ S := by norm_num at t; linarith
  have t2 : S ≤ 60000 := by norm_num at t; linarith
  have q1 : 98/10000 ≤ c := by norm_num at q; linarith
  have q2 : c ≤ 1 := by norm_num at q; linarith
  have S0 : 0 < S := by linarith
  have n := rel hr (x := S * c) (by
    have : (99/100 : ℚ) * (98/10000) ≤ S * c := mul_le_mul (by linarith) q1 (by norm_num) S0.le
    norm_num at this ⊢; linarith) (by
    have : S * c ≤ 60000 * 1 := mul_le_mul t2 q2 (by linarith) (by norm_num)
    norm_num at this ⊢; linarith)
  have r := rel hr (x := S * b) (by
    have : (99/100 : ℚ) * (99/10000) ≤ S * b := mul_le_mul (by linarith) p1 (by norm_num) S0.le
    norm_num at this ⊢; linarith) (by
    have : S * b ≤ 60000 * 1 := mul_le_mul t2 (by linarith) (by linarith) (by norm_num)
    norm_num at this ⊢; linarith)
  have nl : S * (1 - b) * (1 - 1 / 2 ^ 24) ≤ S * c := by
    have := mul_le_mul_of_nonneg_left q.1 S0.le
    linarith
  have nu : S * c ≤ S * (1 - b) * (1 + 1 / 2 ^ 24) := by
    have := mul_le_mul_of_nonneg_left q.2 S0.le
    linarith
  have Sb0 : 0 ≤ S * b := mul_nonneg S0.le (by linarith)
  have e1 : S * (1 - b) = S - S * b := by ring
  have Sb1 : S * b ≤ S * (9901/10000) := mul_le_mul_of_nonneg_left p2 S0.le
  have Sb2 : S * (99/10000) ≤ S * b := mul_le_mul_of_nonneg_left p1 S0.le
  rw [e1] at nl nu
  generalize rn (S * c) = X at *
  generalize rn (S * b) = Y at *
  generalize S * c = A at *
  generalize S * b = B at *
  norm_num at t n r nl nu ⊢
  refine ⟨abs_le.2 ⟨by linarith, by linarith⟩, by linarith, by linarith⟩

/-- **C148** Neither side is longer than the string at 20 Hz. -/
theorem fits_the_delay (hr : Nearest rn) {srate freq : ℚ} (pos : ℚ) (h1 : 1000 ≤ srate) (h2 : srate ≤ 1000000) (hf : freq ≤ srate) :
    nutLen rn srate freq pos ≤ rn (srate / 20) ∧ bridgeLen rn srate freq pos ≤ rn (srate / 20) := by
  obtain ⟨e, l1, l2⟩ := total hr h1 h2 hf
  obtain ⟨p1, p2⟩ := bow_range hr pos
  have F : F32 (rn (srate / 20)) := (hr _).1
  have le : rn (srate / max freq 20) ≤ rn (srate / 20) := rn_mono hr (div_le_div_of_nonneg_left (by linarith) (by norm_num) (le_max_right _ _))
  have S0 : 1 ≤ rn (srate / max freq 20) := rn_ge hr one32 l1
  have c1 : rn (1 - bowPosition rn pos) ≤ 1 := rn_le hr one32 (by linarith)
  unfold nutLen bridgeLen
  rw [e]
  refine ⟨rn_le hr F (le_trans ?_ le), rn_le hr F (le_trans ?_ le)⟩
  · exact mul_le_of_le_one_right (by linarith) c1
  · exact mul_le_of_le_one_right (by linarith) (by linarith)

/-- **C148** Moving the bow towards one end never makes the side of this end longer. -/
theorem bow_moves (hr : Nearest rn) {srate freq pos pos' : ℚ} (h1 : 1000 ≤ srate) (h2 : srate ≤ 1000000) (hf : freq ≤ srate) (h : pos ≤ pos') :
    nutLen rn srate freq pos' ≤ nutLen rn srate freq pos ∧ bridgeLen rn srate freq pos ≤ bridgeLen rn srate freq pos' := by
  obtain ⟨e, l1, l2⟩ := total hr h1 h2 hf
  have S0 : 1 ≤ rn (srate / max freq 20) := rn_ge hr one32 l1
  obtain ⟨a, b, c, d⟩ := literals hr
  have m : bowPosition rn pos ≤ bowPosition rn pos' := by
    refine BowStriProps.clamp_mono (by linarith) (rn_mono hr ?_)
    have := rn_mono hr (show pos + 1 ≤ pos' + 1 by linarith)
    linarith
  unfold nutLen bridgeLen
  rw [e]
  exact ⟨rn_mono hr (mul_le_mul_of_nonneg_left (rn_mono hr (by linarith)) (by linarith)), rn_mono hr (mul_le_mul_of_nonneg_left m (by linarith))⟩

/-- **C148** With exact numbers these are the lengths of C105. -/
theorem same_lengths (srate freq pos : ℚ) : nutLen id srate freq pos = BowStri.nutLen srate freq pos ∧ bridgeLen id srate freq pos = BowStri.bridgeLen srate freq pos := ⟨rfl, rfl⟩

-- 440 Hz at 44100 Hz, the bow near one end
example : ∃ rn, Nearest rn ∧ (1000 : ℚ) ≤ 44100 ∧ (44100 : ℚ) ≤ 1000000 ∧ (440 : ℚ) ≤ 44100 ∧ |nutLen rn 44100 440 (9/10) + bridgeLen rn 44100 440 (9/10) - 44100 / max 440 20| ≤ 44100 / max 440 20 / 2 ^ 22 := by
  obtain ⟨rn, hr⟩ := nearest_exists
  exact ⟨rn, hr, by norm_num, by norm_num, by norm_num, (one_period hr (9/10) (by norm_num) (by norm_num) (by norm_num)).1⟩

end HexoDSP.BowStriFloatProps
