import Verif.Model.FeedbackFloat
import Verif.Props.ScopeClock
/-!
# The length of the feedback line with `f32` numbers
-/

set_option linter.unusedSectionVars false

namespace HexoDSP.FeedbackFloatProps
open HexoDSP HexoDSP.SinSpec HexoDSP.FloatLemmas HexoDSP.FormFMFloatProps

variable {rn : ℚ → ℚ}

theorem near (hr : Nearest rn) {sr : ℚ} (h1 : 1000 ≤ sr) (h2 : sr ≤ 1000000) :
    |rn (rn (sr * rn (314 / 100)) / 1000) - sr * (314 / 100) / 1000| ≤ sr * (314 / 100) / 1000 * (1 / 2 ^ 22) := by
  obtain ⟨a1, a2⟩ := ScopeClockProps.rel hr (x := 314 / 100) (by norm_num) (by norm_num)
  generalize rn (314 / 100) = a at *
  norm_num at a1 a2
  have p1 := mul_le_mul_of_nonneg_left a1 (show 0 ≤ sr by linarith)
  have p2 := mul_le_mul_of_nonneg_left a2 (show 0 ≤ sr by linarith)
  generalize sr * a = b at *
  obtain ⟨b1, b2⟩ := ScopeClockProps.rel hr (x := b) (by norm_num; linarith) (by norm_num; linarith)
  generalize rn b = c at *
  norm_num at b1 b2
  obtain ⟨c1, c2⟩ := ScopeClockProps.rel hr (x := c / 1000) (by norm_num; linarith) (by norm_num; linarith)
  generalize rn (c / 1000) = d at *
  norm_num at c1 c2 ⊢
  rw [abs_le]
  constructor <;> linarith

/-- **C29** The delay of the feedback line, with `f32` numbers: 3.14 ms, as far as that is more than the 128 samples of a block, up to a sample and a hundredth. -/
theorem delay_length (hr : Nearest rn) {sr : ℚ} (h1 : 1000 ≤ sr) (h2 : sr ≤ 1000000) :
    128 ≤ FeedbackFloat.delayCount rn sr ∧ |(FeedbackFloat.delayCount rn sr : ℚ) - max (sr * (314 / 100) / 1000) 128| ≤ 1 + 1 / 100 := by
  have e := near hr h1 h2
  unfold FeedbackFloat.delayCount
  generalize rn (rn (sr * rn (314 / 100)) / 1000) = d at *
  refine ⟨le_max_right _ _, ?_⟩
  obtain ⟨e1, e2⟩ := abs_le.1 e
  norm_num at e1 e2
  have d0 : 0 ≤ d := by linarith
  have f0 : 0 ≤ ⌊d⌋ := Int.floor_nonneg.2 d0
  have q : ((⌊d⌋.toNat : ℕ) : ℚ) = (⌊d⌋ : ℚ) := by exact_mod_cast Int.toNat_of_nonneg f0
  have g1 := Int.floor_le d
  have g2 := Int.lt_floor_add_one d
  rw [← q] at g1 g2
  rw [Nat.cast_max]
  generalize ((⌊d⌋.toNat : ℕ) : ℚ) = n at *
  push_cast
  rcases max_cases n 128 with ⟨a, a'⟩ | ⟨a, a'⟩ <;> rcases max_cases (sr * (314 / 100) / 1000) 128 with ⟨b, b'⟩ | ⟨b, b'⟩ <;> rw [a, b, abs_le] <;> constructor <;> linarith

/-- **C29** At the sample rate for which the lines are made it is the 138 samples found with exact numbers. -/
theorem same_delay (hr : Nearest rn) : FeedbackFloat.delayCount rn 44100 = 138 ∧ FeedbackFloat.delayCount rn 44100 = Feedback.delayCount 44100 := by
  have e := near hr (sr := 44100) (by norm_num) (by norm_num)
  have k : FeedbackFloat.delayCount rn 44100 = 138 := by
    unfold FeedbackFloat.delayCount
    generalize rn (rn (44100 * rn (314 / 100)) / 1000) = d at *
    obtain ⟨e1, e2⟩ := abs_le.1 e
    norm_num at e1 e2
    have : ⌊d⌋ = 138 := by rw [Int.floor_eq_iff]; constructor <;> push_cast <;> linarith
    rw [this]; rfl
  refine ⟨k, k.trans ?_⟩
  unfold Feedback.delayCount
  have : ⌊(44100 : ℚ) * (314 / 100) / 1000⌋ = 138 := by rw [Int.floor_eq_iff]; constructor <;> norm_num
  rw [this]; rfl

-- 96 kHz: about 301 samples
example : ∃ rn, Nearest rn ∧ |(FeedbackFloat.delayCount rn 96000 : ℚ) - 30144 / 100| ≤ 1 + 1 / 100 := by
  obtain ⟨rn, hr⟩ := nearest_exists
  have := (delay_length hr (sr := 96000) (by norm_num) (by norm_num)).2
  rw [max_eq_left (by norm_num)] at this
  norm_num at this ⊢
  exact ⟨rn, hr, this⟩

end HexoDSP.FeedbackFloatProps
