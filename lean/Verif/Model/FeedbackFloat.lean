import Verif.Model.Feedback
/-!
# The length of the feedback line with the arithmetic of `f32`

The same code as in `Verif/Model/Feedback.lean`, with a rounding `rn` after each operation and of the constant.
-/

namespace HexoDSP.FeedbackFloat

/-- `src/shared_feedback.rs:14`, `31-34`: the number of samples of 3.14 ms, at least `MAX_BLOCK_SIZE` (128, `src/dsp/mod.rs:685`). -/
def delayCount (rn : ℚ → ℚ) (sampleRate : ℚ) : Nat := max (⌊rn (rn (sampleRate * rn (314 / 100)) / 1000)⌋).toNat 128

end HexoDSP.FeedbackFloat
