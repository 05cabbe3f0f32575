import Verif.Model.Samples
import Mathlib.Algebra.Field.Rat
/-!
# The conversions of the sample library with the arithmetic of `f32`
-/

namespace HexoDSP.Samples

/-- `src/sample_lib.rs:53` `rd.spec().sample_rate as f32` and `67` `s as f32 / (0x8000 as f32)`, with a rounding `rn` of each conversion and of the quotient. -/
def conv32 (rn : ℚ → ℚ) : Conv ℚ := ⟨fun n => rn n, fun s => rn (rn s / rn 32768)⟩

end HexoDSP.Samples
