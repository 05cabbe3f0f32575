import Mathlib.Algebra.Order.Field.Rat
import Mathlib.Algebra.Field.Rat
/-!
# Mixer, amplifier and output with the arithmetic of `f32`

The same code as in `Verif/Model/IoNodes.lean`, frame by frame, with a rounding `rn` after each operation. The inputs are given after the denormalisation.
-/

namespace HexoDSP.MixFloat

/-- `src/dsp/node_mix3.rs:71-76`: one frame of the mixer, from the three signals, their volumes and the volume of the sum. -/
def mix3 (rn : ℚ → ℚ) (i1 i2 i3 g1 g2 g3 og : ℚ) : ℚ := rn (rn (rn (rn (i1 * g1) + rn (i2 * g2)) + rn (i3 * g3)) * og)

/-- `src/dsp/node_amp.rs:89-114`: one frame of the amplifier; `neg` is the setting for negative values at the `att` input. -/
def amp (rn : ℚ → ℚ) (neg : Int) (inp att gain : ℚ) : ℚ := rn (rn (inp * (if neg > 0 then max att 0 else |att|)) * gain)

/-- `src/dsp/node_out.rs:80-94`: one frame of the output, left and right; `mono` is the setting. -/
def out (rn : ℚ → ℚ) (mono : Int) (in1 in2 vol : ℚ) : ℚ × ℚ :=
  if mono > 0 then (rn (vol * in1), rn (vol * in1)) else (rn (vol * in1), rn (vol * in2))

end HexoDSP.MixFloat
