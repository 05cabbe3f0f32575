import Verif.Model.Noise
import Verif.Model.Env
/-!
# Noise and envelopes with the arithmetic of `f32`

The same code as in `Verif/Model/Noise.lean` and `Verif/Model/Env.lean`, with a rounding `rn` after each operation.
-/

namespace HexoDSP.NoiseFloat

variable {S : Type}

/-- `src/dsp/node_noise.rs:104-106` and `110-112`: one frame. -/
def tick (rn : ℚ → ℚ) (R : Noise.Rng S) (mode : Int) (n : Noise.Node S) (f : Noise.Frame) : Noise.Node S × ℚ :=
  let r := R.next n.rng
  if mode = 0 then
    let s := rn (rn (r.2 * 2) - 1)
    let s := rn (rn (s * f.atv) + f.offs)
    ({ n with rng := r.1 }, s)
  else
    let s := rn (rn (r.2 * f.atv) + f.offs)
    ({ n with rng := r.1 }, s)

/-- `src/dsp/node_ad.rs:154-167`: one frame; the new envelope, the signal and the end trigger. -/
def adTick (rn : ℚ → ℚ) (E : Env.AdExt S) (mult : ℚ) (s : S) (f : Env.AdFrame) : S × ℚ × ℚ :=
  let r := E.tick s f.trig (rn (mult * f.atk)) (Env.clamp 0 1 f.ashp) (rn (mult * f.dcy)) (rn (1 - Env.clamp 0 1 f.dshp))
  (r.1, rn (f.inp * r.2.1), r.2.2)

end HexoDSP.NoiseFloat
