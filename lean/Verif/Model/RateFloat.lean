import Verif.Model.MapNodes
/-!
# The rates of `TsLFO` and `VOsc` with the arithmetic of `f32`

The same code as in `Verif/Model/Reverb.lean` and `Verif/Model/Osc.lean`, with a rounding `rn` after each operation and of each constant.
-/

namespace HexoDSP.RateFloat

/-- `src/dsp/node_tslfo.rs:102-104`: the frequency the LFO is set to, from the period in ms. -/
def lfoRate (rn : ℚ → ℚ) (time : ℚ) : ℚ := rn (1000 / MapNodes.clamp time (rn (1 / 10)) 300000)

/-- `src/dsp/node_vosc.rs:115`: `israte` after `set_sample_rate`; `OVERSAMPLING` is 4 (line 24). -/
def israte (rn : ℚ → ℚ) (srate : ℚ) : ℚ := rn (1 / rn (srate * 4))

/-- `src/dsp/node_vosc.rs:166` and `181`: what is given to the oscillator as the length of a step, with and without oversampling. -/
def step (rn : ℚ → ℚ) (oversample : Bool) (israte : ℚ) : ℚ := if oversample then israte else rn (israte * 4)

end HexoDSP.RateFloat
