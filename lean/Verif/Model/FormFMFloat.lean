import Verif.Model.Tracker
/-!
# The formant oscillator with `f32` arithmetic (`src/dsp/node_formfm.rs`)

`rn` rounds after each operation. `f32::fract`, `floor`, `min` and `max` need no rounding. `cosf` is the cosine of the standard library; what is used of it is said
in the theorems. The inputs are the values in physical units, after `denorm` (lines 92-95).
-/

namespace HexoDSP.FormFMFloat

/-- The values that one frame reads (`src/dsp/node_formfm.rs:92-95`): the two frequencies in Hz, side and peak. -/
structure Input where
  base : ℚ
  form : ℚ
  side : ℚ
  peak : ℚ

/-- `src/dsp/node_formfm.rs:94`: the side, kept off the ends. The compiler rounds the constant `1.0 - 1e-6` the same way. -/
def sideVal (rn : ℚ → ℚ) (side : ℚ) : ℚ := max (min side (rn (1 - rn (1 / 10 ^ 6)))) (rn (1 / 10 ^ 6))

/-- `src/dsp/node_formfm.rs:98`: the triangle. -/
def triangle (rn : ℚ → ℚ) (side phase : ℚ) : ℚ := min (rn (phase / side)) (rn (rn (1 - phase) / rn (1 - side)))

/-- `src/dsp/node_formfm.rs:102`: the smooth step `b * b * (3.0 - 2.0 * b)`. -/
def smooth (rn : ℚ → ℚ) (b : ℚ) : ℚ := rn (rn (b * b) * rn (3 - rn (2 * b)))

/-- `src/dsp/node_formfm.rs:101-102`: the carrier. -/
def carrier (rn : ℚ → ℚ) (side peak phase : ℚ) : ℚ := rn (1 - rn (rn (1 - peak) * smooth rn (triangle rn side phase)))

/-- `src/dsp/node_formfm.rs:108-121`: the modulator; `tau` is `std::f32::consts::TAU`. -/
def modulator (rn cosf : ℚ → ℚ) (tau multiple phase : ℚ) : ℚ :=
  let a : ℚ := (⌊multiple⌋ : ℚ)
  let b := rn (a + 1)
  let blend := Tracker.fract multiple
  rn (rn (rn (1 - blend) * (if multiple < 1 then 0 else cosf (rn (rn (tau * phase) * a)))) + rn (blend * cosf (rn (rn (tau * phase) * b))))

/-- `src/dsp/node_formfm.rs:90-133`: one frame: the sample and the next phase; `isr` is `inv_sample_rate`. -/
def frame (rn cosf : ℚ → ℚ) (tau isr phase : ℚ) (i : Input) : ℚ × ℚ :=
  let multiple := rn (i.form / max i.base (rn (1 / 10 ^ 6)))
  (rn (carrier rn (sideVal rn i.side) i.peak phase * modulator rn cosf tau multiple phase), Tracker.fract (rn (phase + rn (i.base * isr))))

/-- `src/dsp/node_formfm.rs:90-134`: the loop over the frames, also over several blocks: the samples and the last phase. -/
def run (rn cosf : ℚ → ℚ) (tau isr : ℚ) : ℚ → List Input → List ℚ × ℚ
  | phase, [] => ([], phase)
  | phase, i :: rest => ((frame rn cosf tau isr phase i).1 :: (run rn cosf tau isr (frame rn cosf tau isr phase i).2 rest).1,
      (run rn cosf tau isr (frame rn cosf tau isr phase i).2 rest).2)

end HexoDSP.FormFMFloat
