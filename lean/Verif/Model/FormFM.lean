import Verif.Model.Norm
import Mathlib.Analysis.SpecialFunctions.Trigonometric.Basic
/-!
# Model of `src/dsp/node_formfm.rs`

Numbers are real numbers, there is no rounding; `cos` is the cosine. The five inputs are the signals at the inputs of the node, before the
denormalisation (`src/dsp/mod.rs:2395-2411`).
-/

namespace HexoDSP.FormFM
open HexoDSP.Table

/-- The signals at the inputs `freq`, `det`, `form`, `side` and `peak` in one frame (`src/dsp/node_formfm.rs:83-87`). -/
structure Input where
  freq : ℝ
  det : ℝ
  form : ℝ
  side : ℝ
  peak : ℝ

/-- `f32::fract` of the standard library: the part after the point, with the sign of the number. -/
noncomputable def rfract (x : ℝ) : ℝ := x - (if 0 ≤ x then (⌊x⌋ : ℝ) else (⌈x⌉ : ℝ))

/-- `src/dsp/node_formfm.rs:92`: the base frequency in Hz. -/
noncomputable def Input.base (i : Input) : ℝ := dPit (i.freq + i.det)
/-- `src/dsp/node_formfm.rs:93`: the formant frequency in Hz. -/
noncomputable def Input.formant (i : Input) : ℝ := dPit i.form
/-- `src/dsp/node_formfm.rs:94`: the side, kept off the ends. -/
noncomputable def Input.sideVal (i : Input) : ℝ := max (min i.side (1 - 1e-6)) 1e-6

/-- `src/dsp/node_formfm.rs:98`: the triangle. -/
noncomputable def triangle (side phase : ℝ) : ℝ := min (phase / side) ((1 - phase) / (1 - side))

/-- `src/dsp/node_formfm.rs:101-102`: the carrier. -/
noncomputable def carrier (side peak phase : ℝ) : ℝ :=
  let b := triangle side phase
  1 - ((1 - peak) * (b * b * (3 - 2 * b)))

/-- `src/dsp/node_formfm.rs:108-121`: the modulator. -/
noncomputable def modulator (multiple phase : ℝ) : ℝ :=
  let a : ℝ := (⌊multiple⌋ : ℝ)
  let b := a + 1
  let blend := rfract multiple
  (1 - blend) * (if multiple < 1 then 0 else Real.cos (2 * Real.pi * phase * a)) +
    blend * Real.cos (2 * Real.pi * phase * b)

/-- `src/dsp/node_formfm.rs:90-133`: one frame: the sample and the next phase; `isr` is `inv_sample_rate`. -/
noncomputable def frame (isr phase : ℝ) (i : Input) : ℝ × ℝ :=
  let multiple := i.formant / max i.base 1e-6
  (carrier i.sideVal i.peak phase * modulator multiple phase, rfract (phase + i.base * isr))

/-- `src/dsp/node_formfm.rs:90-134`: the loop over the frames, also over several blocks: the samples and the last phase. -/
noncomputable def run (isr : ℝ) : ℝ → List Input → List ℝ × ℝ
  | phase, [] => ([], phase)
  | phase, i :: rest =>
    let f := frame isr phase i
    let r := run isr f.2 rest
    (f.1 :: r.1, r.2)

/-- `src/dsp/node_formfm.rs:62-64` and `18`: the samples of a new node after `set_sample_rate srate`. -/
noncomputable def play (srate : ℝ) (ins : List Input) : List ℝ := (run (1 / srate) 0 ins).1

end HexoDSP.FormFM
