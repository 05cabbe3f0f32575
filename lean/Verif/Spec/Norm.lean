import Verif.Model.Norm
/-!
# What the parameter curves are meant to do

The normalised and the physical range of every curve, as documented in `src/dsp/mod.rs:1376-1402` (comments and arguments of the definitions) and
`src/dsp/mod.rs:1036-1062`, and the assumption about the decibel functions of the crate `synfx_dsp`.
-/

namespace HexoDSP.Table

/-- Normalised values of a curve: -1 to 1 for signals and pitches (ten octaves up and down), ±24 semitones for detuning, 0 to 1 for all others. -/
def Curve.normRange : Curve → Rat × Rat
  | .id => (-1, 1)
  | .pit => (-1, 1)
  | .det => (-1/5, 1/5)
  | _ => (0, 1)

/-- Physical values of a curve: amplitudes of -90 dB to 18 dB, milliseconds, Hertz, semitones. -/
noncomputable def Curve.physRange (G : Gain) : Curve → ℝ × ℝ
  | .id => (-1, 1)
  | .vol => (G.toCoef (-90), G.toCoef 18)
  | .gain => (G.toCoef (-24), G.toCoef 24)
  | .driv => (G.toCoef 0, G.toCoef 24)
  | .declick => (0, 50)
  | .env => (0, 1000)
  | .lfot => (0.1, 300000)
  | .time => (0.5, 5000)
  | .ftme => (0.1, 1000)
  | .timz => (0, 5000)
  | .vps => (0, 20)
  | .pit => (440 / 1024, 440 * 1024)
  | .det => (-24, 24)

/-- The decibel functions are inverse to each other and increasing between -90 dB and 24 dB; 0 dB is the factor 1. -/
structure Gain.Ok (G : Gain) : Prop where
  inv : ∀ g, -90 ≤ g → g ≤ 24 → G.toDb (G.toCoef g) = g
  mono : ∀ g h, -90 ≤ g → g < h → h ≤ 24 → G.toCoef g < G.toCoef h
  onto : ∀ c, G.toCoef (-90) ≤ c → c ≤ G.toCoef 24 → ∃ g, -90 ≤ g ∧ g ≤ 24 ∧ G.toCoef g = c
  zero : G.toCoef 0 = 1

/-- Decibels by definition. -/
noncomputable def decibel : Gain where
  toCoef g := (10 : ℝ) ^ (g / 20)
  toDb c := 20 * Real.logb 10 c

end HexoDSP.Table
