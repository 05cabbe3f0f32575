import Verif.Model.Rounding
import Verif.Spec.Norm
/-!
# The scales of the knobs

What a knob displays, and the distance between the marks of its scale: whole milliseconds, tenths, half decibels, octaves and so on.
-/

namespace HexoDSP.Table

/-- The quantity that has the marks: decibels for volumes, octaves around 440 Hz for coarse pitches, the physical value (ms, Hz, semitones)
for the others. -/
noncomputable def Round.display (G : Gain) (r : Round) (coarse : Bool) (c : Curve) (x : ℝ) : ℝ :=
  match r, coarse with
  | .vol, _ | .gain, _ | .driv, _ => G.toDb (c.denorm G x)
  | .fq, true => x * 10
  | _, _ => c.denorm G x

/-- The distance between the marks around the displayed value `v`. Not for `id`, that has no marks. -/
noncomputable def Round.step (r : Round) (coarse : Bool) (v : ℝ) : ℝ :=
  match r, coarse with
  | .id, _ => 0
  | .vol, true | .gain, true | .driv, true => 1 / 2
  | .vol, false | .gain, false | .driv, false => 1 / 10
  | .det, true => 1
  | .det, false => 1 / 100
  | .s, true => 1 / 10
  | .s, false => 1 / 100
  | .dc_ms, true | .ems, true | .vps, true => 1
  | .dc_ms, false | .ems, false | .vps, false | .tms, false | .fms, false | .tmz, false => 1 / 10
  | .tms, true | .fms, true | .tmz, true => if v ≤ 100 then 1 else if v ≤ 1000 then 10 else 100
  | .fq, true => 1
  | .fq, false => if v < 10 then 1 / 10 else if v < 100 then 1 else if v < 1000 then 10 else if v < 10000 then 100 else 1000
  | .lfot, true => if v < 10 then 10 else if v < 250 then 5 else if v < 1500 then 50 else if v < 2500 then 100 else if v < 5000 then 500
      else if v < 60000 then 1000 else 5000
  | .lfot, false => if v < 10 then 1 else if v < 100 then 1 else if v < 1000 then 5 else if v < 2500 then 10 else if v < 25000 then 100 else 500

/-- Times below 10 ms are displayed as a frequency by the knobs of LFOs. -/
noncomputable def Round.reading (r : Round) (v u : ℝ) : ℝ := if r = .lfot ∧ v < 10 then 1000 / u else u

end HexoDSP.Table
