import Verif.Model.Norm
import Mathlib.Algebra.Order.Floor.Ring
import Mathlib.Algebra.Order.Archimedean.Real.Basic
/-!
# Model of the rounding of knobs, `src/dsp/mod.rs:1026-1034,1073-1245,1284-1289,2085-2095,2365-2371`

As in `Verif.Model.Norm` the real numbers stand for `f32`.
-/

namespace HexoDSP.Table

/-- `f32::round`: to the nearest integer, half way away from zero. -/
noncomputable def roundAway (x : ℝ) : ℝ := if 0 ≤ x then (⌊x + 1 / 2⌋ : ℝ) else (⌈x - 1 / 2⌉ : ℝ)

/-- `src/dsp/mod.rs:1026-1034` `define_db!`, the rounding. -/
noncomputable def rDb (G : Gain) (lo hi : ℝ) (x : ℝ) (coarse : Bool) : ℝ :=
  if coarse then nDb G lo hi (G.toCoef (roundAway (G.toDb (dDb G lo hi x) * 2) * 0.5))
  else nDb G lo hi (G.toCoef (roundAway (G.toDb (dDb G lo hi x) * 10) * 0.1))

/-- `src/dsp/mod.rs:1073-1081` `r_det!`, `1093-1102` `r_dc_ms!`, `1104-1113` `r_ems!`, `1189-1198` `r_vps!`: the four differ in the curve, and `r_det!` in
the factor 100 for 10. -/
noncomputable def rPlain (n d : ℝ → ℝ) (fine : ℝ) (x : ℝ) (coarse : Bool) : ℝ :=
  if coarse then n (roundAway (d x)) else n (roundAway (d x * fine) / fine)

/-- `src/dsp/mod.rs:1117-1131` `r_tms!`, `1132-1147` `r_fms!`, `1149-1164` `r_tmz!`: the three differ in the curve. -/
noncomputable def rTime (n d : ℝ → ℝ) (x : ℝ) (coarse : Bool) : ℝ :=
  if coarse then
    if 1000 < d x then n (roundAway (d x / 100) * 100)
    else if 100 < d x then n (roundAway (d x / 10) * 10)
    else n (roundAway (d x))
  else n (roundAway (d x * 10) / 10)

/-- `src/dsp/mod.rs:1168-1187` `r_fq!`. -/
noncomputable def rFq (x : ℝ) (coarse : Bool) : ℝ :=
  if coarse then roundAway (x * 10) / 10
  else
    let p := dPit x
    if p < 10 then nPit (roundAway (p * 10) / 10)
    else if p < 100 then nPit (roundAway p)
    else if p < 1000 then nPit (roundAway (p / 10) * 10)
    else if p < 10000 then nPit (roundAway (p / 100) * 100)
    else nPit (roundAway (p / 1000) * 1000)

/-- `src/dsp/mod.rs:1201-1245` `r_lfot!`. -/
noncomputable def rLfot (n d : ℝ → ℝ) (x : ℝ) (coarse : Bool) : ℝ :=
  let denv := d x
  if coarse then
    if denv < 10 then n (1000 / (roundAway (1000 / denv / 10) * 10))
    else if denv < 250 then n (roundAway (denv / 5) * 5)
    else if denv < 1500 then n (roundAway (denv / 50) * 50)
    else if denv < 2500 then n (roundAway (denv / 100) * 100)
    else if denv < 5000 then n (roundAway (denv / 500) * 500)
    else if denv < 60000 then n (roundAway (denv / 1000) * 1000)
    else n (roundAway (denv / 5000) * 5000)
  else
    if denv < 10 then n (1000 / roundAway (1000 / denv))
    else if denv < 100 then n (roundAway denv)
    else if denv < 1000 then n (roundAway (denv / 5) * 5)
    else if denv < 2500 then n (roundAway (denv / 10) * 10)
    else if denv < 25000 then n (roundAway (denv / 100) * 100)
    else n (roundAway (denv / 500) * 500)

/-- The macros `r_*!` by name: `src/dsp/mod.rs:1026-1034` with `1380-1382`, `1073-1245`, `1284-1289`. -/
noncomputable def Round.apply (G : Gain) : Round → ℝ → Bool → ℝ
  | .id, x, _ => x
  | .vol, x, c => rDb G (-90) 18 x c
  | .gain, x, c => rDb G (-24) 24 x c
  | .driv, x, c => rDb G 0 24 x c
  | .det, x, c => rPlain (Curve.det.norm G) (Curve.det.denorm G) 100 x c
  | .s, x, c => if c then roundAway (x * 10) / 10 else roundAway (x * 100) / 100
  | .dc_ms, x, c => rPlain (Curve.declick.norm G) (Curve.declick.denorm G) 10 x c
  | .ems, x, c => rPlain (Curve.env.norm G) (Curve.env.denorm G) 10 x c
  | .tms, x, c => rTime (Curve.time.norm G) (Curve.time.denorm G) x c
  | .fms, x, c => rTime (Curve.ftme.norm G) (Curve.ftme.denorm G) x c
  | .tmz, x, c => rTime (Curve.timz.norm G) (Curve.timz.denorm G) x c
  | .fq, x, c => rFq x c
  | .vps, x, c => rPlain (Curve.vps.norm G) (Curve.vps.denorm G) 10 x c
  | .lfot, x, c => rLfot (Curve.lfot.norm G) (Curve.lfot.denorm G) x c

/-- `src/dsp/mod.rs:2085-2095` `ParamId::round` with `2365-2371`, the module `round`. -/
noncomputable def ParamId.round (G : Gain) (p : ParamId) (v : ℝ) (coarse : Bool) : ℝ :=
  match p.paramRow with
  | some r => max (r.min : ℝ) (min (r.max : ℝ) (r.r.apply G v coarse))
  | none => 0

end HexoDSP.Table
