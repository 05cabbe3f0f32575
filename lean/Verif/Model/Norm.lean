import Verif.Model.NodeId
import Mathlib.Analysis.SpecialFunctions.Pow.Real
import Mathlib.Analysis.SpecialFunctions.Log.Base
/-!
# Model of the parameter curves, `src/dsp/mod.rs:939-1092,1385-1402`

`f32` is modelled by the real numbers: no rounding, no infinities, no NaN. `gain_db2coef` and `coef2gain_db` are functions of the crate `synfx_dsp`
that is not part of the repository; they are arbitrary functions here.
-/

namespace HexoDSP.Table

/-- `synfx_dsp::gain_db2coef` and `synfx_dsp::coef2gain_db`. -/
structure Gain where
  toCoef : ℝ → ℝ
  toDb : ℝ → ℝ

/-- `src/dsp/mod.rs:951-956` `define_lin!`, the normalisation. -/
noncomputable def nLin (lo hi x : ℝ) : ℝ := |(x - lo) / (hi - lo)|
/-- `src/dsp/mod.rs:958-962` `define_lin!`, the denormalisation. -/
noncomputable def dLin (lo hi x : ℝ) : ℝ := lo * (1 - x) + hi * x

/-- `src/dsp/mod.rs:967-972` `define_exp!`, the normalisation. -/
noncomputable def nExp (lo hi x : ℝ) : ℝ := Real.sqrt |(x - lo) / (hi - lo)|
/-- `src/dsp/mod.rs:973-978` `define_exp!`, the denormalisation. -/
noncomputable def dExp (lo hi x : ℝ) : ℝ := lo * (1 - x * x) + hi * (x * x)

/-- `src/dsp/mod.rs:999-1004` `define_exp6!`, the normalisation. -/
noncomputable def nExp6 (lo hi x : ℝ) : ℝ := |(x - lo) / (hi - lo)| ^ ((1 : ℝ) / 6)
/-- `src/dsp/mod.rs:1005-1010` `define_exp6!`, the denormalisation. -/
noncomputable def dExp6 (lo hi x : ℝ) : ℝ := lo * (1 - x ^ (6 : ℝ)) + hi * x ^ (6 : ℝ)

/-- `src/dsp/mod.rs:1015-1020` `define_db!`, the normalisation. -/
noncomputable def nDb (G : Gain) (lo hi x : ℝ) : ℝ := |(G.toDb x - lo) / (hi - lo)|
/-- `src/dsp/mod.rs:1021-1025` `define_db!`, the denormalisation. -/
noncomputable def dDb (G : Gain) (lo hi x : ℝ) : ℝ := G.toCoef (lo * (1 - x) + x * hi)

/-- `src/dsp/mod.rs:1042-1046` `n_pit!`. -/
noncomputable def nPit (x : ℝ) : ℝ := 0.1 * Real.logb 2 (max x 0.01 / 440)
/-- `src/dsp/mod.rs:1050-1055` `d_pit!`. -/
noncomputable def dPit (x : ℝ) : ℝ := 440 * (2 : ℝ) ^ (max (-10) (min 10 (x * 10)))

/-- The macros `n_*!` by name: `src/dsp/mod.rs:939-943` (`n_id`), `1062-1066` (`n_det`), `1385-1402`. -/
noncomputable def Curve.norm (G : Gain) : Curve → ℝ → ℝ
  | .id, x => x
  | .vol, x => nDb G (-90) 18 x
  | .gain, x => nDb G (-24) 24 x
  | .driv, x => nDb G 0 24 x
  | .declick, x => nExp 0 50 x
  | .env, x => nExp 0 1000 x
  | .lfot, x => nExp6 0.1 300000 x
  | .time, x => nExp 0.5 5000 x
  | .ftme, x => nExp 0.1 1000 x
  | .timz, x => nExp 0 5000 x
  | .vps, x => nLin 0 20 x
  | .pit, x => nPit x
  | .det, x => x / 120

/-- The macros `d_*!` by name: `src/dsp/mod.rs:944-948` (`d_id`), `1067-1071` (`d_det`), `1385-1402`. -/
noncomputable def Curve.denorm (G : Gain) : Curve → ℝ → ℝ
  | .id, x => x
  | .vol, x => dDb G (-90) 18 x
  | .gain, x => dDb G (-24) 24 x
  | .driv, x => dDb G 0 24 x
  | .declick, x => dExp 0 50 x
  | .env, x => dExp 0 1000 x
  | .lfot, x => dExp6 0.1 300000 x
  | .time, x => dExp 0.5 5000 x
  | .ftme, x => dExp 0.1 1000 x
  | .timz, x => dExp 0 5000 x
  | .vps, x => dLin 0 20 x
  | .pit, x => dPit x
  | .det, x => x * 120

namespace ParamId

/-- `src/dsp/mod.rs:2097-2107` `norm`. -/
noncomputable def norm (G : Gain) (p : ParamId) (v : ℝ) : ℝ :=
  match p.paramRow with
  | some r => r.n.norm G v
  | none => 0

/-- `src/dsp/mod.rs:2109-2119` `denorm`. -/
noncomputable def denorm (G : Gain) (p : ParamId) (v : ℝ) : ℝ :=
  match p.paramRow with
  | some r => r.d.denorm G v
  | none => 0

/-- `src/dsp/mod.rs:2073-2083` `norm_def`. -/
noncomputable def normDef (G : Gain) (p : ParamId) : ℝ :=
  match p.paramRow with
  | some r => r.n.norm G r.dflt
  | none => 0

end ParamId

end HexoDSP.Table
