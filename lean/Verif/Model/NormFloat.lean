import Verif.Model.NodeId
import Mathlib.Algebra.Order.Field.Rat
import Mathlib.Algebra.Order.Group.Unbundled.Abs
/-!
# Model of some of the parameter curves with `f32` numbers, `src/dsp/mod.rs:939-978,1062-1071,1391-1402`

`rn` is the rounding after an operation, `sq` the function `f32::sqrt`. Infinities and NaN are left out. Only the curves that use no other function than
the basic operations and the square root are modelled: the identity, `det`, `vps`, `declick`, `env`, `time`, `ftme` and `timz`.
The others stand as `none` (`pit`, the decibels and `lfot` use functions of the system library or of the crate `synfx_dsp`).
-/

namespace HexoDSP.Table

variable (rn sq : ℚ → ℚ)

/-- `src/dsp/mod.rs:951-956` `define_lin!`, the normalisation. -/
def nLinF (lo hi x : ℚ) : ℚ := |rn (rn (x - lo) / rn (hi - lo))|
/-- `src/dsp/mod.rs:958-962` `define_lin!`, the denormalisation. -/
def dLinF (lo hi x : ℚ) : ℚ := rn (rn (lo * rn (1 - x)) + rn (hi * x))

/-- `src/dsp/mod.rs:967-972` `define_exp!`, the normalisation. -/
def nExpF (lo hi x : ℚ) : ℚ := sq |rn (rn (x - lo) / rn (hi - lo))|
/-- `src/dsp/mod.rs:973-978` `define_exp!`, the denormalisation. -/
def dExpF (lo hi x : ℚ) : ℚ := rn (rn (lo * rn (1 - rn (x * x))) + rn (hi * rn (x * x)))

/-- The macros `n_*!` by name: `src/dsp/mod.rs:939-943` (`n_id`), `1062-1066` (`n_det`), `1391-1402`. -/
def Curve.normF : Curve → Option (ℚ → ℚ)
  | .id => some fun x => x
  | .declick => some (nExpF rn sq 0 50)
  | .env => some (nExpF rn sq 0 1000)
  | .time => some (nExpF rn sq (1 / 2) 5000)
  | .ftme => some (nExpF rn sq (rn (1 / 10)) 1000)
  | .timz => some (nExpF rn sq 0 5000)
  | .vps => some (nLinF rn 0 20)
  | .det => some fun x => rn (x / 120)
  | _ => none

/-- The macros `d_*!` by name: `src/dsp/mod.rs:944-948` (`d_id`), `1067-1071` (`d_det`), `1391-1402`. -/
def Curve.denormF : Curve → Option (ℚ → ℚ)
  | .id => some fun x => x
  | .declick => some (dExpF rn 0 50)
  | .env => some (dExpF rn 0 1000)
  | .time => some (dExpF rn (1 / 2) 5000)
  | .ftme => some (dExpF rn (rn (1 / 10)) 1000)
  | .timz => some (dExpF rn 0 5000)
  | .vps => some (dLinF rn 0 20)
  | .det => some fun x => rn (x * 120)
  | _ => none

namespace ParamId

/-- `src/dsp/mod.rs:2097-2107` `norm`. -/
def normF (p : ParamId) (v : ℚ) : Option ℚ :=
  match p.paramRow with
  | some r => (r.n.normF rn sq).map (· v)
  | none => some 0

/-- `src/dsp/mod.rs:2109-2119` `denorm`. -/
def denormF (p : ParamId) (v : ℚ) : Option ℚ :=
  match p.paramRow with
  | some r => (r.d.denormF rn).map (· v)
  | none => some 0

/-- What a parameter is after it has been saved and loaded: `src/nodes/node_conf.rs:519-536` `dump_param_values` writes `denorm`,
`src/nodes/node_conf.rs:540-555` `load_dumped_param_values` (with `normalize_params`) sets the `norm` of that. -/
def saveLoad (p : ParamId) (v : ℚ) : Option ℚ := (p.denormF rn v).bind (p.normF rn sq)

end ParamId

end HexoDSP.Table
