import Verif.Model.NodeTable
/-!
# What the knobs of times stand for (C143)
-/

namespace HexoDSP.KnobSpec
open HexoDSP.Table

/-- The physical values at the two ends of a knob: milliseconds, or the factor `vs` of `vosc`. The lower end 0.1 ms of `ftme` is the `f32` number next to 0.1. -/
def ends : Curve → Option (ℚ × ℚ)
  | .declick => some (0, 50)
  | .env => some (0, 1000)
  | .time => some (1 / 2, 5000)
  | .ftme => some (13421773 / 134217728, 1000)
  | .timz => some (0, 5000)
  | .vps => some (0, 20)
  | _ => none

/-- How the way from one end to the other is covered: `vps` evenly, the times by the square. -/
def bend : Curve → ℚ → ℚ
  | .vps, x => x
  | _, x => x ^ 2

end HexoDSP.KnobSpec
