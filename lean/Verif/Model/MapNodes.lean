import Mathlib.Algebra.Order.Ring.Rat
/-!
# Model of `src/dsp/node_smap.rs` and `src/dsp/node_map.rs`

Signals are rationals (the rounding of `f32` is not modelled, NaN neither). Both nodes have no state: each frame is a function of
the inputs in that frame. The LED value is left out.
-/

namespace HexoDSP.MapNodes

/-- `f32::clamp` for `lo ≤ hi`. -/
def clamp (x lo hi : ℚ) : ℚ := max lo (min x hi)

/-- `src/dsp/node_smap.rs:119-195`: one frame; `mode` and `clip` are the settings. `none`: nothing is written (`_ => {}`). -/
def smap (mode clip : ℤ) (s lo hi : ℚ) : Option ℚ :=
  match mode, clip with
  | 0, 0 => some (lo + (hi - lo) * s)
  | 0, 1 => some (lo + (hi - lo) * clamp s 0 1)
  | 1, 0 => some (lo + (hi - lo) * ((s + 1) * (1 / 2)))
  | 1, 1 => some (lo + (hi - lo) * clamp ((s + 1) * (1 / 2)) 0 1)
  | 2, 0 => some (lo + (hi - lo) * (1 - s))
  | 2, 1 => some (lo + (hi - lo) * (1 - clamp s 0 1))
  | 3, 0 => some (lo + (hi - lo) * (1 - (s + 1) * (1 / 2)))
  | 3, 1 => some (lo + (hi - lo) * (1 - clamp ((s + 1) * (1 / 2)) 0 1))
  | _, _ => none

/-- `std::f32::EPSILON`. -/
def eps : ℚ := 1 / 2 ^ 23

/-- `src/dsp/node_map.rs:120-124`, `139-143`: the position in the input range. -/
def position (s imin imax : ℚ) : ℚ := if |imax - imin| < eps then 1 else |(s - imin) / (imax - imin)|

/-- `src/dsp/node_map.rs:111-151`: one frame; `clip` is the setting. -/
def map (clip : ℤ) (inp atv offs imin imax lo hi : ℚ) : ℚ :=
  let s := inp * atv + offs
  let x := position s imin imax
  let r := lo + (hi - lo) * x
  if clip = 0 then r
  else if lo < hi then clamp r lo hi else clamp r hi lo

end HexoDSP.MapNodes
