import Verif.Model.Tracker
import Verif.Model.MapNodes
import Verif.Model.RndWk
/-!
# Parts of nodes with the arithmetic of `f32`

The same code as in `Verif/Model/Tracker.lean`, `Verif/Model/MapNodes.lean` and `Verif/Model/RndWk.lean`, with a rounding `rn` after each operation and of each
constant, or with signals that may be NaN.
-/

namespace HexoDSP.FloatNodes

/-- `src/dsp/tracker/sequencer.rs:82`, `114`, `136`: `(self.rows as f32) - 0.00001`. -/
def lastRowIdx (rn : ℚ → ℚ) (rows : Nat) : ℚ := rn (rn rows - rn (1 / 100000))

/-- `src/dsp/tracker/sequencer.rs:86-88`, `118-119`: the row of a phase. -/
def lineOf (rn : ℚ → ℚ) (rows : Nat) (phase : ℚ) : Nat := Tracker.floorUsize (rn (phase * lastRowIdx rn rows)) % rows

/-- `src/dsp/node_smap.rs:119-195`: one frame with clipping (the second setting is 1). -/
def smapClipped (rn : ℚ → ℚ) (mode : ℤ) (s lo hi : ℚ) : Option ℚ :=
  match mode with
  | 0 => some (rn (lo + rn (rn (hi - lo) * MapNodes.clamp s 0 1)))
  | 1 => some (rn (lo + rn (rn (hi - lo) * MapNodes.clamp (rn (rn (s + 1) * (1 / 2))) 0 1)))
  | 2 => some (rn (lo + rn (rn (hi - lo) * rn (1 - MapNodes.clamp s 0 1))))
  | 3 => some (rn (lo + rn (rn (hi - lo) * rn (1 - MapNodes.clamp (rn (rn (s + 1) * (1 / 2))) 0 1))))
  | _ => none

/-- `src/dsp/node_map.rs:139-143`: the position in the input range. -/
def position (rn : ℚ → ℚ) (s imin imax : ℚ) : ℚ := if |rn (imax - imin)| < MapNodes.eps then 1 else |rn (rn (s - imin) / rn (imax - imin))|

/-- `src/dsp/node_map.rs:131-148`: one frame with clipping. -/
def mapClipped (rn : ℚ → ℚ) (inp atv offs imin imax lo hi : ℚ) : ℚ :=
  let s := rn (rn (inp * atv) + offs)
  let x := position rn s imin imax
  let r := rn (lo + rn (rn (hi - lo) * x))
  if lo < hi then MapNodes.clamp r lo hi else MapNodes.clamp r hi lo

/-- `src/dsp/node_rndwk.rs:110-113`: the range, clamped and in order. -/
def walkRange (mn mx : ℚ) : ℚ × ℚ :=
  let lo := MapNodes.clamp mn 0 1
  let hi := MapNodes.clamp mx 0 1
  if hi < lo then (hi, lo) else (lo, hi)

/-- `f32::clamp` on numbers: the assertion of `std`, then the clamping. -/
def clampOrPanic (x lo hi : ℚ) : Option ℚ := if lo ≤ hi then some (MapNodes.clamp x lo hi) else none

/-- `src/dsp/node_rndwk.rs:110-133`: the new target from the value of the slew limiter, the random number (from 0 to 1) and the inputs; `none` is a panic. -/
def walkTarget (rn : ℚ → ℚ) (mn mx step offs value rnd : ℚ) : Option ℚ :=
  let lo := (walkRange mn mx).1
  let hi := (walkRange mn mx).2
  let delta := MapNodes.clamp (rn (hi - lo)) (rn (1 / 10000)) 1
  let step := MapNodes.clamp step (-1) 1
  let offs := MapNodes.clamp offs (-1) 1
  let target := rn (rn (value + rn (rn (rn (rnd * 2) * step) - step)) + offs)
  let room := rn (delta * rn (99 / 100))
  (clampOrPanic target (rn (lo - room)) (rn (hi + room))).map (fun t =>
  let t := if t > hi then rn (hi - |rn (hi - t)|) else t
  if t < lo then rn (lo + |rn (lo - t)|) else t)

/-! ## Signals that may be NaN: `none` stands for NaN -/

/-- A comparison is false if a side is NaN. -/
def lt : Option ℚ → Option ℚ → Bool
  | some a, some b => decide (a < b)
  | _, _ => false

/-- `f32::clamp` (`std`): `assert!(min <= max)`, then the clamping, that leaves NaN as it is. The outer `none` is the panic. -/
def clampAssert (x lo hi : Option ℚ) : Option (Option ℚ) :=
  match lo, hi with
  | some l, some h => if l ≤ h then some (x.map (fun v => if v < l then l else if v > h then h else v)) else none
  | _, _ => none

/-- `src/dsp/node_map.rs:147`: the value `r` that was mapped (in whatever way) is clipped and written. -/
def mapWrite (r lo hi : Option ℚ) : Option (Option ℚ) := if lt lo hi then clampAssert r lo hi else clampAssert r hi lo

/-- An operation on numbers: NaN if an operand is NaN. (An operation on infinities is left out.) -/
def op (f : ℚ → ℚ → ℚ) (a b : Option ℚ) : Option ℚ := a.bind (fun x => b.map (fun y => f x y))

/-- `src/dsp/node_rndwk.rs:110-133`: the new target; `t` is the value before it is clamped (lines 121-122). -/
def newTarget (lo hi t : Option ℚ) : Option (Option ℚ) :=
  (clampAssert lo (some 0) (some 1)).bind (fun lo =>
  (clampAssert hi (some 0) (some 1)).bind (fun hi =>
  let r := if lt hi lo then (hi, lo) else (lo, hi)
  (clampAssert (op (· - ·) r.2 r.1) (some (1 / 10000)) (some 1)).bind (fun delta =>
  (clampAssert t (op (· - ·) r.1 (op (· * ·) delta (some (99 / 100)))) (op (· + ·) r.2 (op (· * ·) delta (some (99 / 100))))).map (fun t =>
  let t := if lt r.2 t then op (fun h t => h - |h - t|) r.2 t else t
  if lt t r.1 then op (fun l t => l + |l - t|) r.1 t else t))))

end HexoDSP.FloatNodes
