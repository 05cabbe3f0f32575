import Verif.Model.Tracker
/-!
# Model of `src/dsp/node_rndwk.rs`

The random generator (`Rng`), the slew limiter (`SlewValue`) and the trigger detector (`Trigger`) of the crate `synfx_dsp` are arbitrary machines.
Signals are rationals; the conversions between `f32` and `f64` are not modelled.
-/

namespace HexoDSP.RndWk
open HexoDSP.Tracker (clamp)

variable {S T R : Type}

/-- The machines of `synfx_dsp` (`src/dsp/node_rndwk.rs:13-18`). -/
structure Ext (S T R : Type) where
  slewNew : S
  slewValue : S → ℚ
  slewNext : S → ℚ → ℚ → ℚ × S
  trigNew : T
  trigCheck : T → ℚ → Bool × T
  rand : R → ℚ × R

/-- `src/dsp/node_rndwk.rs:12-17` `struct RndWk`. -/
structure Node (S T R : Type) where
  rng : R
  slew : S
  trig : T
  target : ℚ

/-- `src/dsp/node_rndwk.rs:21-26` `RndWk::new`; the seed depends on the instance. -/
def Node.new (e : Ext S T R) (seed : R) : Node S T R := { rng := seed, slew := e.slewNew, trig := e.trigNew, target := 0 }

/-- The inputs of one frame. -/
structure Frame where
  trig : ℚ
  step : ℚ
  offs : ℚ
  min : ℚ
  max : ℚ
  slew : ℚ

/-- `src/dsp/node_rndwk.rs:110-114`: the range, in order. -/
def range (f : Frame) : ℚ × ℚ :=
  let lo := clamp f.min 0 1
  let hi := clamp f.max 0 1
  if lo > hi then (hi, lo) else (lo, hi)

/-- `src/dsp/node_rndwk.rs:126-133`: overshoots are reflected back. -/
def reflect (lo hi t : ℚ) : ℚ :=
  let t := if t > hi then hi - |hi - t| else t
  if t < lo then lo + |lo - t| else t

/-- `src/dsp/node_rndwk.rs:110-135`: the new target, from the current value and the random number. -/
def newTarget (f : Frame) (value rnd : ℚ) : ℚ :=
  let r := range f
  let delta := clamp (r.2 - r.1) (1 / 10000) 1
  let step := clamp f.step (-1) 1
  let offs := clamp f.offs (-1) 1
  let t := value + ((rnd * 2 * step) - step) + offs
  reflect r.1 r.2 (clamp t (r.1 - delta * (99 / 100)) (r.2 + delta * (99 / 100)))

/-- `src/dsp/node_rndwk.rs:109-141`: one frame. -/
def Node.frame (e : Ext S T R) (n : Node S T R) (f : Frame) : ℚ × Node S T R :=
  let k := e.trigCheck n.trig f.trig
  let n := { n with trig := k.2 }
  let n := if k.1 then { n with target := newTarget f (e.slewValue n.slew) (e.rand n.rng).1, rng := (e.rand n.rng).2 } else n
  let o := e.slewNext n.slew n.target f.slew
  (o.1, { n with slew := o.2 })

/-- The loop over the frames (`src/dsp/node_rndwk.rs:109-141`), also over several blocks: the outputs and the node. -/
def Node.run (e : Ext S T R) : Node S T R → List Frame → List ℚ × Node S T R
  | n, [] => ([], n)
  | n, f :: fs =>
    let r := n.frame e f
    let q := r.2.run e fs
    (r.1 :: q.1, q.2)

end HexoDSP.RndWk
