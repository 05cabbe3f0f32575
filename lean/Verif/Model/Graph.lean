import Verif.Model.NodeId
import Verif.Model.TestNode
/-!
# Model of the graph functions of `BOsc`, `VOsc`, `TsLFO` and `Test`

A graph function makes the small picture of a node in the user interface (`src/dsp/mod.rs:340-352`, `702-712`). It is called once for every point, from left
to right, with `init` set at the first point. Numbers are rationals. The oscillators of the crate `synfx_dsp` are arbitrary machines; an oscillator is kept
by the function from one picture to the next. Panics are `none`. The graph function of `Ad` is in `Verif/Model/Env.lean`.
-/

namespace HexoDSP.Graph
open HexoDSP.Table HexoDSP.Repr

/-- `src/dsp/mod.rs:704-710` `trait GraphAtomData`: what is read of it here. -/
structure Data where
  get : Nat → Option (SAtom ℚ)
  denorm : Nat → ℚ
  norm : Nat → ℚ

/-- `NodeId::..(0).inp_param(..).unwrap().inp()`; `none` is a panic. -/
def index (node param : String) : Option Nat := ((NodeId.fromStr node).inpParam param).map (·.idx)

/-- `f32::clamp`. -/
def clamp (x lo hi : ℚ) : ℚ := if x < lo then lo else if x > hi then hi else x

/-- `PolyBlepOscillator`: `new`, `reset` and the wave forms. -/
structure Blep (O : Type) where
  new : O
  reset : O → O
  sin : O → ℚ → ℚ → O × ℚ
  tri : O → ℚ → ℚ → O × ℚ
  saw : O → ℚ → ℚ → O × ℚ
  pulseNoDc : O → ℚ → ℚ → ℚ → O × ℚ
  pulse : O → ℚ → ℚ → ℚ → O × ℚ

/-- `src/dsp/node_bosc.rs:94-96`: a number of steps of the triangle that are not drawn. -/
def warmUp {O : Type} (E : Blep O) (o : O) : Nat → O
  | 0 => o
  | k + 1 => warmUp E (E.tri o 2 (1/128)).1 k

/-- `src/dsp/node_bosc.rs:75-109`: one point. -/
def bosc {O : Type} (E : Blep O) (gd : Data) (init : Bool) (o : O) : Option (O × ℚ) :=
  match index "bosc" "wtype", index "bosc" "pw" with
  | some wt, some pw =>
    let wtype := ((gd.get wt).map TestNode.int).getD 0
    let pw := gd.denorm pw
    let o := if init then (let o := E.reset o; if wtype = 1 then warmUp E o 256 else o) else o
    let r := if wtype = 0 then E.sin o 2 (1/128) else if wtype = 1 then E.tri o 2 (1/128) else if wtype = 2 then E.saw o 2 (1/128)
      else if wtype = 3 then E.pulseNoDc o 2 (1/128) pw else E.pulse o 2 (1/128) pw
    let s := (r.2 + 1) * (1/2)
    some (r.1, s * (9/10) + 1/20)
  | _, _ => none

/-- `VPSOscillator`: `new`, `reset`, `limit_v`, `next`; and `apply_distortion`. -/
structure Vps (O : Type) where
  new : O
  reset : O → O
  limitV : ℚ → ℚ → ℚ
  next : O → ℚ → ℚ → ℚ → ℚ → O × ℚ
  distort : ℚ → ℚ → Nat → ℚ

/-- `src/dsp/node_vosc.rs:87-109`: one point. `as u8` is the remainder by 256. -/
def vosc {O : Type} (E : Vps O) (gd : Data) (init : Bool) (o : O) : Option (O × ℚ) :=
  let o := if init then E.reset o else o
  match index "vosc" "v", index "vosc" "vs", index "vosc" "d", index "vosc" "damt", index "vosc" "dist" with
  | some v, some vs, some d, some damt, some dist =>
    let v := clamp (gd.denorm v) 0 1
    let d := clamp (gd.denorm d) 0 1
    let vs := clamp (gd.denorm vs) 0 20
    let damt := gd.denorm damt
    let dist := ((gd.get dist).map TestNode.int).getD 0
    let v := E.limitV d (v + vs)
    let r := E.next o 1 (1/128) d v
    let s := E.distort r.2 damt (dist % 256).toNat
    some (r.1, (s + 1) * (1/2))
  | _, _, _, _, _ => none

/-- `TriSawLFO`: `new`, `set_sample_rate`, `reset`, `set`, `next_unipolar`; and `f32::sqrt`. -/
structure Lfo (O : Type) where
  new : O
  rate : O → ℚ → O
  reset : O → O
  set : O → ℚ → ℚ → O
  next : O → O × ℚ
  sqrt : ℚ → ℚ

/-- `src/dsp/node_tslfo.rs:48-49`: the oscillator of the graph function. -/
def lfoNew {O : Type} (E : Lfo O) : O := E.rate E.new 160

/-- `src/dsp/node_tslfo.rs:51-63`: one point. -/
def tslfo {O : Type} (E : Lfo O) (gd : Data) (init : Bool) (o : O) : Option (O × ℚ) :=
  if init then
    match index "tslfo" "time", index "tslfo" "rev" with
    | some t, some r =>
      let time := E.sqrt (gd.norm t)
      let rev := gd.norm r
      some (E.next (E.set (E.reset o) (5 * (1 - time) + time * 1) rev))
    | _, _ => none
  else some (E.next o)

/-- `src/dsp/node_test.rs:64`: one point. -/
def test (x : ℚ) : ℚ := x

/-- The points of one picture, the first with `init`. -/
def points {O : Type} (f : Data → Bool → O → Option (O × ℚ)) (gd : Data) (init : Bool) (o : O) : Nat → Option (O × List ℚ)
  | 0 => some (o, [])
  | k + 1 => (f gd init o).bind (fun r => (points f gd false r.1 k).map (fun q => (q.1, r.2 :: q.2)))

/-- Pictures one after the other, each with its own settings and number of points; the last component is the last picture. -/
def pictures {O : Type} (f : Data → Bool → O → Option (O × ℚ)) (o : O) : List (Data × Nat) → Option (O × List ℚ)
  | [] => some (o, [])
  | [p] => points f p.1 true o p.2
  | p :: q :: ps => (points f p.1 true o p.2).bind (fun r => pictures f r.1 (q :: ps))

end HexoDSP.Graph
