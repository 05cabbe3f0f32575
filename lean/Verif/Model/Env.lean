import Mathlib.Algebra.Order.Field.Rat
import Mathlib.Algebra.Field.Rat
/-!
# Model of `src/dsp/node_ad.rs` and `src/dsp/node_adsr.rs`

Numbers are rationals. The envelopes (`EnvRetrigAD`, `EnvRetrigADSR`), the curve `sqrt4_to_pow4` (all of the crate `synfx_dsp`) and `powf(0.3)` are
arbitrary here. The inputs are given after the denormalisation.
-/

namespace HexoDSP.Env

/-- `f32::clamp`. -/
def clamp (lo hi x : ℚ) : ℚ := if x < lo then lo else if x > hi then hi else x

/-- `src/dsp/node_ad.rs:147-151` and `src/dsp/node_adsr.rs:164-168`: the setting `mult`. -/
def multOf (m : Int) : ℚ := match m with
  | 1 => 10
  | 2 => 100
  | _ => 1

/-! ## Attack and decay -/

/-- `synfx_dsp::EnvRetrigAD`: trigger, attack time and shape, decay time and shape give the envelope and the end trigger. -/
structure AdExt (S : Type) where
  new : S
  setRate : S → ℚ → S
  reset : S → S
  tick : S → (trig atkMs ashp dcyMs dshp : ℚ) → S × ℚ × ℚ

/-- The inputs of `Ad` in one frame. -/
structure AdFrame where
  inp : ℚ
  trig : ℚ
  atk : ℚ
  dcy : ℚ
  ashp : ℚ
  dshp : ℚ
  deriving DecidableEq

variable {S : Type}

/-- `src/dsp/node_ad.rs:153-168`: one frame; the outputs `sig` and `eoet`. -/
def adTick (E : AdExt S) (mult : ℚ) (s : S) (f : AdFrame) : S × ℚ × ℚ :=
  let r := E.tick s f.trig (mult * f.atk) (clamp 0 1 f.ashp) (mult * f.dcy) (1 - clamp 0 1 f.dshp)
  (r.1, f.inp * r.2.1, r.2.2)

/-- `src/dsp/node_ad.rs:127-173` `process`: the loop over the frames. -/
def adProcess (E : AdExt S) (mult : Int) (s : S) : List AdFrame → S × List (ℚ × ℚ)
  | [] => (s, [])
  | f :: fs =>
    let r := adTick E (multOf mult) s f
    let rest := adProcess E mult r.1 fs
    (rest.1, r.2 :: rest.2)

/-- What happens to an envelope node with inputs `F`. -/
inductive Ev (F : Type) where
  | block (mult : Int) (fs : List F)
  | reset
  | rate (srate : ℚ)

/-- A history of an `Ad` (`src/dsp/node_ad.rs:117-174`): what the outputs play, frame after frame. -/
def adRun (E : AdExt S) (s : S) : List (Ev AdFrame) → List (ℚ × ℚ)
  | [] => []
  | .block m fs :: es => (adProcess E m s fs).2 ++ adRun E (adProcess E m s fs).1 es
  | .reset :: es => adRun E (E.reset s) es
  | .rate r :: es => adRun E (E.setRate s r) es

/-- `src/dsp/node_ad.rs:79-114` `graph_fun`: the value drawn at `x` when the next point is `xn`. `atk` and `dcy` are the normalised values; `curve` is
`sqrt4_to_pow4`. -/
def adGraph (curve : ℚ → ℚ → ℚ) (atk dcy ashp dshp x xn : ℚ) : ℚ :=
  let a := atk * (1/2)
  let d := dcy * (1/2)
  if x ≤ a then
    if xn > a then 1
    else if a < 1/10000 then 0
    else
      let delta := 1 - (a - x) / a
      curve delta ashp
  else if x - a ≤ d then
    if d < 1/10000 then 0
    else
      let x := x - a
      let delta := (d - x) / d
      curve delta dshp
  else 0

/-! ## Attack, decay, sustain and release -/

/-- `synfx_dsp::EnvADSRParams`, the fields written at `src/dsp/node_adsr.rs:174-180`. They are all the fields there are. -/
structure Params where
  atkMs : ℚ
  ashp : ℚ
  dcyMs : ℚ
  dshp : ℚ
  relMs : ℚ
  rshp : ℚ
  sus : ℚ
  deriving DecidableEq

/-- `synfx_dsp::EnvRetrigADSR`: gate and parameters give the envelope and the end trigger. `tick` gets the parameters by `&mut`; what it does to them is
overwritten before the next call (`src/dsp/node_adsr.rs:174-180`), except in the graph, where it is kept. -/
structure AdsrExt (S : Type) where
  new : S
  setRate : S → ℚ → S
  reset : S → S
  tick : S → (gate : ℚ) → Params → S × Params × ℚ × ℚ

/-- The inputs of `Adsr` in one frame. -/
structure AdsrFrame where
  inp : ℚ
  gate : ℚ
  atk : ℚ
  dcy : ℚ
  sus : ℚ
  rel : ℚ
  ashp : ℚ
  dshp : ℚ
  rshp : ℚ
  deriving DecidableEq

/-- `src/dsp/node_adsr.rs:174-180`: the parameters of one frame. -/
def adsrParams (mult : ℚ) (f : AdsrFrame) : Params where
  atkMs := mult * f.atk
  ashp := clamp 0 1 f.ashp
  dcyMs := mult * f.dcy
  dshp := 1 - clamp 0 1 f.dshp
  relMs := mult * f.rel
  rshp := 1 - clamp 0 1 f.rshp
  sus := clamp 0 1 f.sus

/-- `src/dsp/node_adsr.rs:172-190`: one frame; the outputs `sig` and `eoet`. -/
def adsrTick (E : AdsrExt S) (mult : ℚ) (s : S) (f : AdsrFrame) : S × ℚ × ℚ :=
  let r := E.tick s f.gate (adsrParams mult f)
  (r.1, f.inp * r.2.2.1, r.2.2.2)

/-- `src/dsp/node_adsr.rs:141-195` `process`: the loop over the frames. -/
def adsrProcess (E : AdsrExt S) (mult : Int) (s : S) : List AdsrFrame → S × List (ℚ × ℚ)
  | [] => (s, [])
  | f :: fs =>
    let r := adsrTick E (multOf mult) s f
    let rest := adsrProcess E mult r.1 fs
    (rest.1, r.2 :: rest.2)

/-- A history of an `Adsr` (`src/dsp/node_adsr.rs:131-196`). -/
def adsrRun (E : AdsrExt S) (s : S) : List (Ev AdsrFrame) → List (ℚ × ℚ)
  | [] => []
  | .block m fs :: es => (adsrProcess E m s fs).2 ++ adsrRun E (adsrProcess E m s fs).1 es
  | .reset :: es => adsrRun E (E.reset s) es
  | .rate r :: es => adsrRun E (E.setRate s r) es

/-- The parameter values the graph looks at (`src/dsp/node_adsr.rs:110-116`), denormalised. -/
structure GraphData where
  atk : ℚ
  dcy : ℚ
  sus : ℚ
  rel : ℚ
  ashp : ℚ
  dshp : ℚ
  rshp : ℚ

/-- The state of the closure of `src/dsp/node_adsr.rs:96-100`. -/
structure Graph (S : Type) where
  params : Params
  env : S

/-- `src/dsp/node_adsr.rs:96-98`: the state a new graph function starts with. `dflt` is `EnvADSRParams::default()`. -/
def Graph.new (E : AdsrExt S) (dflt : Params) : Graph S := ⟨dflt, E.setRate E.new 200⟩

/-- `src/dsp/node_adsr.rs:101-121`: the call with `init`. `sq` is `x.powf(0.3)` (`src/dsp/node_adsr.rs:198-200`). -/
def Graph.init (E : AdsrExt S) (sq : ℚ → ℚ) (g : Graph S) (gd : GraphData) : Graph S × ℚ :=
  ({ params :=
      { atkMs := sq (gd.atk / 1000) * 180
        ashp := gd.ashp
        dcyMs := sq (gd.dcy / 1000) * 180
        dshp := 1 - clamp 0 1 gd.dshp
        relMs := sq (gd.rel / 1000) * 180
        rshp := 1 - clamp 0 1 gd.rshp
        sus := clamp 0 1 gd.sus }
     env := E.reset g.env }, 0)

/-- `src/dsp/node_adsr.rs:121-126`: the call for the point `x`. -/
def Graph.point (E : AdsrExt S) (g : Graph S) (x : ℚ) : Graph S × ℚ :=
  let gate := if x > 7/10 then 0 else 1
  let r := E.tick g.env gate g.params
  (⟨r.2.1, r.1⟩, r.2.2.1)

/-- The points of one picture. -/
def Graph.points (E : AdsrExt S) (g : Graph S) : List ℚ → Graph S × List ℚ
  | [] => (g, [])
  | x :: xs =>
    let r := g.point E x
    let rest := r.1.points E xs
    (rest.1, r.2 :: rest.2)

/-- One picture: `init`, then the points. -/
def Graph.draw (E : AdsrExt S) (sq : ℚ → ℚ) (g : Graph S) (gd : GraphData) (xs : List ℚ) : Graph S × List ℚ :=
  (g.init E sq gd).1.points E xs

end HexoDSP.Env
