import Mathlib.Algebra.Order.Field.Rat
import Mathlib.Algebra.Field.Rat
/-!
# Model of `src/dsp/node_fvafilt.rs`

Numbers are rationals. The three filters, the DC filter and the oversampling filters are from the crate `synfx_dsp`; they are arbitrary here
(`Ext`). Assumed of the Sallen-Key filter and the SVF is that `update` computes coefficients from the shared parameters, of the ladder filter that
`set_mix` computes coefficients from the mode, and that processing a frame does not change the coefficients. A stereo frame `X` is arbitrary.
The inputs are given after the denormalisation. Not modelled: the LED value.
-/

namespace HexoDSP.FVaFilt

/-- `LadderMode` of `synfx_dsp`, as used at `src/dsp/node_fvafilt.rs:191-203`. -/
inductive LadderMode
  | LP6 | LP12 | LP18 | LP24 | HP6 | HP12 | HP18 | HP24 | BP12 | BP24 | N12
  deriving DecidableEq, Repr

/-- `SvfMode` of `synfx_dsp`, as used at `src/dsp/node_fvafilt.rs:204-210`. -/
inductive SvfMode
  | LP | HP | BP1 | BP2 | Notch
  deriving DecidableEq, Repr

/-- `src/dsp/node_fvafilt.rs:191-203`. -/
def ladderMode : ℤ → LadderMode
  | 0 => .LP6
  | 1 => .LP12
  | 2 => .LP18
  | 3 => .LP24
  | 4 => .HP6
  | 5 => .HP12
  | 6 => .HP18
  | 7 => .HP24
  | 8 => .BP12
  | 9 => .BP24
  | _ => .N12

/-- `src/dsp/node_fvafilt.rs:204-210`. -/
def svfMode : ℤ → SvfMode
  | 0 => .LP
  | 1 => .HP
  | 2 => .BP1
  | 3 => .BP2
  | _ => .Notch

/-- `FilterParams` of `synfx_dsp`: the parameters the three filters share (`src/dsp/node_fvafilt.rs:188-210`). -/
structure Params where
  freq : ℚ
  res : ℚ
  drive : ℚ
  ladder : LadderMode
  mode : SvfMode
  deriving DecidableEq

/-- The filters of `synfx_dsp`. `CS`, `CV`, `CL` are coefficients and `MS`, `MV`, `ML` memories of the Sallen-Key filter, the SVF and the ladder. -/
structure Ext (X CS MS CV MV CL ML D U : Type) where
  /-- `SallenKey::update` and `SallenKey::process` -/
  skCoefs : Params → CS
  skTick : CS → Params → MS → X → X × MS
  /-- `Svf::update` and `Svf::process` -/
  svfCoefs : Params → CV
  svfTick : CV → Params → MV → X → X × MV
  /-- `LadderFilter::set_mix` and `LadderFilter::tick_newton` -/
  mix : LadderMode → CL
  ladTick : CL → Params → ML → X → X × ML
  /-- `DCFilterX4::process` -/
  dc : D → X → X × D
  /-- `PolyIIRHalfbandFilter::process` -/
  half : U → X → X × U
  /-- `f32x4::splat(2.) * x` and `f32x4::splat(0.)` -/
  twice : X → X
  zero : X
  /-- what the constructors make -/
  sk0 : CS × MS
  svf0 : CV × MV
  lad0 : CL × ML
  dc0 : D
  half0 : U
  params0 : Params

variable {X CS MS CV MV CL ML D U : Type}

/-- The tuple of `src/dsp/node_fvafilt.rs:67`: frequency, resonance, drive, type, ladder mode, SVF mode. -/
structure Tuple where
  freq : ℚ
  res : ℚ
  drive : ℚ
  ftype : ℤ
  lmode : ℤ
  smode : ℤ
  deriving DecidableEq

/-- `src/dsp/node_fvafilt.rs:65-73` `struct FVaFilt`. -/
structure Node (CS MS CV MV CL ML D U : Type) where
  params : Params
  old : Tuple
  ladder : CL × ML
  svf : CV × MV
  sk : CS × MS
  up : U
  down : U
  dc : D

/-- `src/dsp/node_fvafilt.rs:76-87` `new`. -/
def Node.new (E : Ext X CS MS CV MV CL ML D U) : Node CS MS CV MV CL ML D U :=
  { params := E.params0, old := ⟨0, 0, 0, 0, 0, -1⟩, ladder := E.lad0, svf := E.svf0, sk := E.sk0, up := E.half0, down := E.half0, dc := E.dc0 }

/-- `as i8` of an `i64` (`src/dsp/node_fvafilt.rs:265-267`). -/
def asI8 (x : ℤ) : ℤ := (x + 128) % 256 - 128

/-- `f32::clamp`. -/
def clamp (lo hi x : ℚ) : ℚ := if x < lo then lo else if x > hi then hi else x

/-- The inputs in one frame: the stereo signal, `freq`, `res` and `drive`. -/
structure Frame (X : Type) where
  sig : X
  freq : ℚ
  res : ℚ
  drive : ℚ

/-- The settings of the node in a block (`src/dsp/node_fvafilt.rs:256-258`). -/
structure Setting where
  ftype : ℤ
  smode : ℤ
  lmode : ℤ
  deriving DecidableEq

/-- `src/dsp/node_fvafilt.rs:173-180`, `265-267`: the parameters of a frame. -/
def tuple (s : Setting) (f : Frame X) : Tuple :=
  ⟨clamp 1 20000 f.freq, clamp 0 1 f.res, max f.drive 0, asI8 s.ftype, asI8 s.lmode, asI8 s.smode⟩

/-- `src/dsp/node_fvafilt.rs:188-210`: the shared parameters set from the tuple. -/
def Tuple.params (t : Tuple) : Params := ⟨t.freq, t.res, t.drive, ladderMode t.lmode, svfMode t.smode⟩

/-- `src/dsp/node_fvafilt.rs:171-216` `on_param_change!` with the blocks at `288-290`, `327-329` and `366-370`; `changed` is
`ladder_mode_changed`. -/
def Node.paramChange (E : Ext X CS MS CV MV CL ML D U) (n : Node CS MS CV MV CL ML D U) (changed : Bool) (t : Tuple) :
    Node CS MS CV MV CL ML D U × Bool :=
  if t ≠ n.old then
    let changed := if t.lmode ≠ n.old.lmode then true else changed
    let n := { n with params := t.params }
    let n := match t.ftype with
      | 2 => { n with sk := (E.skCoefs n.params, n.sk.2) }
      | 1 => { n with svf := (E.svfCoefs n.params, n.svf.2) }
      | _ => if changed then { n with ladder := (E.mix n.params.ladder, n.ladder.2) } else n
    ({ n with old := t }, changed)
  else (n, changed)

/-- `src/dsp/node_fvafilt.rs:303`, `342`, `383`: one oversampled frame through the selected filter. -/
def Node.filt (E : Ext X CS MS CV MV CL ML D U) (n : Node CS MS CV MV CL ML D U) (ftype : ℤ) (x : X) : X × Node CS MS CV MV CL ML D U :=
  match ftype with
  | 2 => let r := E.skTick n.sk.1 n.params n.sk.2 x
         (r.1, { n with sk := (n.sk.1, r.2) })
  | 1 => let r := E.svfTick n.svf.1 n.params n.svf.2 x
         (r.1, { n with svf := (n.svf.1, r.2) })
  | _ => let r := E.ladTick n.ladder.1 n.params n.ladder.2 x
         (r.1, { n with ladder := (n.ladder.1, r.2) })

/-- `src/dsp/node_fvafilt.rs:301-305`: one round of the oversampling loop. -/
def Node.round (E : Ext X CS MS CV MV CL ML D U) (n : Node CS MS CV MV CL ML D U) (ftype : ℤ) (x : X) : X × Node CS MS CV MV CL ML D U :=
  let u := E.half n.up (E.twice x)
  let r := { n with up := u.2 }.filt E ftype u.1
  let d := E.half r.2.down r.1
  (d.1, { r.2 with down := d.2 })

/-- `src/dsp/node_fvafilt.rs:277-311`, `316-350`, `355-391`: one frame. -/
def Node.frame (E : Ext X CS MS CV MV CL ML D U) (n : Node CS MS CV MV CL ML D U) (changed : Bool) (s : Setting) (f : Frame X) :
    X × Node CS MS CV MV CL ML D U × Bool :=
  let p := n.paramChange E changed (tuple s f)
  let v := E.dc p.1.dc f.sig
  let r := { p.1 with dc := v.2 }.round E (asI8 s.ftype) v.1
  let q := r.2.round E (asI8 s.ftype) E.zero
  (q.1, q.2, p.2)

/-- The loop over the frames of a block. -/
def Node.loop (E : Ext X CS MS CV MV CL ML D U) (s : Setting) : Node CS MS CV MV CL ML D U → Bool → List (Frame X) →
    List X × Node CS MS CV MV CL ML D U
  | n, _, [] => ([], n)
  | n, ch, f :: fs =>
    let r := n.frame E ch s f
    let q := Node.loop E s r.2.1 r.2.2 fs
    (r.1 :: q.1, q.2)

/-- `src/dsp/node_fvafilt.rs:239-393` `process` for several blocks. -/
def Node.run (E : Ext X CS MS CV MV CL ML D U) : Node CS MS CV MV CL ML D U → List (Setting × List (Frame X)) →
    List (List X) × Node CS MS CV MV CL ML D U
  | n, [] => ([], n)
  | n, b :: bs =>
    let r := n.loop E b.1 false b.2
    let q := Node.run E r.2 bs
    (r.1 :: q.1, q.2)

end HexoDSP.FVaFilt
