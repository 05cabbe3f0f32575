import Mathlib.Algebra.Order.Field.Rat
import Mathlib.Algebra.Field.Rat
import Mathlib.Algebra.Order.AbsoluteValue.Basic
import Mathlib.Algebra.Order.Group.Abs
/-!
# Model of `src/dsp/node_biqfilt.rs`

Numbers are rationals. The biquad filter and its coefficients are from the crate `synfx_dsp`; they are arbitrary here (`Ext`): a filter has
coefficients `C`, set by `set_coefs`, and a memory `M`, emptied by `reset`. Samples `X` are arbitrary. The inputs are given after the denormalisation.
-/

namespace HexoDSP.BiqFilt

/-- The functions of `synfx_dsp` used here: `BiquadCoefs::resonator`, `BiquadCoefs::butter_lowpass`, `Biquad::tick`, `Biquad::new`. -/
structure Ext (C M X : Type) where
  resonator : (srate freq q : ℚ) → C
  butter : (srate freq : ℚ) → C
  tick : C → M → X → X × M
  c0 : C
  m0 : M

variable {C M X : Type}

/-- `src/dsp/node_biqfilt.rs:39-46` `struct BiqFilt`. -/
structure Node (C M : Type) where
  cascade : List (C × M)
  srate : ℚ
  ofreq : ℚ
  oq : ℚ
  ogain : ℚ
  otype : Nat

/-- `src/dsp/node_biqfilt.rs:49-58` `new`. -/
def Node.new (E : Ext C M X) : Node C M :=
  { cascade := List.replicate 4 (E.c0, E.m0), srate := 1 / 44100, otype := 99, ofreq := -2, oq := -2, ogain := -2 }

/-- `src/dsp/node_biqfilt.rs:85-92` `set_sample_rate`. -/
def Node.setSampleRate (E : Ext C M X) (n : Node C M) (srate : ℚ) : Node C M :=
  { n with srate := srate, otype := 99, cascade := n.cascade.map (fun b => (b.1, E.m0)) }

/-- `as u8` of an `i64` (`src/dsp/node_biqfilt.rs:121`, `149`). -/
def asU8 (x : ℤ) : Nat := (x % 256).toNat

/-- `f32::clamp(0.0, 22000.0)` (`src/dsp/node_biqfilt.rs:123`). -/
def clampFreq (x : ℚ) : ℚ := if x < 0 then 0 else if x > 22000 then 22000 else x

/-- What a block brings: the settings `ftype` and `order`, the inputs `freq`, `q` and `gain` in frame 0, and the samples at `inp`. -/
structure Block (X : Type) where
  ftype : ℤ
  order : ℤ
  freq : ℚ
  q : ℚ
  gain : ℚ
  inp : List X

/-- `src/dsp/node_biqfilt.rs:121-147`: new coefficients, when the parameters moved. -/
def Node.update (E : Ext C M X) (n : Node C M) (b : Block X) : Node C M :=
  let ftype := asU8 b.ftype
  let cfreq := clampFreq b.freq
  if ftype ≠ n.otype ∨ |cfreq - n.ofreq| > 1/10000 ∨ |b.q - n.oq| > 1/10000 ∨ |b.gain - n.ogain| > 1/10000 then
    let coefs := if ftype = 1 then E.resonator n.srate cfreq b.q else E.butter n.srate cfreq
    { n with cascade := n.cascade.map (fun _ => (coefs, E.m0)), otype := ftype, ofreq := cfreq, oq := b.q, ogain := b.gain }
  else n

/-- `src/dsp/node_biqfilt.rs:161-164`: one sample through the filters `0 ..= order`; `none`: an index beyond the cascade, a panic.
`k` is the number of filters still to pass. -/
def through (E : Ext C M X) : Nat → List (C × M) → X → Option (X × List (C × M))
  | 0, cs, s => some (s, cs)
  | _ + 1, [], _ => none
  | k + 1, c :: cs, s =>
    let r := E.tick c.1 c.2 s
    (through E k cs r.1).map (fun q => (q.1, (c.1, r.2) :: q.2))

/-- `src/dsp/node_biqfilt.rs:155-167`: the loop over the frames. -/
def loop (E : Ext C M X) (k : Nat) : List (C × M) → List X → Option (List X × List (C × M))
  | cs, [] => some ([], cs)
  | cs, s :: ss =>
    match through E k cs s with
    | none => none
    | some (y, cs) => (loop E k cs ss).map (fun r => (y :: r.1, r.2))

/-- `src/dsp/node_biqfilt.rs:101-167` `process` for one block. -/
def Node.process (E : Ext C M X) (n : Node C M) (b : Block X) : Option (List X × Node C M) :=
  let n := n.update E b
  let order := if asU8 b.ftype = 1 then 0 else asU8 b.order
  (loop E (order + 1) n.cascade b.inp).map (fun r => (r.1, { n with cascade := r.2 }))

/-- Several blocks. -/
def Node.run (E : Ext C M X) : Node C M → List (Block X) → Option (List (List X) × Node C M)
  | n, [] => some ([], n)
  | n, b :: bs =>
    match n.process E b with
    | none => none
    | some (y, n) => (Node.run E n bs).map (fun r => (y :: r.1, r.2))

end HexoDSP.BiqFilt
