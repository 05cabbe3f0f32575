import Mathlib.Algebra.Order.Field.Rat
import Mathlib.Algebra.Field.Rat
/-!
# Model of `src/dsp/node_bosc.rs` and `src/dsp/node_vosc.rs`

Numbers are rationals. `PolyBlepOscillator`, `VPSOscillator`, `Oversampling` and `apply_distortion` (crate `synfx_dsp`) are arbitrary. The inputs are given
after the denormalisation; `freq` is the result of `denorm_offs` (frequency and detuning together).
-/

namespace HexoDSP.Osc

/-- `f32::clamp`. -/
def clamp (lo hi x : ℚ) : ℚ := if x < lo then lo else if x > hi then hi else x

/-- What happens to an oscillator with settings `C` and inputs `F`. -/
inductive Ev (C F : Type) where
  | block (c : C) (fs : List F)
  | reset
  | rate (srate : ℚ)

/-! ## The basic oscillator -/

/-- `synfx_dsp::PolyBlepOscillator`: each function gets the frequency and one over the sample rate. -/
structure Blep (S : Type) where
  new : ℚ → S
  reset : S → S
  sin : S → ℚ → ℚ → S × ℚ
  tri : S → ℚ → ℚ → S × ℚ
  saw : S → ℚ → ℚ → S × ℚ
  pulseNoDc : S → ℚ → ℚ → ℚ → S × ℚ
  pulse : S → ℚ → ℚ → ℚ → S × ℚ

/-- `src/dsp/node_bosc.rs:29-32`. -/
structure BOsc (S : Type) where
  osc : S
  israte : ℚ

/-- The inputs of `BOsc` in one frame. -/
structure BFrame where
  freq : ℚ
  pw : ℚ

variable {S : Type}

/-- `src/dsp/node_bosc.rs:35-39` `new`; `ph` is `nid.init_phase()`. -/
def BOsc.new (E : Blep S) (ph : ℚ) : BOsc S := ⟨E.new ph, 1 / 44100⟩

/-- `src/dsp/node_bosc.rs:145-183`: one frame of the waveform `wtype`. In the code the `match` is outside of five loops over the frames. -/
def BOsc.tick (E : Blep S) (wtype : Int) (n : BOsc S) (f : BFrame) : BOsc S × ℚ :=
  let r := match wtype with
    | 0 => E.sin n.osc f.freq n.israte
    | 1 => E.tri n.osc f.freq n.israte
    | 2 => E.saw n.osc f.freq n.israte
    | 3 => E.pulseNoDc n.osc f.freq n.israte f.pw
    | _ => E.pulse n.osc f.freq n.israte f.pw
  ({ n with osc := r.1 }, r.2)

/-- `src/dsp/node_bosc.rs:124-186` `process`. -/
def BOsc.process (E : Blep S) (wtype : Int) (n : BOsc S) : List BFrame → BOsc S × List ℚ
  | [] => (n, [])
  | f :: fs =>
    let r := n.tick E wtype f
    let rest := r.1.process E wtype fs
    (rest.1, r.2 :: rest.2)

/-- A history: blocks, `reset` (`src/dsp/node_bosc.rs:119-121`) and `set_sample_rate` (`src/dsp/node_bosc.rs:115-117`). -/
def BOsc.run (E : Blep S) (n : BOsc S) : List (Ev Int BFrame) → BOsc S × List ℚ
  | [] => (n, [])
  | .block w fs :: es =>
    let r := n.process E w fs
    let rest := r.1.run E es
    (rest.1, r.2 ++ rest.2)
  | .reset :: es => ({ n with osc := E.reset n.osc } : BOsc S).run E es
  | .rate r :: es => ({ n with israte := 1 / r } : BOsc S).run E es

/-! ## The V oscillator -/

/-- `src/dsp/node_vosc.rs:24`. -/
def OVERSAMPLING : Nat := 4

/-- `synfx_dsp::VPSOscillator`, `Oversampling<4>` and `apply_distortion`. -/
structure Vps (S O : Type) where
  new : ℚ → S
  reset : S → S
  /-- `VPSOscillator::limit_v(d, v)`. -/
  limitV : ℚ → ℚ → ℚ
  /-- `next(freq, israte, d, v)`. -/
  next : S → ℚ → ℚ → ℚ → ℚ → S × ℚ
  /-- `apply_distortion(s, damt, dist)`; `dist` is a `u8`. -/
  distort : ℚ → ℚ → Nat → ℚ
  overNew : O
  overRate : O → ℚ → O
  overReset : O → O
  /-- The buffer of `resample_buffer()`, filled, then `downsample()`. -/
  down : O → List ℚ → O × ℚ

/-- `src/dsp/node_vosc.rs:28-32`. -/
structure VOsc (S O : Type) where
  israte : ℚ
  osc : S
  over : O

/-- The inputs of `VOsc` in one frame. -/
structure VFrame where
  freq : ℚ
  d : ℚ
  v : ℚ
  vs : ℚ
  damt : ℚ

/-- The settings of `VOsc`. -/
structure VSet where
  ovrsmpl : Int
  dist : Int

variable {O : Type}

/-- `src/dsp/node_vosc.rs:35-43` `new`. -/
def VOsc.new (E : Vps S O) (ph : ℚ) : VOsc S O := ⟨1 / 44100, E.new ph, E.overNew⟩

/-- `src/dsp/node_vosc.rs:164-168`: the loop that fills the buffer of the oversampling, `k` times. -/
def overLoop (E : Vps S O) (freq israte d v damt : ℚ) (dist : Nat) : Nat → S → S × List ℚ
  | 0, s => (s, [])
  | k + 1, s =>
    let r := E.next s freq israte d v
    let rest := overLoop E freq israte d v damt dist k r.1
    (rest.1, E.distort r.2 damt dist :: rest.2)

/-- `src/dsp/node_vosc.rs:156-170` and `src/dsp/node_vosc.rs:174-184`: one frame with and without oversampling. In the code the `if` is outside of two
loops over the frames. `as u8` takes the number modulo 256. -/
def VOsc.tick (E : Vps S O) (c : VSet) (n : VOsc S O) (f : VFrame) : VOsc S O × ℚ :=
  let v := clamp 0 1 f.v
  let d := clamp 0 1 f.d
  let vs := clamp 0 20 f.vs
  let damt := clamp 0 1 f.damt
  let v := E.limitV d (v + vs)
  let dist := (c.dist % 256).toNat
  if c.ovrsmpl = 1 then
    let r := overLoop E f.freq n.israte d v damt dist OVERSAMPLING n.osc
    let o := E.down n.over r.2
    ({ n with osc := r.1, over := o.1 }, o.2)
  else
    let r := E.next n.osc f.freq (n.israte * OVERSAMPLING) d v
    ({ n with osc := r.1 }, E.distort r.2 damt dist)

/-- `src/dsp/node_vosc.rs:125-189` `process`. -/
def VOsc.process (E : Vps S O) (c : VSet) (n : VOsc S O) : List VFrame → VOsc S O × List ℚ
  | [] => (n, [])
  | f :: fs =>
    let r := n.tick E c f
    let rest := r.1.process E c fs
    (rest.1, r.2 :: rest.2)

/-- A history: blocks, `reset` (`src/dsp/node_vosc.rs:119-122`) and `set_sample_rate` (`src/dsp/node_vosc.rs:114-117`). -/
def VOsc.run (E : Vps S O) (n : VOsc S O) : List (Ev VSet VFrame) → VOsc S O × List ℚ
  | [] => (n, [])
  | .block c fs :: es =>
    let r := n.process E c fs
    let rest := r.1.run E es
    (rest.1, r.2 ++ rest.2)
  | .reset :: es => ({ n with osc := E.reset n.osc, over := E.overReset n.over } : VOsc S O).run E es
  | .rate r :: es => ({ n with israte := 1 / (r * OVERSAMPLING), over := E.overRate n.over r } : VOsc S O).run E es

end HexoDSP.Osc
