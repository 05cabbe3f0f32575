import Mathlib.Algebra.Order.Field.Rat
import Mathlib.Algebra.Field.Rat
/-!
# Model of `src/dsp/node_tslfo.rs`, `src/dsp/node_comb.rs`, `src/dsp/node_allp.rs` and `src/dsp/node_pverb.rs`

Numbers are rationals. `TriSawLFO`, `Trigger`, `Comb`, `AllPass`, `DattorroReverb` and `crossfade` of the crate `synfx_dsp` are arbitrary. Inputs are
given after the denormalisation, those of `Comb`, `AllP` and `PVerb` that the code reads raw as they are.
-/

namespace HexoDSP.Reverb

/-- `f32::clamp`. -/
def clamp (lo hi x : ℚ) : ℚ := if x < lo then lo else if x > hi then hi else x

/-- What happens to a node with inputs `F`. -/
inductive Ev (F : Type) where
  | block (fs : List F)
  | reset
  | rate (srate : ℚ)

/-! ## The LFO -/

/-- `synfx_dsp::TriSawLFO` and `Trigger`. -/
structure Lfo (S T : Type) where
  new : S
  rate : S → ℚ → S
  reset : S → S
  /-- `set(freq, rev)`. -/
  set : S → ℚ → ℚ → S
  /-- `next_unipolar()`. -/
  next : S → S × ℚ
  trigNew : T
  trigReset : T → T
  check : T → ℚ → T × Bool

/-- `src/dsp/node_tslfo.rs:13-16`. -/
structure TsLFO (S T : Type) where
  lfo : S
  trig : T

/-- The inputs of `TsLFO` in one frame. -/
structure LFrame where
  time : ℚ
  trig : ℚ
  rev : ℚ

variable {S T : Type}

/-- `src/dsp/node_tslfo.rs:19-21`. -/
def TsLFO.new (E : Lfo S T) : TsLFO S T := ⟨E.new, E.trigNew⟩

/-- `src/dsp/node_tslfo.rs:97-107`: one frame. -/
def TsLFO.tick (E : Lfo S T) (n : TsLFO S T) (f : LFrame) : TsLFO S T × ℚ :=
  let t := E.check n.trig f.trig
  let lfo := if t.2 then E.reset n.lfo else n.lfo
  let timeMs := clamp (1/10) 300000 f.time
  let lfo := E.set lfo (1000 / timeMs) f.rev
  let r := E.next lfo
  (⟨r.1, t.1⟩, r.2)

/-- `src/dsp/node_tslfo.rs:78-110` `process`. -/
def TsLFO.process (E : Lfo S T) (n : TsLFO S T) : List LFrame → TsLFO S T × List ℚ
  | [] => (n, [])
  | f :: fs =>
    let r := n.tick E f
    let rest := r.1.process E fs
    (rest.1, r.2 :: rest.2)

/-- A history: blocks, `reset` (`src/dsp/node_tslfo.rs:72-75`), `set_sample_rate` (`src/dsp/node_tslfo.rs:68-70`). -/
def TsLFO.run (E : Lfo S T) (n : TsLFO S T) : List (Ev LFrame) → TsLFO S T × List ℚ
  | [] => (n, [])
  | .block fs :: es =>
    let r := n.process E fs
    let rest := r.1.run E es
    (rest.1, r.2 ++ rest.2)
  | .reset :: es => (⟨E.reset n.lfo, E.trigReset n.trig⟩ : TsLFO S T).run E es
  | .rate r :: es => ({ n with lfo := E.rate n.lfo r } : TsLFO S T).run E es

/-! ## Comb and allpass -/

/-- `synfx_dsp::Comb`, or `AllPass` with `feedback` for `next`. The functions get time, factor and input. -/
structure Line (S : Type) where
  new : S
  rate : S → ℚ → S
  reset : S → S
  feedback : S → ℚ → ℚ → ℚ → S × ℚ
  feedforward : S → ℚ → ℚ → ℚ → S × ℚ

/-- The inputs of `Comb` in one frame. `mode` is the setting of its block (0 for `AllP`, which has only one). -/
structure CFrame where
  mode : Int
  time : ℚ
  g : ℚ
  inp : ℚ

/-- `src/dsp/node_comb.rs:97-119` and `src/dsp/node_allp.rs:100-111`: one frame. In the code of `Comb` the `if` is outside of two loops. -/
def combTick (E : Line S) (s : S) (f : CFrame) : S × ℚ :=
  if f.mode = 0 then E.feedback s f.time f.g f.inp else E.feedforward s f.time f.g f.inp

/-- `src/dsp/node_comb.rs:77-123` and `src/dsp/node_allp.rs:81-115` `process`. -/
def combProcess (E : Line S) (s : S) : List CFrame → S × List ℚ
  | [] => (s, [])
  | f :: fs =>
    let r := combTick E s f
    let rest := combProcess E r.1 fs
    (rest.1, r.2 :: rest.2)

/-- A history (`src/dsp/node_comb.rs:67-124`, `src/dsp/node_allp.rs:71-116`). -/
def combRun (E : Line S) (s : S) : List (Ev CFrame) → S × List ℚ
  | [] => (s, [])
  | .block fs :: es =>
    let r := combProcess E s fs
    let rest := combRun E r.1 es
    (rest.1, r.2 ++ rest.2)
  | .reset :: es => combRun E (E.reset s) es
  | .rate r :: es => combRun E (E.rate s r) es

/-! ## The plate reverb -/

/-- The parameters of the reverb (`src/dsp/node_pverb.rs:10-24`). -/
structure Params where
  predly : ℚ
  size : ℚ
  dcy : ℚ
  ilpf : ℚ
  ihpf : ℚ
  dif : ℚ
  dmix : ℚ
  mspeed : ℚ
  mshp : ℚ
  mdepth : ℚ
  rlpf : ℚ
  rhpf : ℚ

/-- `synfx_dsp::DattorroReverb` and `crossfade(a, b, mix)`. -/
structure Verb (S : Type) where
  new : S
  rate : S → ℚ → S
  reset : S → S
  process : S → Params → ℚ → ℚ → S × ℚ × ℚ
  crossfade : ℚ → ℚ → ℚ → ℚ

/-- The inputs of `PVerb` in one frame, with the bits 0 and 1 of `in_connected` (constant within a block). -/
structure VFrame where
  conL : Bool
  conR : Bool
  inL : ℚ
  inR : ℚ
  params : Params
  mix : ℚ

/-- `src/dsp/node_pverb.rs:196-205`: what is fed into the reverb. -/
def VFrame.feed (f : VFrame) : ℚ × ℚ :=
  if ¬ (f.conL ∧ f.conR) then
    if f.conL then (f.inL, f.inL)
    else if f.conR then (f.inR, f.inR)
    else (f.inL, f.inR)
  else (f.inL, f.inR)

/-- `src/dsp/node_pverb.rs:231-239`: one frame. -/
def verbTick (E : Verb S) (s : S) (f : VFrame) : S × ℚ × ℚ :=
  let i := f.feed
  let r := E.process s f.params i.1 i.2
  (r.1, E.crossfade i.1 r.2.1 f.mix, E.crossfade i.2 r.2.2 f.mix)

/-- `src/dsp/node_pverb.rs:184-242` `process`. -/
def verbProcess (E : Verb S) (s : S) : List VFrame → S × List (ℚ × ℚ)
  | [] => (s, [])
  | f :: fs =>
    let r := verbTick E s f
    let rest := verbProcess E r.1 fs
    (rest.1, r.2 :: rest.2)

/-- A history (`src/dsp/node_pverb.rs:174-243`). -/
def verbRun (E : Verb S) (s : S) : List (Ev VFrame) → S × List (ℚ × ℚ)
  | [] => (s, [])
  | .block fs :: es =>
    let r := verbProcess E s fs
    let rest := verbRun E r.1 es
    (rest.1, r.2 ++ rest.2)
  | .reset :: es => verbRun E (E.reset s) es
  | .rate r :: es => verbRun E (E.rate s r) es

end HexoDSP.Reverb
