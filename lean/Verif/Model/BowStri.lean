import Mathlib.Algebra.Order.Field.Rat
import Mathlib.Algebra.Field.Rat
import Mathlib.Algebra.Order.Group.Unbundled.Abs
/-!
# Model of `src/dsp/node_bowstri.rs`

Numbers are rationals. `DelayBuffer`, `FixedOnePole` and `Biquad` of the crate `synfx_dsp` are arbitrary. The inputs `vel`, `force` and `pos` are given after
the denormalisation; the frequency input is the raw signal, and `denorm_offs` is a function from signal and offset to Hertz.
-/

namespace HexoDSP.BowStri

/-- `f32::clamp`. -/
def clamp (lo hi x : ℚ) : ℚ := if x < lo then lo else if x > hi then hi else x

/-- The parts of the string: delay lines `D`, the string filter `P`, the filters of the body `B` (all six as one machine). -/
structure Ext (D P B : Type) where
  delay : D
  delayReset : D → D
  /-- `cubic_interpolate_at_s(samples)`. -/
  read : D → ℚ → ℚ
  feed : D → ℚ → D
  /-- `FixedOnePole::new(pole, gain)`. -/
  pole : ℚ → ℚ → P
  poleReset : P → P
  poleNext : P → ℚ → P × ℚ
  body : B
  bodyReset : B → B
  bodyNext : B → ℚ → B × ℚ
  /-- `denorm_offs::BowStri::freq(freq, offs)`. -/
  hertz : ℚ → ℚ → ℚ

variable {D P B : Type}

/-- `src/dsp/node_bowstri.rs:29-35` `BowedString`; `body` stands for the six body filters. -/
structure Node (D P B : Type) where
  srate : ℚ
  nut : D
  bridge : D
  filter : P
  body : B

/-- `src/dsp/node_bowstri.rs:57-60` `set_sample_rate`. -/
def Node.rate (E : Ext D P B) (n : Node D P B) (r : ℚ) : Node D P B :=
  { n with srate := r, filter := E.pole (3/4 - 1/5 * (22050 / r)) (9/10) }

/-- `src/dsp/node_bowstri.rs:38-55` `new`. -/
def Node.new (E : Ext D P B) : Node D P B :=
  Node.rate E ⟨44100, E.delay, E.delay, E.pole 0 0, E.body⟩ 44100

/-- `src/dsp/node_bowstri.rs:62-70` `reset`. -/
def Node.reset (E : Ext D P B) (n : Node D P B) : Node D P B :=
  { n with nut := E.delayReset n.nut, bridge := E.delayReset n.bridge, filter := E.poleReset n.filter, body := E.bodyReset n.body }

/-- `src/dsp/node_bowstri.rs:74-75`: the length of the whole string in samples. -/
def totalLen (srate freq : ℚ) : ℚ :=
  let l := srate / max freq 20
  if l ≤ 0 then 3/10 else l

/-- `src/dsp/node_bowstri.rs:76`. -/
def bowPosition (pos : ℚ) : ℚ := clamp (1/100) (99/100) ((pos + 1) / 2)

/-- `src/dsp/node_bowstri.rs:78`. -/
def nutLen (srate freq pos : ℚ) : ℚ := totalLen srate freq * (1 - bowPosition pos)

/-- `src/dsp/node_bowstri.rs:79`. -/
def bridgeLen (srate freq pos : ℚ) : ℚ := totalLen srate freq * bowPosition pos

/-- `src/dsp/node_bowstri.rs:87`: how much the bow sticks to the string. `powf(-4.0)` of 0 is infinite. -/
def stick (dv force : ℚ) : ℚ :=
  let x := |(dv + 1/1000) * force + 3/4|
  if x = 0 then 98/100 else clamp (1/100) (98/100) (1 / (x * x * x * x))

/-- `src/dsp/node_bowstri.rs:73-99` `BowedString::process`. -/
def Node.string (E : Ext D P B) (n : Node D P B) (freq vel force pos : ℚ) : Node D P B × ℚ :=
  let nut := - E.read n.nut (nutLen n.srate freq pos)
  let brid := E.read n.bridge (bridgeLen n.srate freq pos)
  let p := E.poleNext n.filter brid
  let bridge := - p.2
  let dv := 1/4 * vel - (nut + bridge)
  let phat := stick dv force * dv
  let b := E.bodyNext n.body bridge
  ({ n with bridge := E.feed n.bridge (nut + phat), nut := E.feed n.nut (bridge + phat), filter := p.1, body := b.1 }, b.2)

/-- The inputs in one frame. -/
structure Frame where
  freq : ℚ
  det : ℚ
  vel : ℚ
  force : ℚ
  pos : ℚ

/-- `src/dsp/node_bowstri.rs:178`. -/
def tuneCorrection (freq : ℚ) : ℚ := (clamp (-1/5) 1 freq + 1/5) * 10 * (12/10000)

/-- `src/dsp/node_bowstri.rs:178-187`: one frame. -/
def Node.tick (E : Ext D P B) (n : Node D P B) (f : Frame) : Node D P B × ℚ :=
  n.string E (E.hertz f.freq (tuneCorrection f.freq + f.det)) f.vel f.force f.pos

/-- What happens to the node. -/
inductive Ev where
  | block (fs : List Frame)
  | reset
  | rate (srate : ℚ)

/-- `src/dsp/node_bowstri.rs:154-193` `process`. -/
def Node.process (E : Ext D P B) (n : Node D P B) : List Frame → Node D P B × List ℚ
  | [] => (n, [])
  | f :: fs =>
    let r := n.tick E f
    let rest := r.1.process E fs
    (rest.1, r.2 :: rest.2)

/-- A history (`src/dsp/node_bowstri.rs:144-194`). -/
def Node.run (E : Ext D P B) (n : Node D P B) : List Ev → Node D P B × List ℚ
  | [] => (n, [])
  | .block fs :: es =>
    let r := n.process E fs
    let rest := r.1.run E es
    (rest.1, r.2 ++ rest.2)
  | .reset :: es => (n.reset E).run E es
  | .rate r :: es => (n.rate E r).run E es

end HexoDSP.BowStri
