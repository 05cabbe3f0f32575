import Mathlib.Algebra.Order.Field.Rat
import Mathlib.Algebra.Field.Rat
/-!
# Model of `src/dsp/node_delay.rs`

Numbers are rationals. The delay line (`DelayBuffer`), the clock (`TriggerSampleClock`) and `crossfade` come from the crate `synfx_dsp`; they are
arbitrary here (`Ext`). The inputs are given after the denormalisation.
-/

namespace HexoDSP.Delay

/-- What is used of `synfx_dsp` (`src/dsp/node_delay.rs:9`): the delay line `B`, the clock `C`, and the mixer. -/
structure Ext (B C : Type) where
  newBuf : B
  resetBuf : B → B
  rateBuf : B → ℚ → B
  feed : B → ℚ → B
  /-- `at`, by a number of frames -/
  readAt : B → Nat → ℚ
  /-- `cubic_interpolate_at`, by a time -/
  readCubic : B → ℚ → ℚ
  newClock : C
  resetClock : C → C
  tickClock : C → ℚ → C × Nat
  crossfade : (v1 v2 mix : ℚ) → ℚ

/-- `src/dsp/node_delay.rs:25-28` `struct Delay`. -/
structure Node (B C : Type) where
  buffer : B
  clock : C

variable {B C : Type}

/-- `src/dsp/node_delay.rs:31-33` `new`. -/
def Node.new (E : Ext B C) : Node B C := ⟨E.newBuf, E.newClock⟩

/-- `src/dsp/node_delay.rs:75-77` `set_sample_rate`: the clock is not told. -/
def Node.setSampleRate (E : Ext B C) (n : Node B C) (srate : ℚ) : Node B C := { n with buffer := E.rateBuf n.buffer srate }

/-- `src/dsp/node_delay.rs:79-82` `reset`. -/
def Node.reset (E : Ext B C) (n : Node B C) : Node B C := ⟨E.resetBuf n.buffer, E.resetClock n.clock⟩

/-- The inputs in one frame. -/
structure Frame where
  inp : ℚ
  trig : ℚ
  time : ℚ
  fb : ℚ
  mix : ℚ
  deriving DecidableEq

/-- `f32::clamp`. -/
def clamp (lo hi x : ℚ) : ℚ := if x < lo then lo else if x > hi then hi else x

/-- `src/dsp/node_delay.rs:109-118` and `122-132`: one frame. -/
def tick (E : Ext B C) (mode : Int) (n : Node B C) (f : Frame) : Node B C × ℚ :=
  let dry := f.inp
  if mode = 0 then
    let out := E.readCubic n.buffer f.time
    let buffer := E.feed n.buffer (dry + out * f.fb)
    ({ n with buffer := buffer }, E.crossfade dry out (clamp 0 1 f.mix))
  else
    let c := E.tickClock n.clock f.trig
    let out := E.readAt n.buffer c.2
    let buffer := E.feed n.buffer (dry + out * f.fb)
    ({ buffer := buffer, clock := c.1 }, E.crossfade dry out (clamp 0 1 f.mix))

/-- `src/dsp/node_delay.rs:85-138` `process`: the loop over the frames. The setting `mode` is looked at once for the block. -/
def Node.process (E : Ext B C) (mode : Int) (n : Node B C) : List Frame → Node B C × List ℚ
  | [] => (n, [])
  | f :: fs =>
    let r := tick E mode n f
    let rest := r.1.process E mode fs
    (rest.1, r.2 :: rest.2)

/-- What happens to a node. -/
inductive Ev where
  | block (mode : Int) (fs : List Frame)
  | reset
  | rate (srate : ℚ)

/-- One event; the samples it plays. -/
def Node.step (E : Ext B C) (n : Node B C) : Ev → Node B C × List ℚ
  | .block mode fs => n.process E mode fs
  | .reset => (n.reset E, [])
  | .rate r => (n.setSampleRate E r, [])

/-- A history: what the node plays, frame after frame. -/
def run (E : Ext B C) (n : Node B C) : List Ev → List ℚ
  | [] => []
  | e :: es => (n.step E e).2 ++ run E (n.step E e).1 es

end HexoDSP.Delay
