import Mathlib.Algebra.Order.Field.Rat
import Mathlib.Algebra.Field.Rat
/-!
# Model of `src/dsp/node_ext.rs` and of the parameters of the host, `src/nodes/node_exec.rs`

Numbers are rationals. The slew limiter (`SlewValue`) comes from the crate `synfx_dsp` and is an arbitrary machine here. The inputs are given after the
denormalisation.
-/

namespace HexoDSP.ExtParam

/-- `src/nodes/node_exec.rs:100-149` `trait ExternalParams`: what the host answers in one block, without the defaults. A host must answer the three
parameters of set A; the others may be left out (`none`). -/
structure Host where
  a : Fin 3 → ℚ
  /-- The sets B to F. -/
  rest : Fin 5 → Fin 3 → Option ℚ

/-- `src/nodes/node_exec.rs:100-149` with `src/dsp/node_ext.rs:117-122`: parameter `i` of set `s` (0 is A). A set that the host leaves out answers like
set A. -/
def Host.get (h : Host) (s : Fin 6) (i : Fin 3) : ℚ :=
  if hs : s.val = 0 then h.a i else (h.rest ⟨s.val - 1, by omega⟩ i).getD (h.a i)

/-- `synfx_dsp::SlewValue` (`src/dsp/node_ext.rs:10`): a new one, and the next value towards a target in a time. -/
structure Slew (S : Type) where
  new : S
  next : S → (target slewMs : ℚ) → S × ℚ

/-- `src/dsp/node_ext.rs:15-19`: the three limiters. -/
structure Node (S : Type) where
  slew : Fin 3 → S

variable {S : Type}

/-- `src/dsp/node_ext.rs:22-24` `new`. -/
def Node.new (L : Slew S) : Node S := ⟨fun _ => L.new⟩

/-- `src/dsp/node_ext.rs:62` `set_sample_rate`: nothing. -/
def Node.setSampleRate (n : Node S) (_srate : ℚ) : Node S := n

/-- `src/dsp/node_ext.rs:63` `reset`: nothing. -/
def Node.reset (n : Node S) : Node S := n

/-- The inputs `slew` and `atv1` to `atv3` in one frame. -/
structure Frame where
  slew : ℚ
  atv : Fin 3 → ℚ

/-- `src/dsp/node_ext.rs:92-106`: one frame with the parameters `p`. -/
def tick (L : Slew S) (p : Fin 3 → ℚ) (n : Node S) (f : Frame) : Node S × (Fin 3 → ℚ) :=
  (⟨fun i => (L.next (n.slew i) (p i) f.slew).1⟩, fun i => f.atv i * (L.next (n.slew i) (p i) f.slew).2)

/-- The loop over the frames. -/
def loop (L : Slew S) (p : Fin 3 → ℚ) (n : Node S) : List Frame → Node S × List (Fin 3 → ℚ)
  | [] => (n, [])
  | f :: fs =>
    let r := tick L p n f
    let rest := loop L p r.1 fs
    (rest.1, r.2 :: rest.2)

/-- `src/dsp/node_ext.rs:66-111` `process` of the node for set `s`: the host is asked once for the block; `none`: no host was ever announced
(`src/nodes/node_exec.rs:169`, `311-313`). Then nothing is written, and the output buffers hold `old`, what was in them before the call. -/
def Node.process (L : Slew S) (s : Fin 6) (host : Option Host) (old : List (Fin 3 → ℚ)) (n : Node S) (fs : List Frame) :
    Node S × List (Fin 3 → ℚ) :=
  match host with
  | none => (n, old)
  | some h => loop L (h.get s) n fs

/-- What happens to a node: a block, a reset, a new sample rate. -/
inductive Ev where
  | block (host : Option Host) (old : List (Fin 3 → ℚ)) (fs : List Frame)
  | reset
  | rate (srate : ℚ)

/-- A history: what the three outputs hold, frame after frame. -/
def run (L : Slew S) (s : Fin 6) (n : Node S) : List Ev → List (Fin 3 → ℚ)
  | [] => []
  | .block host old fs :: es => (n.process L s host old fs).2 ++ run L s (n.process L s host old fs).1 es
  | .reset :: es => run L s n.reset es
  | .rate r :: es => run L s (n.setSampleRate r) es

end HexoDSP.ExtParam
