import Mathlib.Algebra.Order.Field.Rat
import Mathlib.Algebra.Field.Rat
/-!
# Model of the `Code` node as a player: `src/dsp/node_code.rs:104-178`

Numbers are rationals. The backend of the crate `synfx-dsp-jit` is an arbitrary machine; the programs sent to it wait in a queue until `process_updates`
takes them in order. How a program comes from the block diagram into that queue is modelled in `Verif/Model/Code.lean`. The feature `synfx-dsp-jit` is on.
-/

namespace HexoDSP.CodeNode

/-- The inputs in one frame, in the order of `src/dsp/node_code.rs:133-138`. -/
structure Frame where
  in1 : ℚ
  in2 : ℚ
  alpha : ℚ
  beta : ℚ
  delta : ℚ
  gamma : ℚ
  deriving DecidableEq

/-- The outputs in one frame. -/
structure Out where
  sig : ℚ
  sig1 : ℚ
  sig2 : ℚ
  deriving DecidableEq

/-- The backend: taking one program, `process`, `set_sample_rate` and `clear`. `process` gives the two signals and the returned value. -/
structure Ext (B J : Type) where
  take : B → J → B
  process : B → ℚ → ℚ → ℚ → ℚ → ℚ → ℚ → B × (ℚ × ℚ × ℚ)
  rate : B → ℚ → B
  clear : B → B

/-- A backend and the programs waiting for it. -/
structure Backend (B J : Type) where
  state : B
  waiting : List J

/-- `src/dsp/node_code.rs:15-19`; `new` asks the global registry for a backend, a clone has none (`src/dsp/node_code.rs:27-57`). `led` and `phase` are the two values shown. -/
structure Node (B J : Type) where
  backend : Option (Backend B J)
  srate : ℚ
  led : ℚ
  phase : ℚ

variable {B J : Type}

/-- `process_updates`, called at `src/dsp/node_code.rs:155`. -/
def Backend.update (E : Ext B J) (b : Backend B J) : Backend B J := ⟨b.waiting.foldl E.take b.state, []⟩

/-- `src/dsp/node_code.rs:157-173`: the loop over the frames; `ret` and `s1` are kept from frame to frame. -/
def loop (E : Ext B J) (s : B) (ret s1 : ℚ) : List Frame → B × ℚ × ℚ × List Out
  | [] => (s, ret, s1, [])
  | f :: fs =>
    let r := E.process s f.in1 f.in2 f.alpha f.beta f.delta f.gamma
    let rest := loop E r.1 r.2.2.2 r.2.1 fs
    (rest.1, rest.2.1, rest.2.2.1, ⟨r.2.2.2, r.2.1, r.2.2.1⟩ :: rest.2.2.2)

/-- `src/dsp/node_code.rs:122-178` `process`. `none`: nothing is written to the output buffers. -/
def Node.process (E : Ext B J) (n : Node B J) (fs : List Frame) : Node B J × Option (List Out) :=
  match n.backend with
  | none => (n, none)
  | some b =>
    let b := b.update E
    let r := loop E b.state 0 0 fs
    (⟨some ⟨r.1, b.waiting⟩, n.srate, r.2.1, r.2.2.1⟩, some r.2.2.2)

/-- `src/dsp/node_code.rs:106-112`. -/
def Node.setSampleRate (E : Ext B J) (n : Node B J) (srate : ℚ) : Node B J :=
  { n with srate := srate, backend := n.backend.map (fun b => { b with state := E.rate b.state srate }) }

/-- `src/dsp/node_code.rs:114-119`. -/
def Node.reset (E : Ext B J) (n : Node B J) : Node B J := { n with backend := n.backend.map (fun b => { b with state := E.clear b.state }) }

/-- A program is sent to the backend from another thread. -/
def Node.send (n : Node B J) (j : J) : Node B J := { n with backend := n.backend.map (fun b => { b with waiting := b.waiting ++ [j] }) }

/-- What happens to the node. -/
inductive Ev (J : Type) where
  | block (fs : List Frame)
  | send (j : J)
  | reset
  | rate (srate : ℚ)

/-- A history: what the blocks write to the outputs, one after the other. -/
def Node.run (E : Ext B J) (n : Node B J) : List (Ev J) → Node B J × List (Option (List Out))
  | [] => (n, [])
  | .block fs :: es => (((n.process E fs).1.run E es).1, (n.process E fs).2 :: ((n.process E fs).1.run E es).2)
  | .send j :: es => (n.send j).run E es
  | .reset :: es => (n.reset E).run E es
  | .rate r :: es => (n.setSampleRate E r).run E es

end HexoDSP.CodeNode
