import Verif.Model.NodeTable
import Mathlib.Algebra.Order.Field.Rat
import Mathlib.Algebra.Field.Rat
/-!
# Model of `src/dsp/node_quant.rs` and `src/dsp/node_cqnt.rs`

The two nodes differ in the quantizer and its settings only; they are one model over a type `K` of settings. Numbers are rationals. `Quantizer`,
`CtrlPitchQuantizer` and `ChangeTrig` of the crate `synfx_dsp` are arbitrary.
-/

namespace HexoDSP.Quant

/-- The settings of `CQnt`: keys, lowest and highest octave (`src/dsp/node_cqnt.rs:117-119`). Those of `Quant` are the keys alone
(`src/dsp/node_quant.rs:86`). -/
structure CSet where
  keys : Int
  omin : Int
  omax : Int

/-- `Quantizer` (`set_keys`, `process`) or `CtrlPitchQuantizer` (`update_keys`, `signal_to_pitch`), and `ChangeTrig`. -/
structure Ext (K Q C : Type) where
  quant : Q
  setKeys : Q → K → Q
  toPitch : Q → ℚ → Q × ℚ
  lastKeyPitch : Q → ℚ
  change : C
  changeRate : C → ℚ → C
  changeReset : C → C
  changeNext : C → ℚ → C × ℚ

/-- `src/dsp/node_quant.rs:20-23`, `src/dsp/node_cqnt.rs:50-53`. -/
structure Node (Q C : Type) where
  quant : Q
  change : C

/-- The inputs in one frame: `freq` or `inp`, and `oct`. -/
structure Frame where
  inp : ℚ
  oct : ℚ

variable {K Q C : Type}

/-- `src/dsp/node_quant.rs:26-28`, `src/dsp/node_cqnt.rs:56-58`. -/
def Node.new (E : Ext K Q C) : Node Q C := ⟨E.quant, E.change⟩

/-- `src/dsp/node_quant.rs:92-97`, `src/dsp/node_cqnt.rs:123-128`: the loop over the frames; outputs `sig` and `t`. -/
def loop (E : Ext K Q C) (n : Node Q C) : List Frame → Node Q C × List (ℚ × ℚ)
  | [] => (n, [])
  | f :: fs =>
    let p := E.toPitch n.quant f.inp
    let c := E.changeNext n.change p.2
    let rest := loop E ⟨p.1, c.1⟩ fs
    (rest.1, (p.2 + f.oct, c.2) :: rest.2)

/-- `src/dsp/node_quant.rs:90-97`, `src/dsp/node_cqnt.rs:121-128`. -/
def Node.process (E : Ext K Q C) (k : K) (n : Node Q C) (fs : List Frame) : Node Q C × List (ℚ × ℚ) :=
  loop E { n with quant := E.setKeys n.quant k } fs

/-- `src/dsp/node_quant.rs:99-100`, `src/dsp/node_cqnt.rs:130-131`: the phase value shown after a block. -/
def Node.phaseVal (E : Ext K Q C) (n : Node Q C) : ℚ := E.lastKeyPitch n.quant * 10 + 1/10000

/-- `src/dsp/node_quant.rs:101`, `src/dsp/node_cqnt.rs:132`: the LED value shown after a block. -/
def Node.ledVal (E : Ext K Q C) (n : Node Q C) : ℚ := (E.lastKeyPitch n.quant * 10 - 1/2) * 2

/-- What happens to the node. -/
inductive Ev (K : Type) where
  | block (k : K) (fs : List Frame)
  | reset
  | rate (srate : ℚ)

/-- A history: blocks, `reset` (`src/dsp/node_quant.rs:67-69`, `src/dsp/node_cqnt.rs:96-98`), `set_sample_rate` (`src/dsp/node_quant.rs:63-65`,
`src/dsp/node_cqnt.rs:92-94`). -/
def Node.run (E : Ext K Q C) (n : Node Q C) : List (Ev K) → Node Q C × List (ℚ × ℚ)
  | [] => (n, [])
  | .block k fs :: es =>
    let r := n.process E k fs
    let rest := r.1.run E es
    (rest.1, r.2 ++ rest.2)
  | .reset :: es => ({ n with change := E.changeReset n.change } : Node Q C).run E es
  | .rate r :: es => ({ n with change := E.changeRate n.change r } : Node Q C).run E es

/-- The ports `Quant` writes to: it asks for those of `CQnt` by name (`src/dsp/node_quant.rs:87-88`). -/
def quantWrites : List (Option Nat) :=
  ["sig", "t"].map fun name => (Table.row_cqnt.outs.find? (fun o => o.name == name)).map (fun o => o.idx)

end HexoDSP.Quant
