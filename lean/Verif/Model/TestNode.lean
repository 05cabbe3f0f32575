import Verif.Model.Repr
import Mathlib.Algebra.Order.Field.Rat
import Mathlib.Algebra.Field.Rat
/-!
# Model of `src/dsp/node_test.rs`

Numbers are rationals. `TrigSignal` of the crate `synfx_dsp` is an arbitrary machine.
-/

namespace HexoDSP.TestNode
open HexoDSP.Repr (SAtom)

/-- `as i64`: towards zero. That very large numbers are cut off at the ends of the range is not modelled. -/
def trunc (x : ℚ) : Int := if 0 ≤ x then x.floor else -(-x).floor

/-- `src/dsp/satom.rs:49-55` `SAtom::i`. -/
def int : SAtom ℚ → Int
  | .setting i => i
  | .param x => trunc x
  | _ => 0

/-- `src/dsp/satom.rs:64-70` `SAtom::f`. -/
def float : SAtom ℚ → ℚ
  | .setting i => i
  | .param x => x
  | _ => 0

/-- `TrigSignal`: `new`, `trigger`, `next`, `reset`, `set_sample_rate`. -/
structure Ext (P : Type) where
  new : P
  trigger : P → P
  next : P → ℚ × P
  reset : P → P
  rate : P → ℚ → P

/-- `src/dsp/node_test.rs:35-38`. -/
structure Node (P : Type) where
  trigSig : P
  trigger : Bool

variable {P : Type}

/-- `src/dsp/node_test.rs:41-43`. -/
def Node.new (E : Ext P) : Node P := ⟨E.new, false⟩

/-- What is written in one frame to `sig`, `tsig`, `out2`, `out3` and `outc`. Nothing is written to `out4`. -/
structure Out where
  sig : ℚ
  tsig : ℚ
  out2 : ℚ
  out3 : ℚ
  outc : ℚ

/-- What `process` is given: the number of frames, the settings `p` and `trig`, and the flags of the connected inputs and outputs. -/
structure Arg where
  nframes : Nat
  p : SAtom ℚ
  trig : SAtom ℚ
  inConnected : Nat
  outConnected : Nat

/-- `src/dsp/node_test.rs:111-123`: the loop over the frames. `is_out_con::Test::sig` is bit 0 of the connected outputs and `is_in_con::Test::f` bit 0 of
the connected inputs (`src/dsp/mod.rs:2484-2499`, `1773`, `1776`). -/
def loop (E : Ext P) (a : Arg) (ts : P) (trigger : Int) : Nat → P × List Out
  | 0 => (ts, [])
  | k + 1 =>
    let ts := if trigger > 0 then E.trigger ts else ts
    let trigger := if trigger > 0 then 0 else trigger
    let t := E.next ts
    let rest := loop E a t.2 trigger k
    (rest.1, ⟨float a.p, t.1, if a.outConnected.testBit 0 then 1 else 0, if a.inConnected.testBit 0 then 1 else 0, a.outConnected⟩ :: rest.2)

/-- `src/dsp/node_test.rs:78-124` `process`. -/
def Node.process (E : Ext P) (n : Node P) (a : Arg) : Node P × List Out :=
  let trigger := int a.trig
  let s : Bool × Int :=
    if !n.trigger && decide (trigger > 0) then (true, trigger)
    else if !n.trigger && decide (trigger = 0) then (false, trigger)
    else if n.trigger then (n.trigger, 0)
    else (n.trigger, trigger)
  let r := loop E a n.trigSig s.2 a.nframes
  (⟨r.1, s.1⟩, r.2)

/-- What happens to the node. -/
inductive Ev where
  | block (a : Arg)
  | reset
  | rate (srate : ℚ)

/-- A history: blocks, `reset` (`src/dsp/node_test.rs:73-75`) and `set_sample_rate` (`src/dsp/node_test.rs:69-71`). -/
def Node.run (E : Ext P) (n : Node P) : List Ev → Node P × List Out
  | [] => (n, [])
  | .block a :: es =>
    let r := n.process E a
    let rest := r.1.run E es
    (rest.1, r.2 ++ rest.2)
  | .reset :: es => Node.run E { n with trigSig := E.reset n.trigSig } es
  | .rate s :: es => Node.run E { n with trigSig := E.rate n.trigSig s } es

end HexoDSP.TestNode
