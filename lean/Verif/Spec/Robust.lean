import Verif.Spec.Engine
/-! Words for the property that the audio thread survives whatever the user's thread does. -/

namespace HexoDSP.RobustSpec
open HexoDSP.Engine HexoDSP.EngineSpec

variable {N V A M σ : Type} [DecidableEq N] [Add V] [Mul V] [Sub V] [Div V] [NatCast V] [OfNat V 0]

/-- A history from a fresh engine. No node is created twice, no call panics, and every call keeps the rule `P`. Nothing else is asked of it: programs may
name nodes that do not exist, in any order, with any connections, any number of nodes may exist, and updates may be refused because the queue is full. -/
inductive Keeping (T : NodeTable N V A) (a0 : A) (run : σ → CallIn N V A → σ × (Nat → Block V)) (P : World N V A M σ → EOp N V A M → Prop) :
    World N V A M σ → Prop
  | new (st : σ) : Keeping T a0 run P (World.new st)
  | call {w w1 : World N V A M σ} {op : EOp N V A M} {out : Option (BlockResult N V A)} :
      Keeping T a0 run P w → Polite w op → P w op → w.step T a0 run op = some (w1, out) → Keeping T a0 run P w1
  | outside {w : World N V A M σ} (st : σ) : Keeping T a0 run P w → Keeping T a0 run P { w with st := st }

/-- No rule. -/
def Free (_ : World N V A M σ) (_ : EOp N V A M) : Prop := True

/-- A new program is uploaded only while the queue has room for it. -/
def Room (w : World N V A M σ) : EOp N V A M → Prop
  | .sync _ _ _ => w.queue.length < queueCapacity
  | _ => True

/-- No parameter is set after it has reached the engine and nothing is monitored. -/
def Still (_ : World N V A M σ) : EOp N V A M → Prop
  | .setInput _ _ _ => False
  | .monitor _ _ _ => False
  | _ => True

/-- What the monitor reads for its `k`-th signal: an input for the first three, an output for the others. `none`: there is no such buffer. -/
def monitored (p : NodeProg N V A) (k idx : Nat) : Option BufId := if k < 3 then (p.curInp[idx]?).join else p.out[idx]?

end HexoDSP.RobustSpec
