import Verif.Spec.Playing
/-!
# When parameters arrive

A clock that runs along with the reference machine of `Spec/Playing.lean`. It knows how long a parameter
may still move after it was changed.
-/

namespace HexoDSP.EngineSpec
open HexoDSP.Engine

/-- `left n i`: number of frames after which parameter `i` of node `n` has arrived at its value (zero: it
is there). `hot n i`: it was not there before the last block, or it has been changed since. `slope`: the
length of a parameter change in frames. -/
structure Clock (N : Type) where
  slope : Nat
  left : N → Nat → Nat
  hot : N → Nat → Bool

section
variable {N V A M σ : Type} [DecidableEq N]

def Clock.new : Clock N := { slope := 0, left := fun _ _ => 0, hot := fun _ _ => false }

/-- A changed parameter arrives after `slope + 1` frames. -/
def Clock.take (k : Clock N) : Update N V A → Clock N
  | .param n i _ =>
    { k with left := fun m j => if m = n ∧ j = i then k.slope + 1 else k.left m j
             hot := fun m j => if m = n ∧ j = i then true else k.hot m j }
  | _ => k

/-- One call; `pending` is what has been asked for since the audio thread last polled. -/
def Clock.step (k : Clock N) (pending : List (Update N V A)) : EOp N V A M → Clock N
  | .poll => pending.foldl Clock.take k
  | .process nf => { k with left := fun n i => k.left n i - nf, hot := fun n i => decide (0 < k.left n i) }
  | .setSlope n => { k with slope := n }
  | _ => k

variable [Add V] [Mul V] [Sub V] [Div V] [NatCast V] [OfNat V 0]

/-- A careful call, and moreover: at most 40 parameters move at the same time, and all nodes are deleted
only when no parameter has moved lately and none is about to. -/
structure Gentle (T : NodeTable N V A) (w : World N V A M σ) (t : Track N V A) (k : Clock N) (op : EOp N V A M) :
    Prop where
  careful : Careful T w op
  few : op = .poll → ∃ S : List (N × Nat), S.length ≤ 40 ∧
    ∀ n i, (0 < k.left n i ∨ ∃ v, Update.param n i v ∈ t.pending) → (n, i) ∈ S
  calm : op = .deleteNodes → (∀ n i, k.hot n i = false) ∧ ∀ n i v, Update.param n i v ∉ t.pending

/-- A history of gentle calls, with the reference machine and the clock running alongside. -/
inductive Timed (T : NodeTable N V A) (a0 : A) (run : σ → CallIn N V A → σ × (Nat → Block V)) :
    World N V A M σ → Track N V A → Clock N → Prop
  | new (st : σ) : Timed T a0 run (World.new st) (Track.new T) Clock.new
  | call {w w' : World N V A M σ} {t : Track N V A} {k : Clock N} {op : EOp N V A M}
      {out : Option (BlockResult N V A)} :
      Timed T a0 run w t k → Gentle T w t k op → w.step T a0 run op = some (w', out) →
      Timed T a0 run w' (t.step T w.conf op) (k.step t.pending op)
  | outside {w : World N V A M σ} {t : Track N V A} {k : Clock N} (st : σ) : Timed T a0 run w t k → Timed T a0 run { w with st := st } t k

/-- What the monitor must show: signals 0, 1, 2 are the inputs, signals 3, 4, 5 the outputs that were asked
for. -/
def Shows (ins outs : List (Option Nat)) (c : Call N V A) (i : Nat) (blk : Block V) : Prop :=
  (i < 3 ∧ ∃ k, ins[i]? = some (some k) ∧ c.inputs[k]? = some blk) ∨
  (3 ≤ i ∧ ∃ k, outs[i - 3]? = some (some k) ∧ c.outputs[k]? = some blk)

end

end HexoDSP.EngineSpec
