import Verif.Spec.Twin
/-!
# How parameters move

A reference machine that knows the value of every parameter in every frame to come. It runs along with those of `Spec/Playing.lean` and
`Spec/Timed.lean`. There are no smoothers here.
-/

namespace HexoDSP.EngineSpec
open HexoDSP.Engine

/-- `way n i f`: the value of parameter `i` of node `n` in the frame `f` frames from now, if nobody touches it. `here n i`: the value it
would leave from if it were set now. -/
structure Ride (N V : Type) where
  way : N → Nat → Nat → V
  here : N → Nat → V

section
variable {N V A M σ : Type} [DecidableEq N] [Add V] [Sub V] [Div V] [NatCast V]

/-- `d` is added `f` times. -/
def climb (a d : V) : Nat → V
  | 0 => a
  | f + 1 => climb a d f + d

/-- From `a` to `b` in `s` equal steps, one in every frame; then it stays. -/
def line (a b : V) (s f : Nat) : V := if f < s then climb a ((b - a) / (s : V)) (f + 1) else b

def Ride.new (T : NodeTable N V A) : Ride N V := ⟨fun n i _ => T.normDef n i, T.normDef⟩

/-- A parameter that is set goes to its new value, in as many steps as the clock says a slope has. A new program leaves the parameters that
move on their way, sets the others, and makes the next movement of each of them leave from the value it was set to. -/
def Ride.take (k : Clock N) (r : Ride N V) : Update N V A → Ride N V
  | .param n i v => { r with way := fun m j => if m = n ∧ j = i then line (r.here n i) v k.slope else r.way m j }
  | .program p => { way := fun n i => if k.left n i = 0 then fun _ => p.param n i else r.way n i, here := p.param }
  | _ => r

/-- All updates, with the clock. -/
def Ride.takeAll : Clock N → Ride N V → List (Update N V A) → Ride N V
  | _, r, [] => r
  | k, r, u :: us => (r.take k u).takeAll (k.take u) us

/-- One call. A block brings every parameter to where it is in the last frame of the block. -/
def Ride.step (k : Clock N) (r : Ride N V) (pending : List (Update N V A)) : EOp N V A M → Ride N V
  | .poll => r.takeAll k pending
  | .process nf => { way := fun n i f => r.way n i (f + nf), here := fun n i => r.way n i (nf - 1) }
  | _ => r

variable [Mul V] [OfNat V 0]

/-- A history of gentle calls, with the three reference machines running alongside. -/
inductive Ridden (T : NodeTable N V A) (a0 : A) (run : σ → CallIn N V A → σ × (Nat → Block V)) :
    World N V A M σ → Track N V A → Clock N → Ride N V → Prop
  | new (st : σ) : Ridden T a0 run (World.new st) (Track.new T) Clock.new (Ride.new T)
  | call {w w' : World N V A M σ} {t : Track N V A} {k : Clock N} {r : Ride N V} {op : EOp N V A M}
      {out : Option (BlockResult N V A)} :
      Ridden T a0 run w t k r → Gentle T w t k op → w.step T a0 run op = some (w', out) →
      Ridden T a0 run w' (t.step T w.conf op) (k.step t.pending op) (r.step k t.pending op)
  | outside {w : World N V A M σ} {t : Track N V A} {k : Clock N} {r : Ride N V} (st : σ) :
      Ridden T a0 run w t k r → Ridden T a0 run { w with st := st } t k r

/-- The ride after some blocks. -/
def Ride.over (r : Ride N V) : List (Nat × BlockResult N V A) → Ride N V
  | [] => r
  | b :: bs => Ride.over { way := fun n i f => r.way n i (f + b.1), here := fun n i => r.way n i (b.1 - 1) } bs

end

end HexoDSP.EngineSpec
