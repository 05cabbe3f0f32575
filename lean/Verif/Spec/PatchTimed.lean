import Verif.Spec.Patch
import Verif.Spec.Timed
/-!
# When a knob that is turned in the matrix is heard (C90)
-/

namespace HexoDSP.Patch
open HexoDSP.Matrix (MatrixError)
open HexoDSP.Engine (NodeId NodeTable CallIn Block)
open HexoDSP.EngineSpec

variable {K V A M σ P PR B BR : Type} [DecidableEq K]

/-- Input `i` of node `n` is in the engine: there was a `sync` since the node was made, and none of the nodes was deleted since. -/
def Live (T : NodeTable (NodeId K) V A) (s : FM K V A M σ P B) (n : NodeId K) (i : Nat) : Prop := (s.world.conf.instanceOf n).isSome ∧ i < T.inCount n

instance (T : NodeTable (NodeId K) V A) (s : FM K V A M σ P B) (n : NodeId K) (i : Nat) : Decidable (Live T s n i) := inferInstanceAs (Decidable (_ ∧ _))

/-- The knobs: `sent` are the inputs changed since the audio thread last took its messages; the clock knows the inputs that still move, see `Spec/Timed.lean`. -/
structure Hand (K : Type) where
  clock : Clock (NodeId K)
  sent : List (NodeId K × Nat)

def Hand.new : Hand K := ⟨Clock.new, []⟩

/-- One call on the matrix. An input that is in the engine, and is changed, arrives `slope + 1` frames after the audio thread has taken the message. Loading a
patch moves nothing: the new values come with the new program. -/
def Hand.step (T : NodeTable (NodeId K) V A) (s : FM K V A M σ P B) (h : Hand K) : FOp K V A P PR B BR → Hand K
  | .setInput n i _ => if Live T s n i then { h with sent := (n, i) :: h.sent } else h
  | .poll =>
    ⟨{ h.clock with left := fun n i => if (n, i) ∈ h.sent then h.clock.slope + 1 else h.clock.left n i
                    hot := fun n i => if (n, i) ∈ h.sent then true else h.clock.hot n i }, []⟩
  | .process nf => ⟨{ h.clock with left := fun n i => h.clock.left n i - nf, hot := fun n i => decide (0 < h.clock.left n i) }, h.sent⟩
  | .setSlope n => ⟨{ h.clock with slope := n }, h.sent⟩
  | _ => h

/-- At most 40 inputs move at the same time, and the matrix is cleared, or another patch loaded, only when none has moved lately and none is about to. -/
def FOp.Gentle (h : Hand K) : FOp K V A P PR B BR → Prop
  | .poll => ∃ S : List (NodeId K × Nat), S.length ≤ 40 ∧ ∀ n i, (0 < h.clock.left n i ∨ (n, i) ∈ h.sent) → (n, i) ∈ S
  | .clear => (∀ n i, h.clock.hot n i = false) ∧ h.sent = []
  | .fromRepr _ => (∀ n i, h.clock.hot n i = false) ∧ h.sent = []
  | _ => True

variable [Add V] [Mul V] [Sub V] [Div V] [NatCast V] [OfNat V 0]
variable (T : NodeTable (NodeId K) V A) (a0 : A) (run : σ → CallIn (NodeId K) V A → σ × (Nat → Block V)) (E : Env K V A P PR B BR)

/-- States reached from a new matrix by gentle calls that do not panic, with room for messages. -/
inductive Timely : FM K V A M σ P B → Hand K → Prop
  | new (w h : Nat) (st : σ) : Timely (FM.new w h st) Hand.new
  | step {s s' : FM K V A M σ P B} {h : Hand K} {op : FOp K V A P PR B BR} {err : Option (MatrixError (NodeId K))} :
      Timely s h → op.Typed → op.Gentle h → s.step T a0 run E op = some (s', err) → Room s' → Timely s' (h.step T s op)
  | outside {s : FM K V A M σ P B} {h : Hand K} (st : σ) : Timely s h → Timely (s.outside st) h

/-- Gentle calls, while the audio thread takes no messages. -/
inductive Between : FM K V A M σ P B → Hand K → FM K V A M σ P B → Hand K → Prop
  | refl (s : FM K V A M σ P B) (h : Hand K) : Between s h s h
  | step {s0 s s' : FM K V A M σ P B} {h0 h : Hand K} {op : FOp K V A P PR B BR} {err : Option (MatrixError (NodeId K))} :
      Between s0 h0 s h → op.Typed → op.Gentle h → op ≠ .poll → s.step T a0 run E op = some (s', err) → Room s' → Between s0 h0 s' (h.step T s op)
  | outside {s0 s : FM K V A M σ P B} {h0 h : Hand K} (st : σ) : Between s0 h0 s h → Between s0 h0 (s.outside st) h

end HexoDSP.Patch
