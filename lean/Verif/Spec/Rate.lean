import Verif.Model.Rate
/-!
# What it means that a node hears of the sample rate
-/

namespace HexoDSP.RateSpec
open HexoDSP.Rate

variable {N R : Type} [DecidableEq N]

/-- There is a node `p`: its creation has at least begun. -/
def Born (w : World N R) (p : Nat) : Prop := p < w.count

/-- Node `p` does not miss a change of the sample rate during the calls `ops`, which begin at `w0`: whenever the sample rate is set and there is the node, it
is in the program that is being played. -/
def Attends (p : Nat) (w0 : World N R) (ops : List (Op N R)) : Prop :=
  ∀ (pre : List (Op N R)) (r : R) (post : List (Op N R)) (w : World N R), ops = pre ++ .setSampleRate r :: post → w0.run pre = some w → Born w p → p ∈ w.playing

/-- `p` knows the sample rate. -/
def Knows (w : World N R) (p : Nat) : Prop := w.told p = some w.rate

end HexoDSP.RateSpec
