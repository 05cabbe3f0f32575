import Mathlib.Order.Bounds.Basic
import Verif.Model.VisualFilter
/-!
# Specification of the display filters (C27, C28)

The specification talks about histories of calls only; the only thing taken from the model is the type of calls.
-/

namespace HexoDSP.VisualSpec
open HexoDSP.Visual

variable {V N : Type} [LinearOrder V] [Zero V] [Neg V]

/-- `r` is the pair of the largest magnitudes among the negative and among the non-negative samples of `w`
(zero if there is none). -/
def Peaks (w : List V) (r : V × V) : Prop :=
  IsGreatest ({0} ∪ {x | ∃ v ∈ w, v < 0 ∧ x = -v}) r.1 ∧ IsGreatest ({0} ∪ {x | x ∈ w ∧ 0 ≤ x}) r.2

/-- The last ten elements. -/
def lastTen {α : Type} (l : List α) : List α := l.drop (l.length - 10)

/-- The samples of the calls whose bit differs from that of the call before (before the first call: `b`). -/
def flips {α : Type} : Bool → List (Bool × α) → List α
  | _, [] => []
  | b, (c, v) :: cs => if b = c then flips c cs else v :: flips c cs

/-- The samples requested for `k` that are taken over: those for which the number of frame starts since the
previous request for `k` is odd (the parity `odd` counts since then). Before the first request the parity
starts as odd. -/
def taken [DecidableEq N] (k : Key N) : Bool → List (Op N V) → List V
  | _, [] => []
  | odd, .trigger :: ops => taken k (!odd) ops
  | odd, .get k' v :: ops =>
    if k' = k then (if odd then v :: taken k false ops else taken k false ops) else taken k odd ops

/-- No frame starts in `ops`. -/
def SameFrame (ops : List (Op N V)) : Prop := Op.trigger ∉ ops

end HexoDSP.VisualSpec
