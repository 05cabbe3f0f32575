import Verif.Model.Scope
/-!
# What the scope handle should show after a history of calls
-/

namespace HexoDSP.ScopeSpec
open HexoDSP.Scope

variable {V : Type} [OfNat V 0]

/-- What a call makes of slot `k` (`k < 512`) of signal `b` (`b < 3`) that showed `old`. -/
def after (b k : Nat) (old : V × V) : Op V → V × V
  | .write b' i v => if b' % 3 = b ∧ i % 512 = k then v else old
  | .over b' i c v => if b' % 3 = b ∧ i ≤ k ∧ k < i + c then (v, v) else old
  | _ => old

/-- The slot after a history of calls. -/
def shown (b k : Nat) (ops : List (Op V)) : V × V := ops.foldl (after b k) (0, 0)

/-- Offset and gain of signal `b` after a history of calls. -/
def offsGain (b : Nat) (ops : List (Op V)) : V × V :=
  ops.foldl (fun old op => match op with | .offsGain b' o g => if b' % 3 = b then (o, g) else old | _ => old) (0, 0)

/-- The threshold after a history of calls. -/
def threshold (ops : List (Op V)) : Option V :=
  ops.foldl (fun old op => match op with | .threshold t => t | _ => old) none

/-- Is signal `b` active after a history of calls? -/
def active (b : Nat) (ops : List (Op V)) : Bool :=
  ops.foldl (fun old op => match op with | .active m => m.testBit b | _ => old) false

end HexoDSP.ScopeSpec
