import Verif.Model.RustNode

/-!
What the documentation says about code handed to a `Rust1x1` node, in terms of the history of calls
only: who receives a piece of code, and what a node sounds like.
-/

namespace HexoDSP.RustNode

variable {Code In Out : Type}

/-- The instance numbers of the nodes in the order they are made. -/
def makes : List (Ev Code In) → List Nat
  | [] => []
  | .make id :: es => id :: makes es
  | _ :: es => makes es

/-- When `k` of the nodes `M` have been made, code sent to the instance `id` goes to the node `n`: the
newest node of that instance, or, while there is none, the first one that will be made. -/
def Receives (M : List Nat) (k id n : Nat) : Prop :=
  M[n]? = some id ∧
    ((n < k ∧ ∀ m, n < m → m < k → M[m]? ≠ some id) ∨ (k ≤ n ∧ ∀ m, m < n → M[m]? ≠ some id))

/-- The code a node has after a history, and the blocks it has been run for since it got that code. -/
structure Playing (Code In : Type) where
  /-- the code as it was sent -/
  code : Code
  /-- what it has been run for -/
  ins : List In

open Classical in
/-- The code and the blocks of the node `n`: a code that is sent to it takes the place of the one
before and begins afresh; every block is one more for the code it has. -/
noncomputable def playing (M : List Nat) (n : Nat) :
    Nat → Playing Code In → List (Ev Code In) → Playing Code In
  | _, p, [] => p
  | k, p, .send id c :: es => playing M n k (if Receives M k id n then ⟨c, []⟩ else p) es
  | k, p, .make _ :: es => playing M n (k + 1) p es
  | k, p, .block m i :: es =>
    playing M n k (if m = n ∧ n < k then ⟨p.code, p.ins ++ [i]⟩ else p) es
  | k, p, .rate _ _ :: es => playing M n k p es
  | k, p, .reset _ :: es => playing M n k p es

/-- The state of a code after some blocks. -/
def after (L : Lang Code In Out) (c : Code) (ins : List In) : Code :=
  ins.foldl (fun c i => (L.process c i).1) c

end HexoDSP.RustNode
