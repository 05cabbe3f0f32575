import Verif.Model.Builder
import Verif.Spec.SynthConstructor
/-! What a program of builder calls says about a node. -/

namespace HexoDSP.BuilderSpec
open HexoDSP.Table HexoDSP.Synth HexoDSP.Builder

variable {V : Type}

/-- What a call says about the node with the list `r`; `nodes` are the nodes made so far and later. -/
def said (nodes : Nat → NodeId) (r : Nat) : Call V → Option (COp V)
  | .make _ _ => none
  | .set r' name v => if r' = r then some (.set name v) else none
  | .setting r' name i => if r' = r then some (.setting name i) else none
  | .setMod r' name v ma => if r' = r then some (.setMod name v ma) else none
  | .input _ _ _ none => none
  | .input r' name src (some o) => if r' = r then some (.input name (nodes src, src) o) else none

/-- The nodes made by a program, in order. -/
def made : List (Call V) → List NodeId
  | [] => []
  | .make k inst :: cs => .node k inst :: made cs
  | _ :: cs => made cs

end HexoDSP.BuilderSpec
