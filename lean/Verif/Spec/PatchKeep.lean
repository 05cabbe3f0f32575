import Verif.Spec.Patch
/-!
# What each call does to the properties, patterns and block diagrams of a patch (C141)

Only these calls matter: setting a property, editing a pattern or a diagram, `clear` (for the properties) and loading
a patch. Every other call leaves all three as they are.
-/

namespace HexoDSP.Patch

variable {K V A P PR B BR : Type}

/-- The value of the property `k` after a call, if it was `old` before. -/
def FOp.propAfter (k : String) (old : Option A) : FOp K V A P PR B BR → Option A
  | .setProp k' a => if k = k' then some a else old
  | .clear => none
  | .fromRepr r => r.props.reverse.lookup k
  | _ => old

/-- The pattern number `i` after a call, if it was `old` before; `none` if it cannot be loaded (a panic). -/
def FOp.patAfter (E : Env K V A P PR B BR) (i : Nat) (old : P) : FOp K V A P PR B BR → Option P
  | .editPat j p => some (if i = j then p else old)
  | .fromRepr r => match r.patterns[i]? with
    | some (some saved) => E.patLoad old saved
    | _ => some old
  | _ => some old

/-- The block diagram number `i` after a call, if it was `old` before; `none` if it cannot be loaded. -/
def FOp.funAfter (E : Env K V A P PR B BR) (i : Nat) (old : B) : FOp K V A P PR B BR → Option B
  | .editFun j b => some (if i = j then b else old)
  | .fromRepr r => match r.blockFuns[i]? with
    | some (some saved) => E.funLoad old saved
    | _ => some old
  | _ => some old

end HexoDSP.Patch
