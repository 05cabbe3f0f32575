import Verif.Model.Observer
import Verif.Spec.Patch
/-!
# Vocabulary for observers and the generation counter (C117)
-/

namespace HexoDSP.Observer
open HexoDSP.Patch
open HexoDSP.Matrix (Matrix Cell Edge MatrixError)
open HexoDSP.Engine (NodeId World EOp Conf NodeTable CallIn Block Value)

variable {K V A M σ P PR B BR : Type} [DecidableEq K]

/-- What a user interface shows of a matrix. -/
structure View (K V A : Type) where
  prop : String → Option A
  value : Engine.ParamId (NodeId K) → Option (Value V A)
  amount : Engine.ParamId (NodeId K) → Option V
  monitored : Cell (NodeId K)
  cell : Nat → Nat → Option (Cell (NodeId K))

/-- What the getters of the matrix return now. -/
def now (s : FM K V A M σ P B) : View K V A :=
  { prop := s.getProp, value := s.world.conf.getParam, amount := s.world.conf.getModamt, monitored := s.monitored, cell := s.grid.get }

/-- A user interface that reads again what it is told has changed, after the call has returned: `update_prop` one property, `update_param` the value and the
amount of one parameter, `update_monitor` hands over the cell, `update_matrix` the cells and all parameters, `update_all` everything. -/
def hear (s : FM K V A M σ P B) (v : View K V A) : Note K → View K V A
  | .prop k => { v with prop := fun j => if j = k then s.getProp k else v.prop j }
  | .param p => { v with value := fun q => if q = p then s.world.conf.getParam p else v.value q
                         amount := fun q => if q = p then s.world.conf.getModamt p else v.amount q }
  | .monitor c => { v with monitored := c }
  | .matrix => { v with value := s.world.conf.getParam, amount := s.world.conf.getModamt, cell := s.grid.get }
  | .all => now s

/-- Calls that put cells on the grid without publishing them. -/
def FOp.PutsCells : FOp K V A P PR B BR → Bool
  | .place _ _ _ => true
  | .placeCell _ => true
  | .placeMultiple _ => true
  | .restore => true
  | _ => false

/-- Calls that publish the grid, if there is no error. -/
def FOp.Publishes : FOp K V A P PR B BR → Bool
  | .sync => true
  | .clear => true
  | .fromRepr _ => true
  | _ => false

/-- Are there cells on the grid that were put there after it was last published (loading a patch publishes it even if it reports a loop). -/
def fresh (d : Bool) (err : Option (MatrixError (NodeId K))) (op : FOp K V A P PR B BR) : Bool :=
  if FOp.PutsCells op then true
  else match op with
    | .fromRepr _ => false
    | op => if FOp.Publishes op && err.isNone then false else d

/-- The call changes an amount that is there to another one. -/
def FOp.Retunes (s : FM K V A M σ P B) : FOp K V A P PR B BR → Prop
  | .setModamt p v => (s.world.conf.getModamt p).isSome ∧ v.isSome
  | _ => False

/-- The call gives an input an amount or takes it away, and the program that needs is made. -/
def FOp.Remodulates (s : FM K V A M σ P B) (err : Option (MatrixError (NodeId K))) : FOp K V A P PR B BR → Prop
  | .setModamt (.input n i) v => ¬ ((s.world.conf.getModamt (.input n i)).isSome ∧ v.isSome) ∧ err = none
  | _ => False

section
variable [Add V] [Mul V] [Sub V] [Div V] [NatCast V] [OfNat V 0]
variable (T : NodeTable (NodeId K) V A) (a0 : A) (run : σ → CallIn (NodeId K) V A → σ × (Nat → Block V)) (E : Env K V A P PR B BR)

/-- A matrix, what its observer shows, and whether cells wait for being published. The observer is set at any time and reads everything then. After that come
any calls that `ok` allows. -/
inductive Shows (ok : FM K V A M σ P B → FOp K V A P PR B BR → Option (MatrixError (NodeId K)) → Prop) :
    FM K V A M σ P B → View K V A → Bool → Prop
  | set {s : FM K V A M σ P B} : Reach T a0 run E (fun _ => True) s → Shows ok s (now s) false
  | call {s s' : FM K V A M σ P B} {v : View K V A} {d : Bool} {op : FOp K V A P PR B BR} {err : Option (MatrixError (NodeId K))} {ns : List (Note K)} :
      Shows ok s v d → op.Typed → stepN T a0 run E s op = some (s', err, ns) → ok s op err → Shows ok s' (ns.foldl (hear s') v) (fresh d err op)
  | outside {s : FM K V A M σ P B} {v : View K V A} {d : Bool} (st : σ) : Shows ok s v d → Shows ok (s.outside st) v d

end

end HexoDSP.Observer
