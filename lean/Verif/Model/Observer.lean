import Verif.Model.Patch
/-!
# What the matrix tells its observer

`src/matrix.rs:446-472` `trait MatrixObserver`. Every call of the matrix (`Model/Patch.lean`) is repeated here with the notes it gives to the observer, in
order; `Lemmas/Observer.lean` shows that the rest is the same. `midi_event` is left out, it says nothing of the matrix.
-/

namespace HexoDSP.Observer
open HexoDSP.Patch
open HexoDSP.Matrix (Matrix Cell Edge MatrixError)
open HexoDSP.Engine (NodeId World EOp Conf NodeTable CallIn Block Value)

/-- `src/matrix.rs:446-472`: the methods of `MatrixObserver` that are called when the matrix changes. -/
inductive Note (K : Type) where
  | prop (k : String)
  | monitor (c : Cell (NodeId K))
  | param (p : Engine.ParamId (NodeId K))
  | matrix
  | all

variable {K V A M σ P PR B BR : Type} [DecidableEq K]

/-- `src/matrix.rs:1025-1030` `remonitor_cell` calls `monitor_cell` (`src/matrix.rs:1014-1016`) if the cell is there. -/
def remonitorNotes (s : FM K V A M σ P B) : List (Note K) :=
  match s.grid.get s.monitored.x s.monitored.y with
  | none => []
  | some c => [.monitor c]

section
variable [Add V] [Mul V] [Sub V] [Div V] [NatCast V] [OfNat V 0]
variable (T : NodeTable (NodeId K) V A) (a0 : A) (run : σ → CallIn (NodeId K) V A → σ × (Nat → Block V)) (E : Env K V A P PR B BR)

/-- `src/matrix.rs:1463-1485` `sync`; an error leaves it at line 1467. The cells are those from before the call. -/
def syncN (s : FM K V A M σ P B) : Option (FM K V A M σ P B × Except (MatrixError (NodeId K)) Unit × List (Note K)) :=
  (s.sync T a0 run E).map (fun r =>
    (r.1, r.2, match r.2 with
      | .error _ => []
      | .ok _ => remonitorNotes s ++ [.matrix]))

/-- `src/matrix.rs:800-818` `clear`. -/
def clearN (s : FM K V A M σ P B) : Option (FM K V A M σ P B × List (Note K)) :=
  (FM.call T a0 run { s with grid := emptied s.grid, props := [] } .deleteNodes).bind (fun s =>
    (syncN T a0 run E (s.monitorCell (Cell.empty none))).map (fun r => (r.1, .monitor (Cell.empty none) :: r.2.2 ++ [.all])))

/-- `src/matrix.rs:912-951` `from_repr`: `update_all` is called after `sync` even if that fails. -/
def fromReprN (s : FM K V A M σ P B) (r : PatchRepr K V A PR BR) :
    Option (FM K V A M σ P B × Except (MatrixError (NodeId K)) Unit × List (Note K)) :=
  (clearN T a0 run E s).bind (fun c => (c.1.load T a0 run E r).bind (fun s =>
    (syncN T a0 run E s).map (fun q => (q.1, q.2.1, c.2 ++ q.2.2 ++ [.all]))))

/-- `src/matrix.rs:1056-1077` `set_param_modamt`: the observer is taken out during `sync`, and is not called if there is no `sync`. -/
def setModamtN (s : FM K V A M σ P B) (p : Engine.ParamId (NodeId K)) (v : Option V) :
    Option (FM K V A M σ P B × Except (MatrixError (NodeId K)) Unit × List (Note K)) :=
  (s.call T a0 run (.setModamt p v)).bind (fun s' =>
    if (s.world.conf.setModamt (M := M) p v).2.2 then (s'.sync T a0 run E).map (fun r => (r.1, r.2, [.param p]))
    else some ({ s' with grid := { s'.grid with genCounter := s'.grid.genCounter + 1 } }, .ok (), []))

/-- One call, with what the observer is told. `set_prop`: `src/matrix.rs:975-981`, `set_param`: `src/matrix.rs:1042-1048`, `monitor_cell`:
`src/matrix.rs:1006-1017`. The others do not call the observer. -/
def stepN (s : FM K V A M σ P B) : FOp K V A P PR B BR → Option (FM K V A M σ P B × Option (MatrixError (NodeId K)) × List (Note K))
  | .sync => (syncN T a0 run E s).map (fun r => (r.1, errOf r.2.1, r.2.2))
  | .clear => (clearN T a0 run E s).map (fun r => (r.1, none, r.2))
  | .fromRepr r => (fromReprN T a0 run E s r).map (fun r => (r.1, errOf r.2.1, r.2.2))
  | .setModamt p v => (setModamtN T a0 run E s p v).map (fun r => (r.1, errOf r.2.1, r.2.2))
  | .setInput n i v => (s.step T a0 run E (.setInput n i v)).map (fun r => (r.1, r.2, [.param (.input n i)]))
  | .setAtom n i a => (s.step T a0 run E (.setAtom n i a)).map (fun r => (r.1, r.2, [.param (.atom n i)]))
  | .setProp k a => (s.step T a0 run E (.setProp k a)).map (fun r => (r.1, r.2, [.prop k]))
  | .monitor c => (s.step T a0 run E (.monitor c)).map (fun r => (r.1, r.2, [.monitor c]))
  | op => (s.step T a0 run E op).map (fun r => (r.1, r.2, []))

end

end HexoDSP.Observer
