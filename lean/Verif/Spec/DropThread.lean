import Verif.Model.DropThread
/-! What was handed over in a history. -/

namespace HexoDSP.DropThreadSpec
open HexoDSP.DropThread

variable {α : Type}

/-- What the audio thread handed over, in this order, as long as the executor (`alive`) existed. -/
def handedOver : (alive : Bool) → List (Ev α) → List α
  | _, [] => []
  | true, .push x :: es => x :: handedOver true es
  | _, .dropExec :: es => handedOver false es
  | a, _ :: es => handedOver a es

/-- How many steps of a history hand something over. -/
def pushes : List (Ev α) → Nat
  | [] => 0
  | .push _ :: es => pushes es + 1
  | _ :: es => pushes es

/-- How many steps of a history are steps of the drop thread. -/
def threadSteps : List (Ev α) → Nat
  | [] => 0
  | .thread :: es => threadSteps es + 1
  | _ :: es => threadSteps es

end HexoDSP.DropThreadSpec
