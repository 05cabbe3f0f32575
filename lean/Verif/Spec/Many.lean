import Verif.Spec.Engine
/-! The nodes of a patch, in the order in which they were created. -/

namespace HexoDSP.EngineSpec
open HexoDSP.Engine

variable {N V A M : Type}

/-- The nodes there are after a history of calls, in the order in which they were created. `l` are those there were before. -/
def createdFrom (l : List N) : List (EOp N V A M) → List N
  | [] => l
  | .createNode n :: ops => createdFrom (l ++ [n]) ops
  | .deleteNodes :: ops => createdFrom [] ops
  | _ :: ops => createdFrom l ops

/-- The nodes a history of calls on a new engine leaves, in the order in which they were created. -/
def created (ops : List (EOp N V A M)) : List N := createdFrom [] ops

end HexoDSP.EngineSpec
