import Verif.Model.ExtParam
/-! The parameters of the host as they are expected at the outputs of the nodes ExtA to ExtF. -/

namespace HexoDSP.ExtParamSpec
open HexoDSP.ExtParam

variable {S : Type}

/-- The frames of a history in which there is a host, each with the answer of the host for parameter `i` of set `s`. -/
def heard (s : Fin 6) (i : Fin 3) : List Ev → List (ℚ × Frame)
  | [] => []
  | .block (some h) _ fs :: es => fs.map (fun f => (h.get s i, f)) ++ heard s i es
  | _ :: es => heard s i es

/-- A slew limiter on its own follows the answers; each value is attenuated. -/
def follow (L : Slew S) (i : Fin 3) (x : S) : List (ℚ × Frame) → List ℚ
  | [] => []
  | (t, f) :: l => f.atv i * (L.next x t f.slew).2 :: follow L i (L.next x t f.slew).1 l

/-- There is a host in every block. -/
def Hosted (es : List Ev) : Prop := ∀ h old fs, Ev.block h old fs ∈ es → h.isSome = true

end HexoDSP.ExtParamSpec
