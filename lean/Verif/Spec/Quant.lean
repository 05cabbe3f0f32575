import Verif.Model.Quant
/-! What a quantizer should do. -/

namespace HexoDSP.QuantSpec
open HexoDSP.Quant

variable {K Q C : Type}

/-- The frames of a history, with the settings of their block. -/
def frames : List (Ev K) → List (K × Frame)
  | [] => []
  | .block k fs :: es => fs.map (fun f => (k, f)) ++ frames es
  | _ :: es => frames es

/-- The inputs of a history exchanged for others. -/
def mapInputs (g : Frame → Frame) : List (Ev K) → List (Ev K)
  | [] => []
  | .block k fs :: es => .block k (fs.map g) :: mapInputs g es
  | .reset :: es => .reset :: mapInputs g es
  | .rate r :: es => .rate r :: mapInputs g es

/-- A history without its resets and rates. -/
def blocksOnly : List (Ev K) → List (Ev K)
  | [] => []
  | .block k fs :: es => .block k fs :: blocksOnly es
  | _ :: es => blocksOnly es

/-- The quantizer gives only notes that belong to its settings: `ready q k` holds after the settings `k` were made and stays true. -/
structure OnlyNotes (E : Ext K Q C) (note : K → ℚ → Prop) (ready : Q → K → Prop) : Prop where
  set : ∀ q k, ready (E.setKeys q k) k
  pitch : ∀ q k x, ready q k → note k (E.toPitch q x).2 ∧ ready (E.toPitch q x).1 k

end HexoDSP.QuantSpec
