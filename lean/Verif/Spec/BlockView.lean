import Verif.Model.BlockView
/-! # What a view may expect of a block program and of the palette -/

namespace HexoDSP.Block

/-- The caller reads `&buf[0..len]`, with the buffer and the length a call has left; `none`: panic. -/
def readBack (r : List UInt8 × Nat) : Option (List UInt8) := if r.2 ≤ r.1.length then some (r.1.take r.2) else none

/-- The last definition of a name in a history. -/
def lastDef (s : String) : List PaletteOp → Option BlockType
  | [] => none
  | .define t :: ops => (lastDef s ops).or (if t.name = s then some t else none)
  | .defineIdentifier _ :: ops => lastDef s ops

end HexoDSP.Block
