import Verif.Model.NodeList
/-! What the lists of nodes should contain. -/

namespace HexoDSP.NodeListSpec
open HexoDSP.Table HexoDSP.NodeList

/-- The categories of the user interface (`src/dsp/mod.rs:902-910`). -/
def categories : List String := ["None", "Osc", "Mod", "NtoM", "Signal", "Ctrl", "IOUtil"]

/-- The nodes that are of no use for a random patch. -/
def useless : List String := ["out", "fbrd", "test", "rust1x1"]

/-- What may be picked. -/
def Wanted (sel : Selector) (id : NodeId) : Prop :=
  id ≠ .nop ∧ id.inst = 0 ∧ (match sel with | .any => True | .onlyUseful => id.name ∉ useless)

/-- The node drawn with the number `r`. -/
def drawn (r : Nat) : NodeId := allNodeIds.getD (r % allNodeIds.length) .nop

end HexoDSP.NodeListSpec
