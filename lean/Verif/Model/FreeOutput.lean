import Verif.Model.Block
/-! # Model of `BlockArea::find_last_unconnected_output` (`src/wblockdsp/language.rs`) -/

namespace HexoDSP.Block

/-- The variables `max_x`, `max_y` and `port` of `src/wblockdsp/language.rs:657-659`. -/
structure Best where
  maxX : Int
  maxY : Int
  port : Option (Int × Int × String)

/-- `src/wblockdsp/language.rs:664-697`: one output port, in row `row` of a block whose top is at `p`. -/
def Area.bestPort (a : Area) (p : Pos) (b : Block) (s : Best) (row : Nat) : Best :=
  let y := p.2 + (row : Int)
  if (a.findPortAt (p.1 + 1, y) false).isNone then
    if y > s.maxY then ⟨p.1, y, some (p.1, y, (b.outputs.getD row none).getD "")⟩
    else if y = s.maxY ∧ p.1 > s.maxX then ⟨p.1, s.maxY, some (p.1, s.maxY, (b.outputs.getD row none).getD "")⟩
    else s
  else s

/-- `src/wblockdsp/language.rs:661-698`: the loop over the blocks, in any order. -/
def Area.bestBlocks (a : Area) (s : Best) (l : List (Pos × Block)) : Best :=
  l.foldl (fun s e => e.2.outputRows.foldl (a.bestPort e.1 e.2) s) s

/-- `src/wblockdsp/language.rs:656-701` `find_last_unconnected_output`. -/
def Area.findLastUnconnectedOutput (a : Area) : Option (Int × Int × String) := (a.bestBlocks ⟨0, 0, none⟩ a.blocks).port

end HexoDSP.Block
