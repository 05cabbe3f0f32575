import Verif.Model.Matrix
import Verif.Model.NodeId
/-!
# Model of the labels of cells and edges (`src/matrix.rs`)

`write!` into a cursor over a byte slice succeeds exactly if the whole text fits.
-/

namespace HexoDSP.Label
open HexoDSP.Matrix HexoDSP.Table

/-- A node id other than `Nop`: the variant and the instance. -/
abbrev Nd := Fin nodeTable.length × Fin 256

/-- The node id as in `Verif/Model/NodeId.lean`. -/
def Nd.id (n : Nd) : NodeId := .node n.1 n.2

/-- `src/dsp/mod.rs:2138-2145`: the text of a node id. -/
def display : NodeId → String
  | .nop => "Nop"
  | .node k i => (row k).label ++ " " ++ toString i.val

/-- `write!(cur, "{}", s)` with a cursor over `cap` bytes, and the text read back (`src/matrix.rs:168-174`, `src/matrix.rs:1228-1234`). -/
def writeTo (cap : Nat) (s : String) : Option String := if s.utf8ByteSize ≤ cap then some s else none

/-- `src/matrix.rs:158-175` `Cell::label`. -/
def cellLabel (c : Cell Nd) (cap : Nat) : Option String :=
  match c.nodeId with
  | none => none
  | some n => writeTo cap (display n.id)

/-- `src/matrix.rs:1184-1235` `Matrix::edge_label`. `known` says which nodes the engine has (`info_for`, `src/matrix.rs:560-562`). -/
def edgeLabel (m : Matrix Nd) (known : Nd → Bool) (cell : Cell Nd) (edge : CellDir) (cap : Nat) : Option (String × Bool) :=
  match cell.nodeId with
  | none => none
  | some n =>
    let outIdx : Option (Option Nat) :=
      match edge with
      | .TR => some cell.out1
      | .BR => some cell.out2
      | .B => some cell.out3
      | _ => none
    let inIdx : Option (Option Nat) :=
      match edge with
      | .BL => some cell.in3
      | .TL => some cell.in2
      | .T => some cell.in1
      | _ => none
    if known n then
      let info := NodeInfo.fromNodeId n.id
      match outIdx with
      | some o =>
        let con := m.adjacentEdgeHasInput cell.x cell.y edge
        o.bind (fun i => (info.outName i).bind (fun s => (writeTo cap s).map (fun t => (t, con))))
      | none =>
        match inIdx with
        | some o => o.bind (fun i => (info.inName i).bind (fun s => (writeTo cap s).map (fun t => (t, false))))
        | none => none
    else none

/-- `src/matrix.rs:181-189` `Cell::offs_dir`: the coordinates are truncated to `u8`. -/
def offsDir (c : Cell Nd) (d : CellDir) : Cell Nd × Bool :=
  match d.offsPos (c.x, c.y) with
  | some q => ({ c with x := q.1 % 256, y := q.2 % 256 }, true)
  | none => (c, false)

/-- `src/matrix.rs:1175-1182` `Matrix::for_each`: the cells in the order in which they are visited. -/
def forEach (m : Matrix Nd) : List (Nat × Nat × Option (Cell Nd)) :=
  (List.range m.w).flatMap (fun x => (List.range m.h).map (fun y => (x, y, m.cells[x * m.h + y]?)))

end HexoDSP.Label
