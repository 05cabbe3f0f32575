import Verif.Model.CellDir
import Verif.Model.GraphOrdering
/-!
# Model of the grid part of `src/matrix.rs`

Node ids are a type parameter `N`; `none` stands for `NodeId::Nop`. The node configurator, the
observer and the monitored cell are not part of this model (see `Verif/Model/NodeConf.lean` for the
configurator). Panics are `none`.
-/

namespace HexoDSP.Matrix
open GraphOrdering

/-- `src/matrix.rs:36-53` `struct Cell`. The coordinates and port indices are `u8` in the code. -/
structure Cell (N : Type) where
  nodeId : Option N
  x : Nat
  y : Nat
  out1 : Option Nat
  out2 : Option Nat
  out3 : Option Nat
  in1 : Option Nat
  in2 : Option Nat
  in3 : Option Nat
  deriving DecidableEq, Repr

variable {N : Type} [DecidableEq N]

/-- `src/matrix.rs:75-77` `Cell::empty_at`. -/
def Cell.emptyAt (nodeId : Option N) (x y : Nat) : Cell N :=
  { nodeId, x, y, out1 := none, out2 := none, out3 := none, in1 := none, in2 := none, in3 := none }

/-- `src/matrix.rs:69-71` `Cell::empty`. -/
def Cell.empty (nodeId : Option N) : Cell N := Cell.emptyAt nodeId 0 0

/-- `src/matrix.rs:135-137` `Cell::is_empty`. -/
def Cell.isEmpty (c : Cell N) : Bool := c.nodeId.isNone

/-- `src/matrix.rs:203-213` `Cell::local_port_idx`. -/
def Cell.localPortIdx (c : Cell N) : CellDir → Option Nat
  | .TR => c.out1
  | .BR => c.out2
  | .B => c.out3
  | .BL => c.in3
  | .TL => c.in2
  | .T => c.in1
  | .C => none

/-- `src/matrix.rs:191-201` `Cell::has_dir_set`. -/
def Cell.hasDirSet (c : Cell N) : CellDir → Bool
  | .TR => c.out1.isSome
  | .BR => c.out2.isSome
  | .B => c.out3.isSome
  | .BL => c.in3.isSome
  | .TL => c.in2.isSome
  | .T => c.in1.isSome
  | .C => false

/-- `src/matrix.rs:215-244` `Cell::clear_io_dir`. -/
def Cell.clearIoDir (c : Cell N) : CellDir → Cell N
  | .TR => { c with out1 := none }
  | .BR => { c with out2 := none }
  | .B => { c with out3 := none }
  | .BL => { c with in3 := none }
  | .TL => { c with in2 := none }
  | .T => { c with in1 := none }
  | .C => { c with out1 := none, out2 := none, out3 := none, in1 := none, in2 := none, in3 := none }

/-- `src/matrix.rs:246-268` `Cell::set_io_dir`; the index is truncated to `u8`. -/
def Cell.setIoDir (c : Cell N) (d : CellDir) (idx : Nat) : Cell N :=
  match d with
  | .TR => { c with out1 := some (idx % 256) }
  | .BR => { c with out2 := some (idx % 256) }
  | .B => { c with out3 := some (idx % 256) }
  | .BL => { c with in3 := some (idx % 256) }
  | .TL => { c with in2 := some (idx % 256) }
  | .T => { c with in1 := some (idx % 256) }
  | .C => c

/-- `src/matrix.rs:143-152` `Cell::set_node_id`. -/
def Cell.setNodeId (c : Cell N) (n : Option N) : Cell N :=
  { c with nodeId := n, in1 := none, in2 := none, in3 := none, out1 := none, out2 := none, out3 := none }

/-- `src/matrix.rs:154-156` `Cell::set_node_id_keep_ios`. -/
def Cell.setNodeIdKeepIos (c : Cell N) (n : Option N) : Cell N := { c with nodeId := n }

/-- `src/matrix.rs:177-179` `Cell::pos`. -/
def Cell.pos (c : Cell N) : Nat × Nat := (c.x, c.y)

/-- `src/matrix.rs:430-435` `MatrixError`. -/
inductive MatrixError (N : Type) where
  | cycleDetected
  | duplicatedInput (output1 output2 : N × Nat)
  | nonEmptyCell (cell : Cell N)
  | posOutOfRange
  deriving DecidableEq, Repr

/-- `src/matrix.rs:439-444` `struct Edge`. -/
structure Edge (N : Type) where
  src : N
  srcOut : Nat
  dst : N
  dstInput : Nat
  deriving DecidableEq, Repr

/-- `src/matrix.rs:474-522` `struct Matrix`, the grid related fields. `edges` and `graph` are the
retained results of `update_graph_ordering_and_edges`; `genCounter` is `gen_counter`. -/
structure Matrix (N : Type) where
  cells : List (Cell N)
  w : Nat
  h : Nat
  graph : Ordering N
  saved : Option (List (Cell N))
  edges : List (Edge N)
  genCounter : Nat

/-- `src/matrix.rs:527-545` `Matrix::new`. -/
def Matrix.new (w h : Nat) : Matrix N :=
  { cells := List.replicate (w * h) (Cell.empty none), w, h, graph := Ordering.new, saved := none,
    edges := [], genCounter := 0 }

/-- `src/matrix.rs:1248-1254` `Matrix::get` (the vector always has `w * h` elements). -/
def Matrix.get (m : Matrix N) (x y : Nat) : Option (Cell N) :=
  if x ≥ m.w ∨ y ≥ m.h then none else m.cells[x * m.h + y]?

/-- `src/matrix.rs:1237-1246` `Matrix::get_copy`. -/
def Matrix.getCopy (m : Matrix N) (x y : Nat) : Option (Cell N) :=
  if x ≥ m.w ∨ y ≥ m.h then none
  else (m.cells[x * m.h + y]?).map (fun c => { c with x := x % 256, y := y % 256 })

/-- `src/matrix.rs:781-790` `Matrix::place`; coordinates are truncated to `u8` in the cell. -/
def Matrix.place (m : Matrix N) (x y : Nat) (c : Cell N) : Matrix N :=
  let c := { c with x := x % 256, y := y % 256 }
  if x ≥ m.w ∨ y ≥ m.h then m else { m with cells := m.cells.set (x * m.h + y) c }

/-- `src/matrix.rs:795-797` `Matrix::place_cell`. -/
def Matrix.placeCell (m : Matrix N) (c : Cell N) : Matrix N := m.place c.pos.1 c.pos.2 c

/-- `src/matrix.rs:1102-1112` `Matrix::get_adjacent`. -/
def Matrix.getAdjacent (m : Matrix N) (x y : Nat) (d : CellDir) : Option (Cell N) :=
  let offs := d.asOffs x
  let nx := (x : Int) + offs.1
  let ny := (y : Int) + offs.2
  if nx < 0 ∨ ny < 0 ∨ nx.toNat ≥ m.w ∨ ny.toNat ≥ m.h then none
  else m.cells[nx.toNat * m.h + ny.toNat]?

/-- `src/matrix.rs:1079-1100` `Matrix::get_adjacent_output`. -/
def Matrix.getAdjacentOutput (m : Matrix N) (x y : Nat) (d : CellDir) : Option (N × Nat) :=
  if d.isOutput then none
  else
    match m.getAdjacent x y d with
    | none => none
    | some cell =>
      match cell.nodeId with
      | none => none
      | some n =>
        let cellOut :=
          match d with
          | .T => cell.out3
          | .TL => cell.out2
          | .BL => cell.out1
          | _ => none
        match cellOut with
        | none => none
        | some o => some (n, o)

/-- `src/matrix.rs:1114-1126` `Matrix::adjacent_edge_has_input`. -/
def Matrix.adjacentEdgeHasInput (m : Matrix N) (x y : Nat) (edge : CellDir) : Bool :=
  match m.getAdjacent x y edge with
  | none => false
  | some cell =>
    match edge with
    | .TR => cell.in3.isSome
    | .BR => cell.in2.isSome
    | .B => cell.in1.isSome
    | _ => false

/-- One element of the result of `get_connections`: own port and the facing port of the neighbour. -/
structure Connection (N : Type) where
  this : Cell N × CellDir × Nat
  other : Cell N × CellDir × Nat × (Nat × Nat)
  deriving DecidableEq, Repr

/-- The loop body of `src/matrix.rs:1151-1170`. -/
def Matrix.connectionAt (m : Matrix N) (x y : Nat) (thisCell : Cell N) (d : CellDir) : Option (Connection N) :=
  match thisCell.localPortIdx d with
  | none => none
  | some io =>
    match d.offsPos (x, y) with
    | none => none
    | some (nx, ny) =>
      if ¬ (nx < m.w ∧ ny < m.h) then none
      else
        match m.get nx ny with
        | none => none
        | some otherCell =>
          match otherCell.localPortIdx d.flip with
          | none => none
          | some oio => some ⟨(thisCell, d, io), (otherCell, d.flip, oio, (nx, ny))⟩

/-- `src/matrix.rs:1142-1173` `Matrix::get_connections`. -/
def Matrix.getConnections (m : Matrix N) (x y : Nat) : Option (List (Connection N)) :=
  (m.get x y).map (fun c => [0, 1, 2, 3, 4, 5].filterMap (fun e => m.connectionAt x y c (CellDir.ofEdge e)))

/-- The positions in the order of `for x in 0..w { for y in 0..h {..} }`. -/
def positions (w h : Nat) : List (Nat × Nat) :=
  (List.range w).flatMap (fun x => (List.range h).map (fun y => (x, y)))

/-- One `match (cell.inN, inN_output)` of `src/matrix.rs:1314-1351`. -/
def addInput (n : N) (inp : Option Nat) (output : Option (N × Nat)) (s : Ordering N × List (Edge N)) :
    Option (Ordering N × List (Edge N)) :=
  match inp, output with
  | some idx, some (src, out) =>
    (s.1.addEdge src n).map
      (fun g => (g, s.2 ++ [{ src := src, srcOut := out, dst := n, dstInput := idx }]))
  | _, _ => some s

/-- The loop body of `src/matrix.rs:1303-1351`. -/
def Matrix.scanCell (m : Matrix N) (s : Ordering N × List (Edge N)) (p : Nat × Nat) :
    Option (Ordering N × List (Edge N)) :=
  match m.cells[p.1 * m.h + p.2]? with
  | none => none
  | some cell =>
    match cell.nodeId with
    | none => some s
    | some n =>
      let s := ((s.1.addNode n).1, s.2)
      (addInput n cell.in1 (m.getAdjacentOutput p.1 p.2 .T) s).bind (fun s =>
      (addInput n cell.in2 (m.getAdjacentOutput p.1 p.2 .TL) s).bind (fun s =>
       addInput n cell.in3 (m.getAdjacentOutput p.1 p.2 .BL) s))

/-- `src/matrix.rs:1296-1353` `update_graph_ordering_and_edges` (the set `assigned_inputs` is
computed from the edges on demand, see `paramInputIsUsed`). -/
def Matrix.updateGraph (m : Matrix N) : Option (Matrix N) :=
  ((positions m.w m.h).foldlM m.scanCell (m.graph.clear, [])).map
    (fun s => { m with graph := s.1, edges := s.2 })

/-- The scan for doubly used inputs, `src/matrix.rs:1433-1443`; `edge_map` is an association list. -/
def findDuplicate (seen : List ((N × Nat) × (N × Nat))) : List (Edge N) → Option (MatrixError N)
  | [] => none
  | e :: es =>
    match seen.lookup (e.dst, e.dstInput) with
    | some o1 => some (.duplicatedInput o1 (e.src, e.srcOut))
    | none => findDuplicate (((e.dst, e.dstInput), (e.src, e.srcOut)) :: seen) es

/-- `src/matrix.rs:1430-1451` `Matrix::check`. -/
def Matrix.check (m : Matrix N) : Option (Matrix N × Option (MatrixError N)) :=
  match m.updateGraph with
  | none => none
  | some m =>
    match findDuplicate [] m.edges with
    | some e => some (m, some e)
    | none =>
      match m.graph.calculateOrder [] with
      | none => none
      | some (g, _, ok) =>
        let m := { m with graph := g }
        if ok then some (m, none) else some (m, some .cycleDetected)

/-- `src/matrix.rs:1463-1485` `Matrix::sync`, with `build_prog` (1367-1388) reduced to its order
calculation: creating nodes, uploading the program, monitoring and the observer are not modelled
here. On success the computed execution order is returned. -/
def Matrix.sync (m : Matrix N) : Option (Matrix N × Except (MatrixError N) (List N)) :=
  match m.updateGraph with
  | none => none
  | some m =>
    match m.graph.calculateOrder [] with
    | none => none
    | some (g, order, ok) =>
      let m := { m with graph := g }
      if ok then some ({ m with genCounter := m.genCounter + 1 }, .ok order)
      else some (m, .error .cycleDetected)

/-- `src/matrix.rs:661-664` `save_matrix`. -/
def Matrix.saveMatrix (m : Matrix N) : Matrix N := { m with saved := some m.cells }

/-- `src/matrix.rs:671-675` `restore_matrix`. -/
def Matrix.restoreMatrix (m : Matrix N) : Matrix N :=
  match m.saved with
  | some cells => { m with cells := cells, saved := none }
  | none => m

/-- `src/matrix.rs:800-818` `Matrix::clear` (the result of its `sync` is ignored by the code). -/
def Matrix.clear (m : Matrix N) : Option (Matrix N) :=
  let m := { m with cells := m.cells.map (fun _ => Cell.empty none), graph := m.graph.clear,
                    edges := [], saved := none }
  m.sync.map (fun r => r.1)

/-- The loop of `src/matrix.rs:745-758`; stops at the first unusable position, keeping the cells
placed so far. -/
def Matrix.placeLoop (m : Matrix N) : List (Cell N) → Matrix N × Option (MatrixError N)
  | [] => (m, none)
  | c :: cs =>
    match m.get c.pos.1 c.pos.2 with
    | none => (m, some .posOutOfRange)
    | some existing =>
      if ¬ existing.isEmpty then (m, some (.nonEmptyCell existing))
      else (m.place c.pos.1 c.pos.2 c).placeLoop cs

/-- `src/matrix.rs:744-765` `Matrix::place_multiple`. -/
def Matrix.placeMultiple (m : Matrix N) (cs : List (Cell N)) : Option (Matrix N × Option (MatrixError N)) :=
  match m.placeLoop cs with
  | (m, some e) => some (m, some e)
  | (m, none) => m.check

/-- Grid changing API calls a closure passed to `change_matrix` can make. -/
inductive MOp (N : Type) where
  | place (x y : Nat) (c : Cell N)
  | placeCell (c : Cell N)
  | placeMultiple (cs : List (Cell N))
  | check
  | sync
  | clear
  | save
  | restore
  deriving Repr

/-- One call; the second component is its error, if any. -/
def Matrix.step (m : Matrix N) : MOp N → Option (Matrix N × Option (MatrixError N))
  | .place x y c => some (m.place x y c, none)
  | .placeCell c => some (m.placeCell c, none)
  | .placeMultiple cs => m.placeMultiple cs
  | .check => m.check
  | .sync => m.sync.map (fun r => (r.1, match r.2 with | .ok _ => none | .error e => some e))
  | .clear => m.clear.map (fun m => (m, none))
  | .save => some (m.saveMatrix, none)
  | .restore => some (m.restoreMatrix, none)

/-- A closure that ignores the results of its calls. -/
def Matrix.runAll (m : Matrix N) (ops : List (MOp N)) : Option (Matrix N) :=
  ops.foldlM (fun m op => (m.step op).map (fun r => r.1)) m

/-- A closure that propagates the first error (`?` after each call). -/
def Matrix.runErr (m : Matrix N) : List (MOp N) → Option (Matrix N × Option (MatrixError N))
  | [] => some (m, none)
  | op :: ops =>
    match m.step op with
    | none => none
    | some (m, some e) => some (m, some e)
    | some (m, none) => m.runErr ops

/-- `src/matrix.rs:707-712` / `728-733`: check and roll back on error. -/
def Matrix.checkOrRestore (m : Matrix N) : Option (Matrix N × Option (MatrixError N)) :=
  m.check.map (fun r =>
    match r.2 with
    | some e => (r.1.restoreMatrix, some e)
    | none => (r.1, none))

/-- `src/matrix.rs:699-713` `change_matrix`. -/
def Matrix.changeMatrix (m : Matrix N) (f : List (MOp N)) : Option (Matrix N × Option (MatrixError N)) :=
  (m.saveMatrix.runAll f).bind Matrix.checkOrRestore

/-- `src/matrix.rs:717-734` `change_matrix_err`. -/
def Matrix.changeMatrixErr (m : Matrix N) (f : List (MOp N)) : Option (Matrix N × Option (MatrixError N)) :=
  match m.saveMatrix.runErr f with
  | none => none
  | some (m, some e) => some (m.restoreMatrix, some e)
  | some (m, none) => m.checkOrRestore

/-! ## Searching around a cell -/

/-- The `options` of `src/matrix.rs:329-335`, `368-374`, `393-399`. -/
def dirOptions (d : CellDir) : List CellDir :=
  if d = .C then [.T, .TL, .BL, .TR, .BR, .B]
  else if d.isInput then [.T, .TL, .BL]
  else [.TR, .BR, .B]

/-- `src/matrix.rs:361-385` `Cell::find_all_adjacent_free`. -/
def Cell.findAllAdjacentFree (c : Cell N) (m : Matrix N) (d : CellDir) : List (CellDir × (Nat × Nat)) :=
  (dirOptions d).filterMap (fun d =>
    match d.offsPos (c.x, c.y) with
    | none => none
    | some pos =>
      if ((m.get pos.1 pos.2).map Cell.isEmpty).getD false then some (d, pos) else none)

/-- `src/matrix.rs:322-356` `Cell::find_first_adjacent_free`. -/
def Cell.findFirstAdjacentFree (c : Cell N) (m : Matrix N) (d : CellDir) : Option (CellDir × Option Nat) :=
  let freePorts := (dirOptions d).filter (fun d =>
    match d.offsPos (c.x, c.y) with
    | none => false
    | some pos => ((m.get pos.1 pos.2).map Cell.isEmpty).getD false)
  match freePorts.find? (fun d => c.hasDirSet d) with
  | some d => some (d, c.localPortIdx d)
  | none =>
    match freePorts with
    | [] => none
    | d :: _ => some (d, none)

/-- `src/matrix.rs:411-423` `Cell::is_port_dir_connected`. -/
def Cell.isPortDirConnected (c : Cell N) (m : Matrix N) (d : CellDir) : Option (Nat × Nat) :=
  if c.hasDirSet d then
    match d.offsPos (c.x, c.y) with
    | none => none
    | some np =>
      match m.get np.1 np.2 with
      | none => none
      | some dst => if dst.hasDirSet d.flip then some np else none
  else none

/-- `src/matrix.rs:390-408` `Cell::find_unconnected_ports`. -/
def Cell.findUnconnectedPorts (c : Cell N) (m : Matrix N) (d : CellDir) : List CellDir :=
  (dirOptions d).filter (fun d => (c.isPortDirConnected m d).isNone)

end HexoDSP.Matrix
