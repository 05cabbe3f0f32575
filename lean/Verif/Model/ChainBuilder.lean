import Verif.Model.Matrix
import Verif.Model.NodeId
/-!
# Model of `src/chain_builder.rs`

The matrix is its grid (`Verif/Model/Matrix.lean`) and the values set with `set_param`; `V` is the type of the stored values (the conversion of
an atom to the kind of the parameter in `NodeConfigurator::set_param` is not modelled). `unused` is `Matrix::get_unused_instance_node_id`, see C50;
`none`: it does not return.
-/

set_option linter.dupNamespace false

namespace HexoDSP.Chain
open HexoDSP.Matrix HexoDSP.Table

/-- A node id other than `Nop`: the matrix model writes `Nop` as `none`. -/
abbrev TNode := Fin nodeTable.length × Fin 256

/-- The node id of a cell. -/
def ofOpt : Option TNode → NodeId
  | none => .nop
  | some (k, i) => .node k i

def toOpt : NodeId → Option TNode
  | .nop => none
  | .node k i => some (k, i)

/-- `src/chain_builder.rs:65-70` `ChainError`. -/
inductive ChainError where
  | unknownNodeId (name : String)
  | unknownOutput (id : NodeId) (name : String)
  | unknownInput (id : NodeId) (name : String)
  deriving DecidableEq

variable {V : Type}

/-- `src/chain_builder.rs:28-33` `MatrixChainLink`. -/
structure Link (V : Type) where
  cell : Cell TNode
  dir : CellDir
  params : List (ParamId × V)

/-- `src/chain_builder.rs:56-62` `MatrixCellChain`. -/
structure Chain (V : Type) where
  links : List (Link V)
  error : Option ChainError
  dir : CellDir
  paramIdx : Nat

/-- `src/chain_builder.rs:76-78` `new`. -/
def Chain.new (d : CellDir) : Chain V := ⟨[], none, d, 0⟩

/-- `src/chain_builder.rs:80-86` `output_dir`. -/
def Chain.outputDir (ch : Chain V) : CellDir := if ch.dir.isOutput then ch.dir else ch.dir.flip

/-- `src/chain_builder.rs:88-94` `input_dir`. -/
def Chain.inputDir (ch : Chain V) : CellDir := if ch.dir.isInput then ch.dir else ch.dir.flip

/-- `src/chain_builder.rs:97-104` `params_for_idx`. -/
def Chain.paramsForIdx (ch : Chain V) (idx : Nat) : Chain V :=
  { ch with paramIdx := if idx ≥ ch.links.length then ch.links.length else idx }

/-- `src/chain_builder.rs:111-155` `set_denorm`, `set_norm`, `set_atom`: they differ in the value pushed, `value`. `none`: panic, there is
no current cell. -/
def Chain.set (ch : Chain V) (param : String) (value : ParamId → V) : Option (Chain V) :=
  match ch.links[ch.paramIdx]? with
  | none => none
  | some l => match (ofOpt l.cell.nodeId).inpParam param with
    | some pid => some { ch with links := ch.links.set ch.paramIdx { l with params := l.params ++ [(pid, value pid)] } }
    | none => some { ch with error := some (.unknownInput (ofOpt l.cell.nodeId) param) }

/-- `src/chain_builder.rs:158-165` `spawn_cell_from_node_id_name`. -/
def spawnCell (name : String) : Option (Cell TNode) :=
  let id := NodeId.fromStr name
  if id = .nop ∧ name ≠ "nop" then none else some (Cell.empty (toOpt id))

/-- `src/chain_builder.rs:170-173` `add_link`. -/
def Chain.addLink (ch : Chain V) (c : Cell TNode) : Chain V :=
  { ch with links := ch.links ++ [⟨c, ch.dir, []⟩], paramIdx := ch.links.length }

/-- `src/matrix.rs:278-285` `set_input_by_name`. -/
def setInputByName (c : Cell TNode) (name : String) (d : CellDir) : Option (Cell TNode) :=
  ((ofOpt c.nodeId).inp name).map (fun idx => c.setIoDir d idx)

/-- `src/matrix.rs:295-302` `set_output_by_name`. -/
def setOutputByName (c : Cell TNode) (name : String) (d : CellDir) : Option (Cell TNode) :=
  ((ofOpt c.nodeId).out name).map (fun idx => c.setIoDir d idx)

/-- The input part of `src/chain_builder.rs:205-207`, `221-223`. -/
def Chain.applyInp (ch : Chain V) (c : Cell TNode) : Option String → Chain V × Cell TNode
  | none => (ch, c)
  | some inp => match setInputByName c inp ch.inputDir with
    | some c => (ch, c)
    | none => ({ ch with error := some (.unknownInput (ofOpt c.nodeId) inp) }, c)

/-- The output part of `src/chain_builder.rs:190-192`, `225-227`. -/
def Chain.applyOut (ch : Chain V) (c : Cell TNode) : Option String → Chain V × Cell TNode
  | none => (ch, c)
  | some out => match setOutputByName c out ch.outputDir with
    | some c => (ch, c)
    | none => ({ ch with error := some (.unknownOutput (ofOpt c.nodeId) out) }, c)

/-- `src/chain_builder.rs:177-234` `node`, `node_out`, `node_inp`, `node_io`. -/
def Chain.node (ch : Chain V) (name : String) (inp out : Option String) : Chain V :=
  match spawnCell name with
  | none => { ch with error := some (.unknownNodeId name) }
  | some c =>
    let r1 := ch.applyInp c inp
    let r2 := r1.1.applyOut r1.2 out
    r2.1.addLink r2.2

/-- The calls that build a chain. -/
inductive BuildOp (V : Type) where
  | node (name : String) (inp out : Option String)
  | link (cell : Cell TNode)
  | set (param : String) (value : ParamId → V)
  | paramsForIdx (idx : Nat)

def Chain.step (ch : Chain V) : BuildOp V → Option (Chain V)
  | .node n i o => some (ch.node n i o)
  | .link c => some (ch.addLink c)
  | .set p v => ch.set p v
  | .paramsForIdx i => some (ch.paramsForIdx i)

/-- Building a chain. `none`: panic. -/
def Chain.build (ch : Chain V) (ops : List (BuildOp V)) : Option (Chain V) := ops.foldlM Chain.step ch

/-- The matrix as far as `place` changes it. -/
structure Patch (V : Type) where
  grid : Matrix TNode
  params : ParamId → Option V

/-- Placing in progress: the grid, `pos` and `last_unused`. The code keeps `pos` as `usize`: a negative coordinate is a number
above `2^63`, which is on no grid, and has the same parity. It also goes through `i32`: start positions are below `2^31`. -/
structure Placing where
  grid : Matrix TNode
  pos : Int × Int
  last : List (String × Nat)

/-- The loop body `src/chain_builder.rs:254-278`. `none`: it does not return. -/
def placeLink (unused : NodeId → Option NodeId) (s : Placing) (l : Link V) : Option Placing :=
  let id := ofOpt l.cell.nodeId
  let named : Option (NodeId × Nat) := match s.last.lookup id.name with
    | some i => some (id.toInstance (i + 1), i + 1)
    | none => (unused id).map (fun id' => (id', id'.inst))
  match named with
  | none => none
  | some (id', i) =>
    let c := l.cell.setNodeIdKeepIos (toOpt id')
    let offs := l.dir.asOffs (s.pos.1 % 2).toNat
    some
      { grid := if s.pos.1 < 0 ∨ s.pos.2 < 0 then s.grid else s.grid.place s.pos.1.toNat s.pos.2.toNat c
        pos := (s.pos.1 + offs.1, s.pos.2 + offs.2)
        last := (id.name, i) :: s.last }

/-- `src/chain_builder.rs:280-284`: the parameters are set one after the other. -/
def setParams (params : ParamId → Option V) (sets : List (ParamId × V)) : ParamId → Option V :=
  sets.foldl (fun f e => fun p => if p = e.1 then some e.2 else f p) params

/-- `src/chain_builder.rs:240-287` `place`: the chain, the matrix, the result. `none`: it does not return. -/
def Chain.place (ch : Chain V) (unused : NodeId → Option NodeId) (m : Patch V) (x y : Nat) :
    Option (Chain V × Patch V × Except ChainError Unit) :=
  match ch.error with
  | some e => some ({ ch with error := none }, m, .error e)
  | none => match ch.links.foldlM (placeLink unused) ⟨m.grid, (x, y), []⟩ with
    | none => none
    | some s => some (ch, ⟨s.grid, setParams m.params (ch.links.flatMap (·.params))⟩, .ok ())

end HexoDSP.Chain
