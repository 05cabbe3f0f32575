import Verif.Model.MatrixEngine
/-!
# The matrix as a whole, `src/matrix.rs`

The grid (`Verif/Model/Matrix.lean`), the engine below it (`Verif/Model/Engine.lean`), the properties, the monitored cell, the pattern data of the
trackers and the block functions, with the calls a user makes. Saving (`to_repr`) and loading (`from_repr`) a patch are in this file.

Simplifications:
* pattern data and block functions are of arbitrary types with arbitrary functions for saving and loading (`Env`); they are modelled in
  `Verif/Model/Tracker.lean` and `Verif/Model/Block.lean`;
* the normalisation of parameters is an arbitrary pair of functions (`Verif/Model/Norm.lean` has the actual one);
* a sample is not loaded when an audio sample atom is set (`Verif/Model/Samples.lean`);
* the observer is not modelled; mutexes are not poisoned; the feature `synfx-dsp-jit` is enabled;
* a `HashMap` is an association list, and iterating over it is done in an arbitrary order (`Env.shP`, `shA`, `shS`).

Panics are `none`.
-/

namespace HexoDSP.Patch
open HexoDSP.Matrix (Matrix Cell Edge MatrixError positions)
open HexoDSP.Engine (NodeId World EOp Conf Conn NodeTable CallIn Block Value)

/-- What this model leaves open. -/
structure Env (K V A P PR B BR : Type) where
  /-- `src/dsp/mod.rs:2097-2120` `ParamId::norm`, `denorm` of an input -/
  norm : NodeId K → Nat → V → V
  denorm : NodeId K → Nat → V → V
  /-- `src/dsp/tracker/pattern.rs` `PatternData::new`, `is_unset`, `to_repr`, `from_repr` -/
  newPat : P
  patUnset : P → Bool
  patRepr : P → PR
  patLoad : P → PR → Option P
  /-- `src/wblockdsp/definition.rs` `BlockFun::new`, `is_unset`, `save_snapshot`, `load_snapshot` -/
  newFun : B
  funUnset : B → Bool
  funSave : B → BR
  funLoad : B → BR → Option B
  /-- creating such a node allocates the tracker (`src/dsp/node_tseq.rs:52-58`) or code engine (`src/dsp/node_code.rs:38-45`) of its instance -/
  isTSeq : K → Bool
  isCode : K → Bool
  /-- the order of iteration over the hash maps -/
  shP : List ((NodeId K × Nat) × V) → List ((NodeId K × Nat) × V)
  shA : List ((NodeId K × Nat) × A) → List ((NodeId K × Nat) × A)
  shS : List (String × A) → List (String × A)

/-- `src/matrix_repr.rs:10-16` `CellRepr`. -/
structure CellRepr (N : Type) where
  nodeId : Option N
  x : Nat
  y : Nat
  out : Int × Int × Int
  inp : Int × Int × Int
  deriving DecidableEq, Repr

/-- `src/matrix_repr.rs:185-193` `MatrixRepr`. -/
structure PatchRepr (K V A PR BR : Type) where
  cells : List (CellRepr (NodeId K))
  params : List ((NodeId K × Nat) × V × Option V)
  atoms : List ((NodeId K × Nat) × A)
  patterns : List (Option PR)
  blockFuns : List (Option BR)
  props : List (String × A)
  version : Nat

/-- `src/matrix.rs:98-108`: a port as `i16`. -/
def portRepr (p : Option Nat) : Int := (p.map (fun v => (v : Int))).getD (-1)

/-- `src/matrix.rs:116-121`: a port from `i16`, truncated to `u8`. -/
def portLoad (v : Int) : Option Nat := if v < 0 then none else some (v.toNat % 256)

/-- `src/matrix.rs:96-112` `Cell::to_repr`. -/
def cellRepr {N : Type} (c : Cell N) : CellRepr N :=
  { nodeId := c.nodeId, x := c.x, y := c.y,
    out := (portRepr c.out1, portRepr c.out2, portRepr c.out3), inp := (portRepr c.in1, portRepr c.in2, portRepr c.in3) }

/-- `src/matrix.rs:114-126` `Cell::from_repr`. -/
def cellLoad {N : Type} (r : CellRepr N) : Cell N :=
  { nodeId := r.nodeId, x := r.x % 256, y := r.y % 256,
    out1 := portLoad r.out.1, out2 := portLoad r.out.2.1, out3 := portLoad r.out.2.2,
    in1 := portLoad r.inp.1, in2 := portLoad r.inp.2.1, in3 := portLoad r.inp.2.2 }

/-- `src/matrix.rs:474-522` `struct Matrix` with the configurator, the executor and the global data of the nodes (`src/global.rs:27-46`): `pats` are
the trackers allocated, `funs` the block functions, `engines` the numbers of the code engines. -/
structure FM (K V A M σ P B : Type) where
  grid : Matrix (NodeId K)
  world : World (NodeId K) V A M σ
  props : List (String × A)
  monitored : Cell (NodeId K)
  pats : List (Nat × P)
  funs : List (Nat × B)
  engines : List Nat

variable {K V A M σ P PR B BR : Type} [DecidableEq K]

/-- `src/matrix.rs:527-545` `Matrix::new` of a new engine. -/
def FM.new [OfNat V 0] (w h : Nat) (st : σ) : FM K V A M σ P B :=
  { grid := Matrix.new w h, world := World.new st, props := [], monitored := Cell.empty none, pats := [], funs := [], engines := [] }

/-- `src/matrix.rs:985-987` `get_prop`. -/
def FM.getProp (s : FM K V A M σ P B) (k : String) : Option A := s.props.lookup k

/-- `src/global.rs:93-99`: the tracker, allocated if it is not there. -/
def FM.patOf (E : Env K V A P PR B BR) (s : FM K V A M σ P B) (i : Nat) : P := (s.pats.lookup i).getD E.newPat

/-- `src/global.rs:174-191`: the block function, allocated if it is not there. -/
def FM.funOf (E : Env K V A P PR B BR) (s : FM K V A M σ P B) (i : Nat) : B := (s.funs.lookup i).getD E.newFun

/-- `trackers.contains_key(&index)` else insert, `src/global.rs:94-96`. -/
def allocPat (E : Env K V A P PR B BR) (pats : List (Nat × P)) (i : Nat) : List (Nat × P) :=
  if (pats.lookup i).isSome then pats else Map.insert pats i E.newPat

/-- `src/global.rs:177-182`. -/
def allocFun (E : Env K V A P PR B BR) (funs : List (Nat × B)) (i : Nat) : List (Nat × B) :=
  if (funs.lookup i).isSome then funs else Map.insert funs i E.newFun

/-- `src/global.rs:140-142`. -/
def allocEngine (es : List Nat) (i : Nat) : List Nat := if i ∈ es then es else i :: es

/-- `src/matrix.rs:1264-1294` `create_intermediate_nodes`. Creating a `TSeq` (`Code`) node allocates the tracker (code engine) of its instance; the nodes
that were there already have done that. -/
def FM.createNodes (E : Env K V A P PR B BR) (s : FM K V A M σ P B) : FM K V A M σ P B :=
  let c := s.world.conf.createIntermediate s.grid
  { s with
    world := { s.world with conf := c }
    pats := ((c.nodes.map (·.1)).filter (fun n => E.isTSeq n.kind)).foldl (fun ps n => allocPat E ps n.inst) s.pats
    engines := ((c.nodes.map (·.1)).filter (fun n => E.isCode n.kind)).foldl (fun es n => allocEngine es n.inst) s.engines }

/-- `src/matrix.rs:1379-1384`: the connections handed to the configurator. -/
def connOf {N : Type} (e : Edge N) : Conn N := { dst := e.dst, dstIn := e.dstInput, src := e.src, srcOut := e.srcOut }

/-- `src/matrix.rs:1006-1017` `monitor_cell`. -/
def FM.monitorCell (s : FM K V A M σ P B) (c : Cell (NodeId K)) : FM K V A M σ P B :=
  { s with
    monitored := c
    world := match c.nodeId with
      | none => s.world
      | some n => s.world.sendAll (s.world.conf.monitor n [c.in1, c.in2, c.in3] [c.out1, c.out2, c.out3]) }

/-- `src/matrix.rs:1025-1030` `remonitor_cell`. -/
def FM.remonitor (s : FM K V A M σ P B) : FM K V A M σ P B :=
  match s.grid.get s.monitored.x s.monitored.y with
  | none => s
  | some c => s.monitorCell c

section
variable [Add V] [Mul V] [Sub V] [Div V] [NatCast V] [OfNat V 0]
variable (T : NodeTable (NodeId K) V A) (a0 : A) (run : σ → CallIn (NodeId K) V A → σ × (Nat → Block V)) (E : Env K V A P PR B BR)

/-- A call of the configurator. -/
def FM.call (s : FM K V A M σ P B) (op : EOp (NodeId K) V A M) : Option (FM K V A M σ P B) :=
  (s.world.step T a0 run op).map (fun r => { s with world := r.1 })

/-- `src/matrix.rs:1463-1485` `sync`. -/
def FM.sync (s : FM K V A M σ P B) : Option (FM K V A M σ P B × Except (MatrixError (NodeId K)) Unit) :=
  let s := s.createNodes E
  match s.grid.sync with
  | none => none
  | some (g, .error e) => some ({ s with grid := g }, .error e)
  | some (g, .ok order) =>
    (FM.call T a0 run { s with grid := g } (.sync order (g.edges.map connOf) true)).map (fun s => (s.remonitor, .ok ()))

/-- `src/matrix.rs:801-809`: the grid is emptied. -/
def emptied {N : Type} (m : Matrix N) : Matrix N :=
  { m with cells := m.cells.map (fun _ => Cell.empty none), graph := m.graph.clear, edges := [], saved := none }

/-- `src/matrix.rs:800-818` `clear`. Trackers and block functions stay. -/
def FM.clear (s : FM K V A M σ P B) : Option (FM K V A M σ P B) :=
  (FM.call T a0 run { s with grid := emptied s.grid, props := [] } .deleteNodes).bind (fun s =>
    ((s.monitorCell (Cell.empty none)).sync T a0 run E).map (·.1))

/-- `src/matrix.rs:1042-1048` `set_param`. -/
def FM.setParam (s : FM K V A M σ P B) (op : EOp (NodeId K) V A M) : Option (FM K V A M σ P B) :=
  (s.call T a0 run op).map (fun s => { s with grid := { s.grid with genCounter := s.grid.genCounter + 1 } })

/-- `src/matrix.rs:1056-1077` `set_param_modamt`. -/
def FM.setModamt (s : FM K V A M σ P B) (p : Engine.ParamId (NodeId K)) (v : Option V) :
    Option (FM K V A M σ P B × Except (MatrixError (NodeId K)) Unit) :=
  (s.call T a0 run (.setModamt p v)).bind (fun s' =>
    if (s.world.conf.setModamt (M := M) p v).2.2 then s'.sync T a0 run E
    else some ({ s' with grid := { s'.grid with genCounter := s'.grid.genCounter + 1 } }, .ok ()))

/-- `src/matrix.rs:975-981` `set_prop`. -/
def FM.setProp (s : FM K V A M σ P B) (k : String) (a : A) : FM K V A M σ P B :=
  { s with props := Map.insert s.props k a, grid := { s.grid with genCounter := s.grid.genCounter + 1 } }

/-! ## Saving and loading -/

/-- `src/nodes/node_conf.rs:519-530` `dump_param_values`: the input parameters. -/
def dumpParams (c : Conf (NodeId K) V A) : List ((NodeId K × Nat) × V × Option V) :=
  (E.shP c.paramValues).map (fun e => (e.1, E.denorm e.1.1 e.1.2 e.2, (c.paramModamt.lookup e.1).join))

/-- `while i < n || has(i)` from `i = 0`: the numbers visited (`src/matrix.rs:876`, `890`). There are at most `k` numbers with `has`. -/
def idsWhile (n k : Nat) (has : Nat → Bool) : List Nat := (List.range (n + k + 1)).takeWhile (fun i => decide (i < n) || has i)

/-- The numbers of the patterns saved. -/
def FM.patIds (s : FM K V A M σ P B) : List Nat := idsWhile 128 s.pats.length (fun i => (s.pats.lookup i).isSome)

/-- The numbers of the block functions saved. -/
def FM.funIds (s : FM K V A M σ P B) : List Nat := idsWhile 32 s.engines.length (fun i => decide (i ∈ s.engines))

/-- `src/matrix.rs:864-905` `to_repr`. Asking for pattern data and block functions allocates them. -/
def FM.toRepr (s : FM K V A M σ P B) : FM K V A M σ P B × PatchRepr K V A PR BR :=
  ({ s with
     pats := s.patIds.foldl (allocPat E) s.pats
     funs := s.funIds.foldl (allocFun E) s.funs
     engines := s.funIds.foldl allocEngine s.engines },
   { cells := ((positions s.grid.w s.grid.h).filterMap (fun p => s.grid.get p.1 p.2)).filter (fun c => c.nodeId.isSome) |>.map cellRepr
     params := dumpParams E s.world.conf
     atoms := E.shA s.world.conf.atomValues
     patterns := s.patIds.map (fun i => if E.patUnset (s.patOf E i) then none else some (E.patRepr (s.patOf E i)))
     blockFuns := s.funIds.map (fun i => if E.funUnset (s.funOf E i) then none else some (E.funSave (s.funOf E i)))
     props := E.shS s.props
     version := 2 })

/-- `src/nodes/node_conf.rs:546-550`: one parameter of a dump. -/
def loadParam (normalize : Bool) (s : FM K V A M σ P B) (e : (NodeId K × Nat) × V × Option V) : Option (FM K V A M σ P B) :=
  let v := if normalize then E.norm e.1.1 e.1.2 e.2.1 else e.2.1
  (s.call T a0 run (.setInput e.1.1 e.1.2 v)).bind (fun s => s.call T a0 run (.setModamt (.input e.1.1 e.1.2) e.2.2))

/-- `src/nodes/node_conf.rs:552-554`: one atom of a dump. -/
def loadAtom (s : FM K V A M σ P B) (e : (NodeId K × Nat) × A) : Option (FM K V A M σ P B) := s.call T a0 run (.setAtom e.1.1 e.1.2 e.2)

/-- `src/matrix.rs:923-926`: one cell of a patch is placed. -/
def loadCell {N : Type} (m : Matrix N) (r : CellRepr N) : Matrix N := m.place (cellLoad r).x (cellLoad r).y (cellLoad r)

/-- `src/matrix.rs:928-934`: one pattern of a patch. -/
def loadPat (s : FM K V A M σ P B) (e : Option PR × Nat) : Option (FM K V A M σ P B) :=
  match e.1 with
  | none => some s
  | some r => (E.patLoad (s.patOf E e.2) r).map (fun p => { s with pats := Map.insert s.pats e.2 p })

/-- `src/matrix.rs:936-942`: one block function of a patch. -/
def loadFun (s : FM K V A M σ P B) (e : Option BR × Nat) : Option (FM K V A M σ P B) :=
  match e.1 with
  | none => some s
  | some r => (E.funLoad (s.funOf E e.2) r).map (fun b => { s with funs := Map.insert s.funs e.2 b, engines := allocEngine s.engines e.2 })

/-- `src/matrix.rs:915-942`: what `from_repr` does between `clear` and `sync`. -/
def FM.load (s : FM K V A M σ P B) (r : PatchRepr K V A PR BR) : Option (FM K V A M σ P B) :=
  (r.params.foldlM (loadParam T a0 run E (decide (r.version > 1))) s).bind (fun s =>
  (r.atoms.foldlM (loadAtom T a0 run) s).bind (fun s =>
  let s := { s with props := r.props.foldl (fun ps e => Map.insert ps e.1 e.2) s.props, grid := r.cells.foldl loadCell s.grid }
  (r.patterns.zipIdx.foldlM (loadPat E) s).bind (fun s => r.blockFuns.zipIdx.foldlM (loadFun E) s)))

/-- `src/matrix.rs:912-951` `from_repr`. -/
def FM.fromRepr (s : FM K V A M σ P B) (r : PatchRepr K V A PR BR) :
    Option (FM K V A M σ P B × Except (MatrixError (NodeId K)) Unit) :=
  (s.clear T a0 run E).bind (fun s => (s.load T a0 run E r).bind (fun s => s.sync T a0 run E))

/-! ## Calls -/

/-- Calls of the user, and what the other threads do. `editPat` and `editFun` stand for any change made through the handles that `get_pattern_data` and
`get_block_function` return; `setSlope` for `NodeExecutor::set_sample_rate` (`src/nodes/node_exec.rs`), as in `Model/Engine.lean`. -/
inductive FOp (K V A P PR B BR : Type) where
  | place (x y : Nat) (c : Cell (NodeId K))
  | placeCell (c : Cell (NodeId K))
  | placeMultiple (cs : List (Cell (NodeId K)))
  | check
  | save
  | restore
  | sync
  | clear
  | setInput (n : NodeId K) (i : Nat) (v : V)
  | setAtom (n : NodeId K) (i : Nat) (a : A)
  | setModamt (p : Engine.ParamId (NodeId K)) (v : Option V)
  | setProp (k : String) (a : A)
  | monitor (c : Cell (NodeId K))
  | toRepr
  | fromRepr (r : PatchRepr K V A PR BR)
  | editPat (i : Nat) (p : P)
  | editFun (i : Nat) (b : B)
  | poll
  | process (nframes : Nat)
  | dropOne
  | setSlope (n : Nat)

/-- The error of a call, if any. -/
def errOf {ε : Type} : Except ε Unit → Option ε
  | .ok _ => none
  | .error e => some e

/-- One call. The second component is its error. -/
def FM.step (s : FM K V A M σ P B) : FOp K V A P PR B BR → Option (FM K V A M σ P B × Option (MatrixError (NodeId K)))
  | .place x y c => some ({ s with grid := s.grid.place x y c }, none)
  | .placeCell c => some ({ s with grid := s.grid.placeCell c }, none)
  | .placeMultiple cs => (s.grid.placeMultiple cs).map (fun r => ({ s with grid := r.1 }, r.2))
  | .check => s.grid.check.map (fun r => ({ s with grid := r.1 }, r.2))
  | .save => some ({ s with grid := s.grid.saveMatrix }, none)
  | .restore => some ({ s with grid := s.grid.restoreMatrix }, none)
  | .sync => (s.sync T a0 run E).map (fun r => (r.1, errOf r.2))
  | .clear => (s.clear T a0 run E).map (fun s => (s, none))
  | .setInput n i v => (s.setParam T a0 run (.setInput n i v)).map (fun s => (s, none))
  | .setAtom n i a => (s.setParam T a0 run (.setAtom n i a)).map (fun s => (s, none))
  | .setModamt p v => (s.setModamt T a0 run E p v).map (fun r => (r.1, errOf r.2))
  | .setProp k a => some (s.setProp k a, none)
  | .monitor c => some (s.monitorCell c, none)
  | .toRepr => some ((s.toRepr E).1, none)
  | .fromRepr r => (s.fromRepr T a0 run E r).map (fun r => (r.1, errOf r.2))
  | .editPat i p => some ({ s with pats := Map.insert s.pats i p }, none)
  | .editFun i b => some ({ s with funs := Map.insert s.funs i b, engines := allocEngine s.engines i }, none)
  | .poll => (s.call T a0 run .poll).map (fun s => (s, none))
  | .process n => (s.call T a0 run (.process n)).map (fun s => (s, none))
  | .dropOne => (s.call T a0 run .dropOne).map (fun s => (s, none))
  | .setSlope n => (s.call T a0 run (.setSlope n)).map (fun s => (s, none))

end

end HexoDSP.Patch
