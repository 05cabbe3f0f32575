import Verif.Model.Engine
import Verif.Model.GraphOrdering
import Verif.Model.NodeId
/-!
# Model of `src/synth_constructor.rs` and of the builders in `src/build.rs`

The engine behind it is the world of `Verif/Model/Engine.lean`. `V` is the type of signal values (`f32`; comparison with `!=` is taken to be
that of `V`, so no NaN), `A` is `SAtom`. A `HashMap` is an association list, and iterating over it gives its entries in an arbitrary order (`Env.shN`,
`Env.shE`, `Env.shP`). Outputs of names that do not exist (which the builders can not make) end `upload` before the ports are rebuilt, not
after it.
-/

namespace HexoDSP.Synth
open HexoDSP.Table
open HexoDSP.Engine (World EOp Conf Conn NodeTable Value CallIn Block)
open HexoDSP.GraphOrdering (Ordering)

/-- `src/build.rs:39-44` `ConstructorOp`. A `ConstructorNode` (`src/build.rs:47-50`) is a node id and a shared list of operations, named by
a number. -/
inductive COp (V : Type) where
  | set (name : String) (v : V)
  | setMod (name : String) (v ma : V)
  | setting (name : String) (i : Int)
  | input (param : String) (node : NodeId × Nat) (out : String)

/-- The shared lists of operations (`Rc<RefCell<Vec<ConstructorOp>>>`). -/
abbrev Store (V : Type) := Nat → List (COp V)

/-- The calls of a builder: `set`, `set_mod` and `input` push an operation onto the list of the node, `src/build.rs:141-201`; an output that
was not chosen has the empty name and is not connected. -/
def Store.push {V : Type} (st : Store V) (r : Nat) (op : COp V) : Store V :=
  match op with
  | .input _ _ "" => st
  | _ => fun k => if k = r then st k ++ [op] else st k

/-- `src/synth_constructor.rs:47-57` `SynthError`. -/
inductive SynthError where
  | cycleDetected
  | badOutputName (id : NodeId) (name : String)
  | unknownParam (id : NodeId) (name : String)
  deriving DecidableEq

/-- `src/synth_constructor.rs:60-63` `NodeConfig`. -/
structure NodeConfig (V A : Type) where
  edges : List (String × (NodeId × String))
  params : List (String × (A × Option V))

/-- Conversions of values, and the orders in which `HashMap`s are iterated. -/
structure Env (V A : Type) where
  norm : Table.ParamId → V → V
  setting : Int → A
  param : V → A
  f : A → V
  shN : List (NodeId × NodeConfig V A) → List (NodeId × NodeConfig V A)
  shE : List (String × (NodeId × String)) → List (String × (NodeId × String))
  shP : List (String × (A × Option V)) → List (String × (A × Option V))

variable {V A M σ : Type}

/-- `src/synth_constructor.rs:66-68` `NodeConfig::new`. -/
def NodeConfig.new : NodeConfig V A := ⟨[], []⟩

/-- `src/synth_constructor.rs:70-72` `set_edge`. -/
def NodeConfig.setEdge (c : NodeConfig V A) (p : String) (src : NodeId) (out : String) : NodeConfig V A :=
  { c with edges := Map.insert c.edges p (src, out) }

/-- `src/synth_constructor.rs:74-76` `set_param`. -/
def NodeConfig.setParam (c : NodeConfig V A) (p : String) (v : A) (ma : Option V) : NodeConfig V A :=
  { c with params := Map.insert c.params p (v, ma) }

/-- `src/synth_constructor.rs:87-92` `SynthConstructor`, with the whole engine. `calls` is not in the code: the calls of the engine made so
far. -/
structure SC (V A M σ : Type) where
  nodes : List (NodeId × NodeConfig V A)
  ordering : Ordering NodeId
  world : World NodeId V A M σ
  calls : List (EOp NodeId V A M)

/-- What the loop over the operations of a node found. -/
structure Found where
  changed : Bool
  rebuild : Bool
  later : List (NodeId × Nat)

/-- `src/synth_constructor.rs:136-169`: the operations of a node, one after the other, until one fails. -/
def applyOps (E : Env V A) (id : NodeId) (only : Bool) : List (COp V) → NodeConfig V A → Found → NodeConfig V A × Found × Option SynthError
  | [], c, f => (c, f, none)
  | .setMod name v ma :: ops, c, f => match id.inpParam name with
    | some pid => applyOps E id only ops (c.setParam name (E.param (E.norm pid v)) (some ma)) { f with changed := true }
    | none => (c, f, some (.unknownParam id name))
  | .set name v :: ops, c, f => match id.inpParam name with
    | some pid => applyOps E id only ops (c.setParam name (E.param (E.norm pid v)) none) { f with changed := true }
    | none => (c, f, some (.unknownParam id name))
  | .setting name i :: ops, c, f => applyOps E id only ops (c.setParam name (E.setting i) none) { f with changed := true }
  | .input p node out :: ops, c, f =>
    if only then applyOps E id only ops c { f with later := f.later ++ [node] }
    else applyOps E id only ops (c.setEdge p node.1 out) { f with rebuild := true, later := f.later ++ [node] }

/-- The parameter of the engine. -/
def engineParam (pid : Table.ParamId) : Engine.ParamId NodeId :=
  if pid.isAtom then
    .atom pid.node (match pid.node with
      | .nop => 0
      | .node k _ => match (row k).atoms.find? (fun a => a.inIdx = pid.idx) with
        | some a => a.atIdx
        | none => 0)
  else .input pid.node pid.idx

/-- `src/nodes/node_conf.rs:454-460` `get_param` as an `SAtom`. -/
def getAtom (E : Env V A) (c : Conf NodeId V A) (pid : Table.ParamId) : Option A :=
  match c.getParam (engineParam pid) with
  | some (.num v) => some (E.param v)
  | some (.atom a) => some a
  | none => none

/-- The call `set_param(param_id, value)`. -/
def setCall (E : Env V A) (pid : Table.ParamId) (a : A) : EOp NodeId V A M :=
  match engineParam pid with
  | .input n i => .setInput n i (E.f a)
  | .atom n i => .setAtom n i a

section
variable [Add V] [Mul V] [Sub V] [Div V] [NatCast V] [OfNat V 0] [DecidableEq V] [DecidableEq A]
variable (T : NodeTable NodeId V A) (a0 : A) (run : σ → CallIn NodeId V A → σ × (Nat → Block V)) (E : Env V A)

/-- A call of the engine. -/
def SC.call (s : SC V A M σ) (op : EOp NodeId V A M) : Option (SC V A M σ) :=
  (s.world.step T a0 run op).map (fun r => { s with world := r.1, calls := s.calls ++ [op] })

/-- One parameter in `src/synth_constructor.rs:189-221`. The flag: the graph has to be rebuilt. -/
def updateParam (s : SC V A M σ) (id : NodeId) (name : String) (value : A) (modamt : Option V) :
    Option (SC V A M σ × Except SynthError Bool) :=
  match id.inpParam name with
  | none => some (s, .error (.unknownParam id name))
  | some pid =>
    let changedModamt := !pid.isAtom && (s.world.conf.getModamt (engineParam pid) != modamt)
    let changedValue := (getAtom E s.world.conf pid != some value) || changedModamt
    if changedValue then
      match s.call T a0 run (setCall E pid value) with
      | none => none
      | some s1 =>
        if changedModamt then
          let need := (s1.world.conf.setModamt (M := M) (engineParam pid) modamt).2.2
          (s1.call T a0 run (.setModamt (engineParam pid) modamt)).map (fun s2 => (s2, .ok need))
        else some (s1, .ok false)
    else some (s, .ok false)

/-- All parameters of a node, until one fails. -/
def updateParams (id : NodeId) : List (String × (A × Option V)) → SC V A M σ → Bool → Option (SC V A M σ × Except SynthError Bool)
  | [], s, b => some (s, .ok b)
  | (name, value, modamt) :: ps, s, b => match updateParam T a0 run E s id name value modamt with
    | none => none
    | some (s, .error e) => some (s, .error e)
    | some (s, .ok b') => updateParams id ps s (b || b')

/-- `src/synth_constructor.rs:185-225` `update_node_params`. -/
def SC.updateNodeParams (s : SC V A M σ) (id : NodeId) : Option (SC V A M σ × Except SynthError Bool) :=
  match s.nodes.lookup id with
  | none => some (s, .ok false)
  | some nc => updateParams T a0 run E id (E.shP nc.params) s false

/-- `src/synth_constructor.rs:176-180`: the nodes to walk afterwards, until one fails. -/
def walkList (walk : SC V A M σ → NodeId × Nat → Option (SC V A M σ × Except SynthError Bool)) :
    List (NodeId × Nat) → SC V A M σ → Bool → Option (SC V A M σ × Except SynthError Bool)
  | [], s, b => some (s, .ok b)
  | n :: ns, s, b => match walk s n with
    | none => none
    | some (s, .error e) => some (s, .error e)
    | some (s, .ok b') => walkList walk ns s (b || b')

/-- `src/synth_constructor.rs:118-183` `walk_upload`. The fuel is the depth of the call stack. -/
def walkUpload (st : Store V) (only : Bool) : Nat → SC V A M σ → NodeId × Nat → Option (SC V A M σ × Except SynthError Bool)
  | 0, _, _ => none
  | fuel + 1, s, node =>
    let nc := (s.nodes.lookup node.1).getD NodeConfig.new
    let r := applyOps E node.1 only (st node.2) nc ⟨false, false, []⟩
    let s := { s with nodes := Map.insert s.nodes node.1 r.1 }
    match r.2.2 with
    | some e => some (s, .error e)
    | none =>
      match (if only && r.2.1.changed then s.updateNodeParams T a0 run E node.1 else some (s, .ok false)) with
      | none => none
      | some (s, .error e) => some (s, .error e)
      | some (s, .ok b) => walkList (walkUpload st only fuel) r.2.1.later s (r.2.1.rebuild || b)

/-- `src/synth_constructor.rs:303-311`: the graph for the ordering. `none`: panic. -/
def orderingOf (o : Ordering NodeId) (nodes : List (NodeId × NodeConfig V A)) : Option (Ordering NodeId) :=
  (E.shN nodes).foldlM (fun o e => (E.shE e.2.edges).foldlM (fun o ed => o.addEdge e.1 ed.2.1) (o.addNode e.1).1) o.clear

/-- `src/synth_constructor.rs:318-324`: create the nodes and set their parameters. -/
def createAll : List NodeId → SC V A M σ → Option (SC V A M σ × Except SynthError Unit)
  | [], s => some (s, .ok ())
  | id :: ids, s =>
    match (if (s.world.conf.uniqueIndexFor id).isNone then s.call T a0 run (.createNode id) else some s) with
    | none => none
    | some s => match s.updateNodeParams T a0 run E id with
      | none => none
      | some (s, .error e) => some (s, .error e)
      | some (s, .ok _) => createAll ids s

/-- `src/synth_constructor.rs:334-351`: the connections of one node. -/
def wiresOf (id : NodeId) : List (String × (NodeId × String)) → Except SynthError (List (Conn NodeId))
  | [] => .ok []
  | (p, src, out) :: es => match id.inp p with
    | none => .error (.unknownParam id p)
    | some i => match src.out out with
      | none => .error (.badOutputName src out)
      | some o => match wiresOf id es with
        | .error e => .error e
        | .ok ws => .ok (⟨id, i, src, o⟩ :: ws)

/-- `src/synth_constructor.rs:333-352`: the connections of one node, if it is known. -/
def nodeWires (nodes : List (NodeId × NodeConfig V A)) (id : NodeId) : Except SynthError (List (Conn NodeId)) :=
  match nodes.lookup id with
  | none => .ok []
  | some nc => wiresOf id (E.shE nc.edges)

/-- `src/synth_constructor.rs:332-353`: the connections of all nodes. -/
def allWires (nodes : List (NodeId × NodeConfig V A)) : List NodeId → Except SynthError (List (Conn NodeId))
  | [] => .ok []
  | id :: ids => match nodeWires E nodes id with
    | .error e => .error e
    | .ok ws => match allWires nodes ids with
      | .error e => .error e
      | .ok ws' => .ok (ws ++ ws')

/-- `src/synth_constructor.rs:299-357` `upload`. `none`: panic (or the call stack is exhausted). -/
def SC.upload (fuel : Nat) (st : Store V) (s : SC V A M σ) (node : NodeId × Nat) : Option (SC V A M σ × Except SynthError Unit) :=
  match walkUpload T a0 run E st false fuel s node with
  | none => none
  | some (s, .error e) => some (s, .error e)
  | some (s, .ok _) => match orderingOf E s.ordering s.nodes with
    | none => none
    | some o => match o.calculateOrder [] with
      | none => none
      | some (o, _, false) => some ({ s with ordering := o }, .error .cycleDetected)
      | some (o, order, true) => match createAll T a0 run E order.reverse { s with ordering := o } with
        | none => none
        | some (s, .error e) => some (s, .error e)
        | some (s, .ok _) => match allWires E s.nodes order.reverse with
          | .error e => some (s, .error e)
          | .ok ws => (s.call T a0 run (.sync order.reverse ws true)).map (fun s => (s, .ok ()))

/-- `src/synth_constructor.rs:240-249` `update_params`. -/
def SC.updateParams (fuel : Nat) (st : Store V) (s : SC V A M σ) (node : NodeId × Nat) : Option (SC V A M σ × Except SynthError Bool) :=
  match walkUpload T a0 run E st true fuel s node with
  | none => none
  | some (s, .error e) => some (s, .error e)
  | some (s, .ok true) => match s.upload T a0 run E fuel st node with
    | none => none
    | some (s, .error e) => some (s, .error e)
    | some (s, .ok _) => some (s, .ok true)
  | some (s, .ok false) => some (s, .ok false)

/-- `src/synth_constructor.rs:107-111` `clear`. -/
def SC.clear (s : SC V A M σ) : Option (SC V A M σ) :=
  { s with ordering := s.ordering.clear, nodes := [] }.call T a0 run .deleteNodes

/-- `src/synth_constructor.rs:95-104` `new`. -/
def SC.new (st : σ) : SC V A M σ := ⟨[], Ordering.new, World.new st, []⟩

/-- The calls of the API, each with the operations the builders have pushed so far, and what the other threads do in between. -/
inductive SOp (V : Type) where
  | upload (st : Store V) (node : NodeId × Nat)
  | updateParams (st : Store V) (node : NodeId × Nat)
  | clear
  | poll
  | process (nframes : Nat)
  | dropOne

/-- One call. -/
def SC.step (fuel : Nat) (s : SC V A M σ) : SOp V → Option (SC V A M σ)
  | .upload st n => (s.upload T a0 run E fuel st n).map (·.1)
  | .updateParams st n => (s.updateParams T a0 run E fuel st n).map (·.1)
  | .clear => s.clear T a0 run
  | .poll => s.call T a0 run .poll
  | .process n => s.call T a0 run (.process n)
  | .dropOne => s.call T a0 run .dropOne

end

end HexoDSP.Synth
