import Verif.Model.NodeTable
import Mathlib.Data.Fintype.Basic
/-!
# Model of `NodeId`, `ParamId` and `NodeInfo`, `src/dsp/mod.rs:1862-2604` `make_node_info_enum!`

The macro makes one `match` arm of every row of the table; a `match` takes the first arm that fits, which is `List.find?`.
-/

namespace HexoDSP.Table

/-- `src/dsp/mod.rs:2132-2136` `enum NodeId`: `Nop` or a variant (the number of its row) and the instance, a `u8`. -/
inductive NodeId where
  | nop
  | node (k : Fin nodeTable.length) (inst : Fin 256)
  deriving DecidableEq

/-- `src/dsp/mod.rs:1964-1968` `struct ParamId`. -/
structure ParamId where
  name : String
  node : NodeId
  idx : Nat
  deriving DecidableEq

/-- The row of the table a variant is made of. -/
def row (k : Fin nodeTable.length) : NodeRow := nodeTable.get k

namespace NodeId

/-- `src/dsp/mod.rs:2355-2360` `instance`. -/
def inst : NodeId → Nat
  | .nop => 0
  | .node _ i => i

/-- `src/dsp/mod.rs:2148-2153` `to_instance`: `instance as u8`. -/
def toInstance (id : NodeId) (i : Nat) : NodeId :=
  match id with
  | .nop => .nop
  | .node k _ => .node k (Fin.ofNat 256 i)

/-- `src/dsp/mod.rs:2173-2178` `label`. -/
def label : NodeId → String
  | .nop => "Nop"
  | .node k _ => (row k).label

/-- `src/dsp/mod.rs:2180-2185` `name`. -/
def name : NodeId → String
  | .nop => "nop"
  | .node k _ => (row k).name

/-- `src/dsp/mod.rs:2187-2193` `from_str`. -/
def fromStr (s : String) : NodeId :=
  if s = "nop" then .nop
  else
    match (List.finRange nodeTable.length).find? (fun k => (row k).name = s) with
    | some k => .node k 0
    | none => .nop

/-- `src/dsp/mod.rs:2162-2169` `eq_variant`. -/
def eqVariant (a b : NodeId) : Bool :=
  match a, b with
  | .nop, .nop => true
  | .node k _, .node l _ => k = l
  | _, _ => false

/-- `src/dsp/mod.rs:2232-2246` `atom_param_by_idx`. -/
def atomParamByIdx (id : NodeId) (i : Nat) : Option ParamId :=
  match id with
  | .nop => none
  | .node k _ => ((row k).atoms.find? (fun a => a.atIdx = i)).map (fun a => ⟨a.name, id, a.inIdx⟩)

/-- `src/dsp/mod.rs:2248-2262` `inp_param_by_idx`. -/
def inpParamByIdx (id : NodeId) (i : Nat) : Option ParamId :=
  match id with
  | .nop => none
  | .node k _ => ((row k).params.find? (fun p => p.idx = i)).map (fun p => ⟨p.name, id, p.idx⟩)

/-- `src/dsp/mod.rs:2264-2283` `param_by_idx`. -/
def paramByIdx (id : NodeId) (i : Nat) : Option ParamId :=
  match id with
  | .nop => none
  | .node k _ =>
    match (row k).params.find? (fun p => p.idx = i) with
    | some p => some ⟨p.name, id, p.idx⟩
    | none => ((row k).atoms.find? (fun a => a.inIdx = i)).map (fun a => ⟨a.name, id, a.inIdx⟩)

/-- `src/dsp/mod.rs:2285-2304` `inp_param`. -/
def inpParam (id : NodeId) (s : String) : Option ParamId :=
  match id with
  | .nop => none
  | .node k _ =>
    match (row k).params.find? (fun p => p.name = s) with
    | some p => some ⟨p.name, id, p.idx⟩
    | none => ((row k).atoms.find? (fun a => a.name = s)).map (fun a => ⟨a.name, id, a.inIdx⟩)

/-- `src/dsp/mod.rs:2306-2316` `inp`. -/
def inp (id : NodeId) (s : String) : Option Nat :=
  match id with
  | .nop => none
  | .node k _ => ((row k).params.find? (fun p => p.name = s)).map (·.idx)

/-- `src/dsp/mod.rs:2318-2329` `inp_name_by_idx`. -/
def inpNameByIdx (id : NodeId) (i : Nat) : Option String :=
  match id with
  | .nop => none
  | .node k _ =>
    match (row k).params.find? (fun p => p.idx = i) with
    | some p => some p.name
    | none => ((row k).atoms.find? (fun a => a.inIdx = i)).map (·.name)

/-- `src/dsp/mod.rs:2331-2341` `out_name_by_idx`. -/
def outNameByIdx (id : NodeId) (i : Nat) : Option String :=
  match id with
  | .nop => none
  | .node k _ => ((row k).outs.find? (fun o => o.idx = i)).map (·.name)

/-- `src/dsp/mod.rs:2343-2353` `out`. -/
def out (id : NodeId) (s : String) : Option Nat :=
  match id with
  | .nop => none
  | .node k _ => ((row k).outs.find? (fun o => o.name = s)).map (·.idx)

end NodeId

/-- `src/dsp/mod.rs:2363` `ALL_NODE_IDS`. -/
def allNodeIds : List NodeId := (List.finRange nodeTable.length).map (fun k => .node k 0)

namespace ParamId

/-- `src/dsp/mod.rs:1986-1997` `is_atom`. -/
def isAtom (p : ParamId) : Bool :=
  match p.node with
  | .nop => false
  | .node k _ =>
    match (row k).params.find? (fun r => r.idx = p.idx) with
    | some _ => false
    | none => ((row k).atoms.find? (fun a => a.inIdx = p.idx)).isSome

/-- `src/dsp/mod.rs:2048-2058` `setting_min_max`. -/
def settingMinMax (p : ParamId) : Option (Int × Int) :=
  match p.node with
  | .nop => none
  | .node k _ => ((row k).atoms.find? (fun a => a.inIdx = p.idx)).map (fun a => (a.min, a.max))

/-- The row of an input parameter. -/
def paramRow (p : ParamId) : Option ParamRow :=
  match p.node with
  | .nop => none
  | .node k _ => (row k).params.find? (fun r => r.idx = p.idx)

/-- `src/dsp/mod.rs:2023-2033` `param_min_max` without the steps. -/
def paramMinMax (p : ParamId) : Option (Rat × Rat) := p.paramRow.map (fun r => (r.min, r.max))

end ParamId

/-- `src/dsp/mod.rs:1872-1884` `struct NodeInfo`: the lists of names, made by `src/dsp/mod.rs:2500-2535`. -/
structure NodeInfo where
  nodeId : NodeId
  inputs : List String
  atoms : List String
  outputs : List String

namespace NodeInfo

/-- `src/dsp/mod.rs:1911-1929` `from_node_id`. -/
def fromNodeId (id : NodeId) : NodeInfo :=
  match id with
  | .nop => ⟨.nop, [], [], []⟩
  | .node k _ => ⟨id, (row k).params.map (·.name), (row k).atoms.map (·.name), (row k).outs.map (·.name)⟩

/-- `src/dsp/mod.rs:2548-2554` `in_name`. -/
def inName (n : NodeInfo) (i : Nat) : Option String :=
  match n.inputs[i]? with
  | some s => some s
  | none => n.atoms[i]?

/-- `src/dsp/mod.rs:2556-2558` `at_name`. -/
def atName (n : NodeInfo) (i : Nat) : Option String := n.atoms[i]?

/-- `src/dsp/mod.rs:2560-2562` `out_name`. -/
def outName (n : NodeInfo) (i : Nat) : Option String := n.outputs[i]?

/-- `src/dsp/mod.rs:2583-2585` `out_count`, `in_count`, `at_count`. -/
def inCount (n : NodeInfo) : Nat := n.inputs.length
/-- see `inCount` -/
def atCount (n : NodeInfo) : Nat := n.atoms.length
/-- see `inCount` -/
def outCount (n : NodeInfo) : Nat := n.outputs.length

end NodeInfo

end HexoDSP.Table
