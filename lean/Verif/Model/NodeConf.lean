import Verif.Model.Map
import Verif.Model.NodeProg
/-!
# Model of `src/nodes/node_conf.rs` (the frontend side of the engine)

The configurator allocates node instances, assigns them regions of the global port index spaces,
remembers parameter values and sends messages to the executor.

Simplifications:
* the table of node types (`src/dsp/mod.rs:1419-1784`) is the parameter `NodeTable`: it gives the
  number of ports and the default values of a node id, and the inputs (atoms) of a node are numbered
  `0 .. inCount` (`0 .. atCount`), which is what `inp_param_by_idx` and `atom_param_by_idx` look up;
* a `ParamId` is a node id with an input number or with an atom number;
* loading a sample on `set_param` of an audio sample atom is not part of this model;
* the message queue belongs to the caller: functions that send return the messages.
-/

namespace HexoDSP.Engine

variable {N V A : Type} [DecidableEq N]

/-- What `src/dsp/mod.rs:1419-1784`, `2232-2275`, `2583-2585` tell about node ids. -/
structure NodeTable (N V A : Type) where
  outCount : N → Nat
  inCount : N → Nat
  atCount : N → Nat
  normDef : N → Nat → V
  atomDef : N → Nat → A

/-- `src/dsp/mod.rs:1964-1968` `struct ParamId`. -/
inductive ParamId (N : Type) where
  | input (n : N) (i : Nat)
  | atom (n : N) (i : Nat)
  deriving DecidableEq, Repr

/-- `src/nodes/node_conf.rs:27-66` `struct NodeInstance`. -/
structure NodeInstance (N : Type) where
  id : N
  inUse : Bool
  progIdx : Nat
  outR : Nat × Nat
  inR : Nat × Nat
  atR : Nat × Nat
  modR : Nat × Nat
  in2mod : List (Option Nat)
  deriving Repr, DecidableEq

/-- `src/nodes/node_conf.rs:75-87` `as_op`. The index is truncated to `u8`. -/
def NodeInstance.asOp (ni : NodeInstance N) : NodeOp N :=
  { idx := ni.progIdx % 256, node := ni.id, outR := ni.outR, inR := ni.inR, atR := ni.atR,
    modR := ni.modR, inputs := [], inConnected := 0, outConnected := 0 }

/-- `src/nodes/node_conf.rs:89-94` `mod_in_local2global`. The outer `none` is a panic: the guard lets
the index equal to the length of the map (32) through. -/
def NodeInstance.modLocal2Global (ni : NodeInstance N) (i : Nat) : Option (Option Nat) :=
  if i > ni.in2mod.length then some none else ni.in2mod[i]?

/-- `src/nodes/node_conf.rs:96-103` `in_local2global`. -/
def NodeInstance.inLocal2Global (ni : NodeInstance N) (i : Nat) : Option Nat :=
  if ni.inR.1 + i < ni.inR.2 then some (ni.inR.1 + i) else none

/-- `src/nodes/node_conf.rs:105-112` `out_local2global`. -/
def NodeInstance.outLocal2Global (ni : NodeInstance N) (i : Nat) : Option Nat :=
  if ni.outR.1 + i < ni.outR.2 then some (ni.outR.1 + i) else none

/-- `src/nodes/node_conf.rs:154-159` `struct NodeInputParam`. -/
structure NodeInputParam (V : Type) where
  inputIdx : Nat
  value : V
  modamt : Option (Nat × V)
  deriving Repr

/-- `src/nodes/node_conf.rs:162-166` `struct NodeInputAtom`. -/
structure NodeInputAtom (A : Type) where
  atIdx : Nat
  value : A
  deriving Repr

/-- The part of `src/nodes/node_conf.rs:169-260` `struct NodeConfigurator` that is modelled. An entry
of `nodes` is a node id with its instance data, absent until the ports are rebuilt. -/
structure Conf (N V A : Type) where
  nodes : List (N × Option (NodeInstance N))
  node2idx : List (N × Nat)
  params : List ((N × Nat) × NodeInputParam V)
  paramValues : List ((N × Nat) × V)
  paramModamt : List ((N × Nat) × Option V)
  atoms : List ((N × Nat) × NodeInputAtom A)
  atomValues : List ((N × Nat) × A)

/-- `src/nodes/node_conf.rs:268-340` `NodeConfigurator::new`. -/
def Conf.new : Conf N V A :=
  { nodes := [], node2idx := [], params := [], paramValues := [], paramModamt := [], atoms := [],
    atomValues := [] }

/-- `src/nodes/mod.rs:44-74` `enum GraphMessage`. `M` is the type of MIDI events. -/
inductive Msg (N V A M : Type) where
  | clear (prog : NodeProg N V A)
  | newProg (prog : NodeProg N V A) (copyOldOut : Bool)
  | atomUpdate (atIdx : Nat) (value : A)
  | paramUpdate (inputIdx : Nat) (value : V)
  | modamtUpdate (modIdx : Nat) (modamt : V)
  | setMonitor (bufs : List Nat)
  | injectMidi (ev : M)

variable {M : Type}

/-- `src/nodes/node_conf.rs:383-385` `unique_index_for`. -/
def Conf.uniqueIndexFor (c : Conf N V A) (n : N) : Option Nat := c.node2idx.lookup n

/-- `src/nodes/node_conf.rs:387-401` `node_by_id`, restricted to entries with instance data (all
callers match on `Some`). -/
def Conf.instanceOf (c : Conf N V A) (n : N) : Option (NodeInstance N) :=
  match c.uniqueIndexFor n with
  | none => none
  | some i => (c.nodes[i]?).bind (fun e => e.2)

/-- `src/nodes/node_conf.rs:406-408` `get_param_modamt`. -/
def Conf.getModamt (c : Conf N V A) : ParamId N → Option V
  | .input n i => (c.paramModamt.lookup (n, i)).join
  | .atom _ _ => none

/-- `src/nodes/node_conf.rs:414-451` `set_param_modamt`: the new state, the messages sent and whether
a new program is needed. -/
def Conf.setModamt [OfNat V 0] (c : Conf N V A) (p : ParamId N) (v : Option V) :
    Conf N V A × List (Msg N V A M) × Bool :=
  match p with
  | .atom _ _ => (c, [], false)
  | .input n i =>
    let k := (n, i)
    let modIdx : Option Nat := ((c.params.lookup k).bind (fun np => np.modamt)).map (fun m => m.1)
    let params := match c.params.lookup k with
      | none => c.params
      | some np =>
        match np.modamt with
        | none => c.params
        | some m => Map.insert c.params k { np with modamt := some (m.1, v.getD 0) }
    let old := (c.paramModamt.lookup k).join
    let c := { c with params := params, paramModamt := Map.insert c.paramModamt k v }
    match old, v with
    | some _, none => (c, [], true)
    | some _, some m =>
      (c, match modIdx with
          | some mi => [.modamtUpdate mi m]
          | none => [], false)
    | none, _ => (c, [], true)

/-- Values of parameters and atoms (`SAtom` in the code). -/
inductive Value (V A : Type) where
  | num (v : V)
  | atom (a : A)
  deriving DecidableEq, Repr

/-- `src/nodes/node_conf.rs:454-460` `get_param`. -/
def Conf.getParam (c : Conf N V A) : ParamId N → Option (Value V A)
  | .input n i => (c.paramValues.lookup (n, i)).map .num
  | .atom n i => (c.atomValues.lookup (n, i)).map .atom

/-- `src/nodes/node_conf.rs:500-513` `set_param` of an input parameter. -/
def Conf.setInput (c : Conf N V A) (n : N) (i : Nat) (v : V) : Conf N V A × List (Msg N V A M) :=
  let c := { c with paramValues := Map.insert c.paramValues (n, i) v }
  match c.params.lookup (n, i) with
  | none => (c, [])
  | some np =>
    ({ c with params := Map.insert c.params (n, i) { np with value := v } },
     [.paramUpdate np.inputIdx v])

/-- `src/nodes/node_conf.rs:489-499` `set_param` of an atom. -/
def Conf.setAtom (c : Conf N V A) (n : N) (i : Nat) (a : A) : Conf N V A × List (Msg N V A M) :=
  let c := { c with atomValues := Map.insert c.atomValues (n, i) a }
  match c.atoms.lookup (n, i) with
  | none => (c, [])
  | some na =>
    ({ c with atoms := Map.insert c.atoms (n, i) { na with value := a } },
     [.atomUpdate na.atIdx a])

/-- `src/nodes/node_conf.rs:710-720` `delete_nodes`. -/
def Conf.deleteNodes (_c : Conf N V A) : Conf N V A × List (Msg N V A M) :=
  (Conf.new, [.clear NodeProg.empty])

/-- `src/nodes/node_conf.rs:722-733` `create_node` (of a node type other than `Nop`). -/
def Conf.createNode (c : Conf N V A) (n : N) : Conf N V A :=
  { c with node2idx := Map.insert c.node2idx n c.nodes.length, nodes := c.nodes ++ [(n, none)] }

/-- `src/nodes/node_conf.rs:746-756` `unused_instance_node_id` with a bound on the iterations of the
loop; `next` is `id.to_instance(id.instance() + 1)`. `none`: the bound is reached. -/
def Conf.unusedInstance (c : Conf N V A) (next : N → N) : Nat → N → Option N
  | 0, _ => none
  | fuel + 1, id =>
    match c.instanceOf id with
    | none => some id
    | some ni => if ni.inUse then c.unusedInstance next fuel (next id) else some ni.id

/-! ## `rebuild_node_ports`, `src/nodes/node_conf.rs:766-867` -/

/-- Variables changed by the loop over the inputs of one node. -/
structure InputAcc (N V : Type) where
  modLen : Nat
  in2mod : List (Option Nat)
  params : List ((N × Nat) × NodeInputParam V)
  paramValues : List ((N × Nat) × V)

/-- `src/nodes/node_conf.rs:807-841`: one input. `set_mod_idx` writes into an array of 32 entries;
no node type has more inputs. -/
def rebuildInput (T : NodeTable N V A) (amts : List ((N × Nat) × Option V)) (id : N) (inIdx : Nat)
    (s : InputAcc N V) (i : Nat) : InputAcc N V :=
  let value := (s.paramValues.lookup (id, i)).getD (T.normDef id i)
  let paramValues := Map.insert s.paramValues (id, i) value
  match (amts.lookup (id, i)).join with
  | some ma =>
    { modLen := s.modLen + 1
      in2mod := s.in2mod.set i (some s.modLen)
      params := Map.insert s.params (id, i)
        { inputIdx := inIdx + i, value := value, modamt := some (s.modLen, ma) }
      paramValues := paramValues }
  | none =>
    { modLen := s.modLen
      in2mod := s.in2mod
      params := Map.insert s.params (id, i) { inputIdx := inIdx + i, value := value, modamt := none }
      paramValues := paramValues }

/-- Variables changed by the loop over the atoms of one node. -/
structure AtomAcc (N A : Type) where
  atoms : List ((N × Nat) × NodeInputAtom A)
  atomValues : List ((N × Nat) × A)

/-- `src/nodes/node_conf.rs:848-862`: one atom. -/
def rebuildAtom (T : NodeTable N V A) (id : N) (atIdx : Nat) (s : AtomAcc N A) (i : Nat) :
    AtomAcc N A :=
  let value := (s.atomValues.lookup (id, i)).getD (T.atomDef id i)
  { atoms := Map.insert s.atoms (id, i) { atIdx := atIdx + i, value := value }
    atomValues := Map.insert s.atomValues (id, i) value }

/-- Variables changed by the loop over the nodes. -/
structure Rebuild (N V A : Type) where
  nodes : List (N × Option (NodeInstance N))
  outLen : Nat
  inLen : Nat
  atLen : Nat
  modLen : Nat
  params : List ((N × Nat) × NodeInputParam V)
  paramValues : List ((N × Nat) × V)
  atoms : List ((N × Nat) × NodeInputAtom A)
  atomValues : List ((N × Nat) × A)

/-- `src/nodes/node_conf.rs:776-864`: one node. The number of nodes handled before it is its index.
The `break` on `Nop` never happens: `create_node` does not create such an entry. -/
def rebuildNode (T : NodeTable N V A) (amts : List ((N × Nat) × Option V)) (s : Rebuild N V A)
    (id : N) : Rebuild N V A :=
  let ins := (List.range (T.inCount id)).foldl (rebuildInput T amts id s.inLen)
    { modLen := s.modLen, in2mod := List.replicate 32 none, params := s.params,
      paramValues := s.paramValues }
  let ats := (List.range (T.atCount id)).foldl (rebuildAtom T id s.atLen)
    { atoms := s.atoms, atomValues := s.atomValues }
  { nodes := s.nodes ++ [(id, some
      { id := id, inUse := false, progIdx := s.nodes.length
        outR := (s.outLen, s.outLen + T.outCount id)
        inR := (s.inLen, s.inLen + T.inCount id)
        atR := (s.atLen, s.atLen + T.atCount id)
        modR := (s.modLen, ins.modLen)
        in2mod := ins.in2mod })]
    outLen := s.outLen + T.outCount id
    inLen := s.inLen + T.inCount id
    atLen := s.atLen + T.atCount id
    modLen := ins.modLen
    params := ins.params
    paramValues := ins.paramValues
    atoms := ats.atoms
    atomValues := ats.atomValues }

/-- The loop of `rebuild_node_ports` over all nodes. -/
def Conf.rebuildLoop (T : NodeTable N V A) (c : Conf N V A) : Rebuild N V A :=
  (c.nodes.map (fun e => e.1)).foldl (rebuildNode T c.paramModamt)
    { nodes := [], outLen := 0, inLen := 0, atLen := 0, modLen := 0, params := [],
      paramValues := c.paramValues, atoms := [], atomValues := c.atomValues }

/-- `src/nodes/node_conf.rs:766-867` `rebuild_node_ports`. -/
def Conf.rebuildPorts [OfNat V 0] (T : NodeTable N V A) (a0 : A) (c : Conf N V A) (h : Heap V) :
    Conf N V A × NodeProg N V A × Heap V :=
  let r := c.rebuildLoop T
  let (prog, h) := NodeProg.new a0 h r.outLen r.inLen r.atLen r.modLen
  ({ c with nodes := r.nodes, params := r.params, paramValues := r.paramValues, atoms := r.atoms,
            atomValues := r.atomValues }, prog, h)

/-- `mark_used` of a node, `src/nodes/node_conf.rs:68-70`. -/
def Conf.markUsed (c : Conf N V A) (n : N) : Conf N V A :=
  match c.uniqueIndexFor n with
  | none => c
  | some i =>
    { c with nodes := c.nodes.modify i (fun e => (e.1, e.2.map (fun ni => { ni with inUse := true }))) }

/-- `src/nodes/node_conf.rs:874-880` `add_prog_node`. -/
def Conf.addProgNode (c : Conf N V A) (p : NodeProg N V A) (n : N) : Conf N V A × NodeProg N V A :=
  match c.instanceOf n with
  | none => (c, p)
  | some ni => (c.markUsed n, p.appendOp ni.asOp)

/-- A connection handed to `set_prog_node_exec_connection`. -/
structure Conn (N : Type) where
  dst : N
  dstIn : Nat
  src : N
  srcOut : Nat
  deriving Repr, DecidableEq

/-- `src/nodes/node_conf.rs:891-914` `set_prog_node_exec_connection`; `none` is a panic. -/
def Conf.connect (c : Conf N V A) (p : NodeProg N V A) (e : Conn N) :
    Option (Conf N V A × NodeProg N V A) :=
  match c.instanceOf e.src with
  | none => some (c, p)
  | some si =>
    match c.instanceOf e.dst with
    | none => some (c, p)
    | some di =>
      (di.modLocal2Global e.dstIn).map (fun md =>
        (c.markUsed e.dst,
         match di.inLocal2Global e.dstIn, si.outLocal2Global e.srcOut with
         | some g, some o => p.appendEdge di.asOp g o md
         | _, _ => p))

/-- `src/nodes/node_conf.rs:956-962`: one parameter copied into the program. Both index expressions
are in range (see the theorems about the port regions). -/
def storeParam (p : NodeProg N V A) (np : NodeInputParam V) : NodeProg N V A :=
  { p with
    params := p.params.set np.inputIdx np.value
    modops := match np.modamt with
      | none => p.modops
      | some m => p.modops.modify m.1 (fun mo => mo.setAmt m.2) }

/-- `src/nodes/node_conf.rs:965-967`: one atom copied into the program. -/
def storeAtom (p : NodeProg N V A) (na : NodeInputAtom A) : NodeProg N V A :=
  { p with atoms := p.atoms.set na.atIdx na.value }

/-- `src/nodes/node_conf.rs:952-972` `upload_prog` up to sending the message. -/
def Conf.fillProg (c : Conf N V A) (p : NodeProg N V A) : NodeProg N V A :=
  (c.atoms.map (fun e => e.2)).foldl storeAtom ((c.params.map (fun e => e.2)).foldl storeParam p)

/-- `src/nodes/node_conf.rs:677-704` `monitor`: the indices sent to the executor. -/
def monitorBufs (ni : NodeInstance N) (ins outs : List (Option Nat)) : List Nat :=
  let unused := 99999
  let i := (ins.take 3).map (fun o => (o.bind ni.inLocal2Global).getD unused)
  let o := (outs.take 3).map (fun o => (o.bind ni.outLocal2Global).getD unused)
  i ++ o ++ List.replicate (6 - (i.length + o.length)) unused

/-- `src/nodes/node_conf.rs:677-704` `monitor`. -/
def Conf.monitor (c : Conf N V A) (n : N) (ins outs : List (Option Nat)) : List (Msg N V A M) :=
  match c.instanceOf n with
  | none => []
  | some ni => [.setMonitor (monitorBufs ni ins outs)]

/-- `src/nodes/node_conf.rs:981-987` `out_fb_for`. `values` is what `update_output_feedback`
(`994-1003`) read from the feedback channel of the program uploaded last. -/
def Conf.outFbFor (c : Conf N V A) (values : List V) (n : N) (k : Nat) : Option V :=
  match c.instanceOf n with
  | none => none
  | some ni =>
    match ni.outLocal2Global k with
    | none => none
    | some g => values[g]?

/-- `src/matrix.rs:1373-1387`: rebuild the ports, add the nodes in order, then the connections.
`none` is a panic. -/
def Conf.buildProg [OfNat V 0] (T : NodeTable N V A) (a0 : A) (c : Conf N V A) (h : Heap V)
    (order : List N) (edges : List (Conn N)) : Option (Conf N V A × NodeProg N V A × Heap V) :=
  let (c, p, h) := c.rebuildPorts T a0 h
  let (c, p) := order.foldl (fun (s : Conf N V A × NodeProg N V A) n => s.1.addProgNode s.2 n) (c, p)
  (edges.foldlM (fun (s : Conf N V A × NodeProg N V A) e => s.1.connect s.2 e) (c, p)).map
    (fun s => (s.1, s.2, h))

end HexoDSP.Engine
