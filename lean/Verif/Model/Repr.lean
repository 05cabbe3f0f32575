import Verif.Model.Block
import Verif.Model.NodeId
import Verif.Model.Tracker
import Mathlib.Data.String.Basic
import Mathlib.Data.Prod.Lex
import Mathlib.Data.List.Sort
/-!
# Model of the patch representation and its documents, `src/matrix_repr.rs`

`F` is the type of `f32`. Printing and parsing of documents is outside the model (`Verif/Model/Json.lean`), the file functions are modelled in
`Verif/Model/Save.lean`.
-/

namespace HexoDSP.Repr
open HexoDSP.Json HexoDSP.Table
open HexoDSP.Tracker (PatternRepr)

/-- `src/dsp/satom.rs:6-12` `enum SAtom`. -/
inductive SAtom (F : Type) where
  | str (s : String)
  | micro (l : List F)
  | audio (name : String) (samples : Option (List F))
  | setting (i : Int)
  | param (x : F)

/-- `src/matrix_repr.rs:9-16` `struct CellRepr`; the ports are `i16`. -/
structure CellRepr where
  nodeId : NodeId
  x : Nat
  y : Nat
  inp : Int × Int × Int
  out : Int × Int × Int
  deriving DecidableEq

/-- `src/matrix_repr.rs:184-193` `struct MatrixRepr`. -/
structure MatrixRepr (F : Type) where
  cells : List CellRepr
  params : List (ParamId × F × Option F)
  atoms : List (ParamId × SAtom F)
  patterns : List (Option PatternRepr)
  properties : List (String × SAtom F)
  blockFuns : List (Option Block.Snapshot)
  version : Int

/-- `src/matrix_repr.rs:288-297` `MatrixRepr::empty`. -/
def MatrixRepr.empty {F : Type} : MatrixRepr F :=
  { cells := [], params := [], atoms := [], patterns := [], properties := [], blockFuns := [], version := 2 }

/-- A call that fails: `src/matrix_repr.rs:195-204` `enum MatrixDeserError`, without the texts of `UnknownParamId` and `InvalidAtom`, or a
panic. -/
inductive Fail where
  | panic
  | badVersion
  | unknownNode (s : String)
  | unknownParamId
  | invalidAtom
  deriving DecidableEq

variable {F : Type} (O : Floats F)

/-- `v as i16` -/
def asI16 (i : Int) : Int := (i + 32768) % 65536 - 32768
/-- `v as i32` -/
def asI32 (i : Int) : Int := (i + 2147483648) % 4294967296 - 2147483648
/-- `v as u8` -/
def asU8 (i : Int) : Nat := (i % 256).toNat

/-- `v.as_i64().unwrap_or(0) as usize` -/
def usizeOf (v : Value F) : Nat := i64AsUsize (v.asI64.getD 0)

/-- `src/matrix_repr.rs:18-25` `deserialize_node_id`. -/
def deserNodeId (v : Value F) (i1 i2 : Nat) : Except Fail NodeId :=
  let s := (v.at i1).asStr.getD "???"
  let nid := NodeId.fromStr s
  if nid = .nop then .error (.unknownNode s) else .ok (nid.toInstance (usizeOf (v.at i2)))

/-- `src/matrix_repr.rs:27-35` `inp2idx`. -/
def inp2idx (id : NodeId) (v : Value F) : Int :=
  let inp := asI16 (v.asI64.getD (-2))
  if inp > -2 then inp
  else match v.asStr with
    | none => -1
    | some s => match id.inp s with
      | none => -1
      | some i => i

/-- `src/matrix_repr.rs:37-45` `out2idx`. -/
def out2idx (id : NodeId) (v : Value F) : Int :=
  let out := asI16 (v.asI64.getD (-2))
  if out > -2 then out
  else match v.asStr with
    | none => -1
    | some s => match id.out s with
      | none => -1
      | some i => i

/-- `src/matrix_repr.rs:47-53` `inp_idx2value`. -/
def inpIdx2value (id : NodeId) (idx : Int) : Value F :=
  if idx = -1 then .int (-1)
  else match id.inpNameByIdx (asU8 idx) with
    | none => .int (-1)
    | some s => .str s

/-- `src/matrix_repr.rs:55-61` `out_idx2value`. -/
def outIdx2value (id : NodeId) (idx : Int) : Value F :=
  if idx = -1 then .int (-1)
  else match id.outNameByIdx (asU8 idx) with
    | none => .int (-1)
    | some s => .str s

/-- `src/matrix_repr.rs:64-81` `CellRepr::serialize`. -/
def CellRepr.serialize (c : CellRepr) : Value F :=
  .arr [.str c.nodeId.name, .int c.nodeId.inst, .int c.x, .int c.y,
    .arr [inpIdx2value c.nodeId c.inp.1, inpIdx2value c.nodeId c.inp.2.1, inpIdx2value c.nodeId c.inp.2.2],
    .arr [outIdx2value c.nodeId c.out.1, outIdx2value c.nodeId c.out.2.1, outIdx2value c.nodeId c.out.2.2]]

/-- `src/matrix_repr.rs:83-101` `CellRepr::deserialize`. -/
def CellRepr.deserialize (v : Value F) : Except Fail CellRepr :=
  match deserNodeId v 0 1 with
  | .error e => .error e
  | .ok id => .ok
    { nodeId := id, x := usizeOf (v.at 2), y := usizeOf (v.at 3),
      inp := (inp2idx id ((v.at 4).at 0), inp2idx id ((v.at 4).at 1), inp2idx id ((v.at 4).at 2)),
      out := (out2idx id ((v.at 5).at 0), out2idx id ((v.at 5).at 1), out2idx id ((v.at 5).at 2)) }

/-- `src/matrix_repr.rs:116-147` `PatternRepr::serialize`. -/
def serPattern (p : PatternRepr) : Value F :=
  .obj [("rows", .int p.rows), ("edit_step", .int p.editStep), ("cursor_row", .int p.cursor.1), ("cursor_col", .int p.cursor.2),
    ("col_types", .arr ((List.finRange 6).map (fun c => .int (p.colTypes c)))),
    ("data", .arr (p.data.map (fun row => .arr (row.map (fun v => .int v)))))]

/-- The table of `src/matrix_repr.rs:159-168` is too large for the pattern: a panic. -/
def tooLarge (data : List (Value F)) : Bool :=
  data.zipIdx.any (fun e => decide (6 < e.1.elems.length) || (decide (256 ≤ e.2) && !e.1.elems.isEmpty))

/-- `src/matrix_repr.rs:149-181` `PatternRepr::deserialize`; the loops that fill the tables are written as functions of row and column. -/
def deserPattern (v : Value F) : Except Fail PatternRepr :=
  let cts := (v.key "col_types").elems
  let data := (v.key "data").elems
  if 6 < cts.length then .error .panic
  else if tooLarge data then .error .panic
  else .ok
    { colTypes := fun c => match cts[c.val]? with
        | none => 0
        | some ct => asU8 (ct.asI64.getD 0)
      data := (List.range 256).map (fun r => (List.range 6).map (fun c =>
        match data[r]? with
        | none => -1
        | some row => match row.elems[c]? with
          | none => -1
          | some v => asI32 (v.asI64.getD (-1))))
      rows := usizeOf (v.key "rows"), editStep := usizeOf (v.key "edit_step"),
      cursor := (usizeOf (v.key "cursor_row"), usizeOf (v.key "cursor_col")) }

/-- `for i in 0..8`, `src/matrix_repr.rs:263-268`: the number at `i + 1` of `v`, for all `i` of the list. -/
def deserMicro (v : Value F) : List Nat → Except Fail (List F)
  | [] => .ok []
  | i :: is => match (v.at (i + 1)).asF64 O with
    | none => .error .invalidAtom
    | some x => match deserMicro v is with
      | .error e => .error e
      | .ok l => .ok (x :: l)

/-- `src/matrix_repr.rs:230-275` `deserialize_atom`. -/
def deserAtom (v : Value F) : Except Fail (SAtom F) :=
  match (v.at 0).asStr.getD "?" with
  | "i" => match (v.at 1).asI64 with
    | some i => .ok (.setting i)
    | none => .error .invalidAtom
  | "p" => match (v.at 1).asF64 O with
    | some x => .ok (.param x)
    | none => .error .invalidAtom
  | "s" => match (v.at 1).asStr with
    | some s => .ok (.str s)
    | none => .error .invalidAtom
  | "as" => match (v.at 1).asStr with
    | some s => .ok (.audio s none)
    | none => .error .invalidAtom
  | "ms" => match deserMicro O v (List.range 8) with
    | .error e => .error e
    | .ok l => .ok (.micro l)
  | _ => .error .invalidAtom

/-- `src/matrix_repr.rs:277-285` `serialize_atom`; `none` is a panic (fewer than eight samples). -/
def serAtom (a : SAtom F) : Option (Value F) :=
  match a with
  | .micro l =>
    if 8 ≤ l.length then some (.arr (.str "ms" :: (l.take 8).map (ofFloat O))) else none
  | .str s => some (.arr [.str "s", .str s])
  | .audio s _ => some (.arr [.str "as", .str s])
  | .setting i => some (.arr [.str "i", .int i])
  | .param x => some (.arr [.str "p", ofFloat O x])

/-- The derived order of `NodeId`, `src/dsp/mod.rs:2132`: the number of the variant, then the instance. -/
def nodeKey : NodeId → Nat ×ₗ Nat
  | .nop => toLex (0, 0)
  | .node k i => toLex (k.val + 1, i.val)

/-- The derived order of `ParamId`, `src/dsp/mod.rs:1963-1968`: name, node, index. -/
def paramKey (p : ParamId) : String ×ₗ (Nat ×ₗ Nat) ×ₗ Nat := toLex (p.name, toLex (nodeKey p.node, p.idx))

/-- A stable sort by the key, `slice::sort_by`. -/
def sortByKey {α K : Type} [LinearOrder K] (key : α → K) (l : List α) : List α := l.insertionSort (fun a b => key a ≤ key b)

/-- One row of `"params"`, `src/matrix_repr.rs:440-449`. -/
def serParam (e : ParamId × F × Option F) : Value F :=
  .arr ([.str e.1.node.name, .int e.1.node.inst, .str e.1.name, ofFloat O e.2.1] ++
    match e.2.2 with
    | none => []
    | some ma => [ofFloat O ma])

/-- One row of `"atoms"`, `src/matrix_repr.rs:457-464`. -/
def serAtomRow (e : ParamId × SAtom F) : Option (Value F) :=
  (serAtom O e.2).map (fun v => .arr [.str e.1.node.name, .int e.1.node.inst, .str e.1.name, v])

/-- One row of `"props"`, `src/matrix_repr.rs:471-473`. -/
def serProp (e : String × SAtom F) : Option (Value F) := (serAtom O e.2).map (fun v => .arr [.str e.1, v])

/-- `push` of the results, in order. -/
def collect {α β : Type} (f : α → Option β) : List α → Option (List β)
  | [] => some []
  | a :: l => match f a with
    | none => none
    | some b => match collect f l with
      | none => none
      | some bs => some (b :: bs)

/-- `src/matrix_repr.rs:429-506` `MatrixRepr::serialize`: the lists are sorted in place, the representation stays sorted. `none`: panic. -/
def MatrixRepr.serialize (r : MatrixRepr F) : Option (Value F) :=
  match collect (serAtomRow O) (sortByKey (fun e => paramKey e.1) r.atoms), collect (serProp O) (sortByKey (fun e => e.1) r.properties) with
  | some atoms, some props => some (.obj [("VERSION", .int r.version),
      ("params", .arr ((sortByKey (fun e => paramKey e.1) r.params).map (serParam O))),
      ("atoms", .arr atoms), ("props", .arr props), ("cells", .arr (r.cells.map CellRepr.serialize)),
      ("patterns", .arr (r.patterns.map (fun p => match p with
        | some p => serPattern p
        | none => .null))),
      ("block_funs", .arr (r.blockFuns.map (fun p => match p with
        | some p => p.serialize
        | none => .null)))])
  | _, _ => none

/-- `push` of the results, in order, until one fails. -/
def gather {α β : Type} (f : α → Except Fail β) : List α → Except Fail (List β)
  | [] => .ok []
  | a :: l => match f a with
    | .error e => .error e
    | .ok b => match gather f l with
      | .error e => .error e
      | .ok bs => .ok (b :: bs)

/-- One row of `"params"`, `src/matrix_repr.rs:365-377`. -/
def deserParam (v : Value F) : Except Fail (ParamId × F × Option F) :=
  match deserNodeId v 0 1 with
  | .error e => .error e
  | .ok id => match id.inpParam ((v.at 2).asStr.getD "") with
    | none => .error .unknownParamId
    | some p => .ok (p, ((v.at 3).asF64 O).getD O.zero, (v.at 4).asF64 O)

/-- One row of `"atoms"`, `src/matrix_repr.rs:384-393`; nothing is added for an unknown parameter. -/
def deserAtomRow (v : Value F) : Except Fail (Option (ParamId × SAtom F)) :=
  match deserNodeId v 0 1 with
  | .error e => .error e
  | .ok id => match id.inpParam ((v.at 2).asStr.getD "") with
    | none => .ok none
    | some p => match deserAtom O (v.at 3) with
      | .error e => .error e
      | .ok a => .ok (some (p, a))

/-- One row of `"props"`, `src/matrix_repr.rs:400-401`. -/
def deserProp (v : Value F) : Except Fail (String × SAtom F) :=
  match deserAtom O (v.at 1) with
  | .error e => .error e
  | .ok a => .ok ((v.at 0).asStr.getD "", a)

/-- One entry of `"patterns"`, `src/matrix_repr.rs:408-412`. -/
def deserOptPattern (v : Value F) : Except Fail (Option PatternRepr) :=
  if v.isObject then
    match deserPattern v with
    | .error e => .error e
    | .ok p => .ok (some p)
  else .ok none

/-- One entry of `"block_funs"`, `src/matrix_repr.rs:419-423`. -/
def deserBlockFun (v : Value F) : Option Block.Snapshot := if v.isObject then some (Block.Snapshot.deserialize v) else none

/-- `src/matrix_repr.rs:346-354`: the version of a document. -/
def deserVersion (v : Value F) : Except Fail Int :=
  match v.get "VERSION" with
  | none => .ok 2
  | some v => if (v.asI64.getD 0) > 2 then .error .badVersion else .ok (v.asI64.getD 0)

/-- `src/matrix_repr.rs:341-427` `MatrixRepr::deserialize`. -/
def MatrixRepr.deserialize (v : Value F) : Except Fail (MatrixRepr F) :=
  match deserVersion v with
  | .error e => .error e
  | .ok version =>
    match gather CellRepr.deserialize (v.key "cells").elems with
    | .error e => .error e
    | .ok cells =>
      match gather (deserParam O) (v.key "params").elems with
      | .error e => .error e
      | .ok params =>
        match gather (deserAtomRow O) (v.key "atoms").elems with
        | .error e => .error e
        | .ok atoms =>
          match gather (deserProp O) (v.key "props").elems with
          | .error e => .error e
          | .ok props =>
            match gather deserOptPattern (v.key "patterns").elems with
            | .error e => .error e
            | .ok patterns => .ok
              { cells := cells, params := params, atoms := atoms.filterMap id, patterns := patterns, properties := props,
                blockFuns := (v.key "block_funs").elems.map deserBlockFun, version := version }

end HexoDSP.Repr
