import Verif.Model.Repr
import Verif.Spec.Block
import Verif.Spec.Json
/-! # What a patch representation from a matrix looks like, and when two of them are the same -/

namespace HexoDSP.Repr
open HexoDSP.Json HexoDSP.Table
open HexoDSP.Tracker (PatternRepr)

variable {F : Type} (O : Floats F)

/-- An atom that can be written: numbers are finite, waveforms have eight samples. -/
def SAtom.Valid : SAtom F → Prop
  | .str _ => True
  | .micro l => l.length = 8 ∧ ∀ x ∈ l, O.finite x = true
  | .audio _ _ => True
  | .setting i => IsI64 i
  | .param x => O.finite x = true

/-- The atom without the sample data, which is loaded from the named file. -/
def SAtom.unloaded : SAtom F → SAtom F
  | .audio s _ => .audio s none
  | a => a

/-- An input of a cell is not used, or the index of an input parameter. -/
def InpOk (id : NodeId) (i : Int) : Prop := i = -1 ∨ ∃ n : Nat, i = n ∧ n < (NodeInfo.fromNodeId id).inCount

/-- An output of a cell is not used, or the index of an output. -/
def OutOk (id : NodeId) (i : Int) : Prop := i = -1 ∨ ∃ n : Nat, i = n ∧ n < (NodeInfo.fromNodeId id).outCount

/-- A cell with a node, ports of this node and a position of a matrix. -/
def CellRepr.Valid (c : CellRepr) : Prop :=
  c.nodeId ≠ .nop ∧ FitsI64 c.x ∧ FitsI64 c.y ∧ InpOk c.nodeId c.inp.1 ∧ InpOk c.nodeId c.inp.2.1 ∧ InpOk c.nodeId c.inp.2.2 ∧
    OutOk c.nodeId c.out.1 ∧ OutOk c.nodeId c.out.2.1 ∧ OutOk c.nodeId c.out.2.2

/-- The id of a parameter of a node, as made by `NodeId::inp_param`. -/
def Genuine (p : ParamId) : Prop := p.node.inpParam p.name = some p

/-- The representation of a pattern: 256 rows of 6 numbers. -/
def PatternValid (p : PatternRepr) : Prop :=
  (∀ c, p.colTypes c < 256) ∧ p.data.length = 256 ∧ (∀ row ∈ p.data, row.length = 6 ∧ ∀ v ∈ row, IsI32 v) ∧
    FitsI64 p.rows ∧ FitsI64 p.editStep ∧ FitsI64 p.cursor.1 ∧ FitsI64 p.cursor.2

/-- The snapshot of a block program. -/
def SnapshotValid (s : Block.Snapshot) : Prop :=
  s.Small ∧ ∃ (L : Block.Lang) (w : Block.World), L.Tall ∧ Block.Reached L w ∧ w.fn.saveSnapshot = s

/-- A representation made of a matrix. -/
structure MatrixRepr.Valid (r : MatrixRepr F) : Prop where
  cells : ∀ c ∈ r.cells, c.Valid
  params : ∀ e ∈ r.params, Genuine e.1 ∧ O.finite e.2.1 = true ∧ ∀ m, e.2.2 = some m → O.finite m = true
  atoms : ∀ e ∈ r.atoms, Genuine e.1 ∧ e.2.Valid O
  properties : ∀ e ∈ r.properties, e.2.Valid O
  patterns : ∀ p, some p ∈ r.patterns → PatternValid p
  blockFuns : ∀ s, some s ∈ r.blockFuns → SnapshotValid s
  version : IsI64 r.version ∧ r.version ≤ 2

/-- Two snapshots show the same. -/
def SnapshotSame (s t : Block.Snapshot) : Prop := s.curId = t.curId ∧ List.Forall₂ Block.Area.Same s.areas t.areas

/-- Both absent, or both present and related. -/
def OptSame {α : Type} (R : α → α → Prop) : Option α → Option α → Prop
  | none, none => True
  | some a, some b => R a b
  | _, _ => False

/-- `r'` has what is stored of `r`: the same cells in the same order, the same patterns, and the same parameters, atoms and properties in some
order; the sample data of atoms is not stored. -/
structure Stored (r r' : MatrixRepr F) : Prop where
  cells : r'.cells = r.cells
  params : r'.params.Perm r.params
  atoms : r'.atoms.Perm (r.atoms.map (fun e => (e.1, e.2.unloaded)))
  properties : r'.properties.Perm (r.properties.map (fun e => (e.1, e.2.unloaded)))
  patterns : r'.patterns = r.patterns
  blockFuns : List.Forall₂ (OptSame SnapshotSame) r'.blockFuns r.blockFuns
  version : r'.version = r.version

end HexoDSP.Repr
