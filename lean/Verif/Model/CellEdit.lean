import Verif.Model.Matrix
/-!
# Model of the calls that edit a cell before it is placed (`src/matrix.rs`)

`Cell::set_node_id`, `set_node_id_keep_ios`, `clear_io_dir` and `set_io_dir` are in
`Verif/Model/Matrix.lean`; here are the remaining ones and a history of such calls.
-/

namespace HexoDSP.Matrix

variable {N : Type}

/-- `src/matrix.rs:304-309` `Cell::input`. -/
def Cell.input (c : Cell N) (i1 i2 i3 : Option Nat) : Cell N := { c with in1 := i1, in2 := i2, in3 := i3 }

/-- `src/matrix.rs:311-316` `Cell::out`. -/
def Cell.out (c : Cell N) (o1 o2 o3 : Option Nat) : Cell N := { c with out1 := o1, out2 := o2, out3 := o3 }

/-- `src/matrix.rs:128-133` `Cell::with_pos_of`. -/
def Cell.withPosOf (c other : Cell N) : Cell N := { c with x := other.x, y := other.y }

/-- One call that edits a cell, `src/matrix.rs:128-316`. -/
inductive CellOp (N : Type) where
  | setNodeId (n : Option N)
  | setNodeIdKeepIos (n : Option N)
  | clearIoDir (d : CellDir)
  | setIoDir (d : CellDir) (idx : Nat)
  | input (i1 i2 i3 : Option Nat)
  | out (o1 o2 o3 : Option Nat)
  | withPosOf (other : Cell N)

/-- The call is carried out, `src/matrix.rs:128-316`. -/
def Cell.edit (c : Cell N) : CellOp N → Cell N
  | .setNodeId n => c.setNodeId n
  | .setNodeIdKeepIos n => c.setNodeIdKeepIos n
  | .clearIoDir d => c.clearIoDir d
  | .setIoDir d idx => c.setIoDir d idx
  | .input i1 i2 i3 => c.input i1 i2 i3
  | .out o1 o2 o3 => c.out o1 o2 o3
  | .withPosOf other => c.withPosOf other

end HexoDSP.Matrix
