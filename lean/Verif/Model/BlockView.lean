import Verif.Model.Block
/-!
# Model of what a view reads of a block program (`src/wblockdsp/language.rs`)

Text is written with `write!(bw, "{}", s)` into a `std::io::BufWriter` (capacity 8192 bytes) over the slice the caller gives. A shorter text is kept in the
writer; when the writer is dropped as much of it as fits is copied into the slice, errors are ignored. A text of 8192 bytes or more goes past the writer, which
stays empty, directly to the slice; if it does not fit, the part that fits is copied and the call fails.
-/

namespace HexoDSP.Block

/-- The bytes of a text. -/
def bytes (s : String) : List UInt8 := s.toList.flatMap String.utf8EncodeChar

/-- `impl Write for &mut [u8]` (`std`): as much as fits is copied. -/
def copyInto (buf s : List UInt8) : List UInt8 := s.take buf.length ++ buf.drop s.length

/-- The capacity of `BufWriter::new` (`std`). -/
def writerCap : Nat := 8192

/-- `src/wblockdsp/language.rs:282-286`: the buffer afterwards and `bw.buffer().len()` or `0`. -/
def writeText (s buf : List UInt8) : List UInt8 × Nat :=
  if s.length < writerCap then (copyInto buf s, s.length) else (copyInto buf s, 0)

namespace Block

/-- `src/wblockdsp/language.rs:280-287` `label`. -/
def label (b : Block) (buf : List UInt8) : List UInt8 × Nat := writeText (bytes b.lbl) buf

/-- `src/wblockdsp/language.rs:288-290` `has_input`. -/
def hasInput (b : Block) (i : Nat) : Bool := ((b.inputs[i]?).map Option.isSome).getD false

/-- `src/wblockdsp/language.rs:291-293` `has_output`. -/
def hasOutput (b : Block) (i : Nat) : Bool := ((b.outputs[i]?).map Option.isSome).getD false

/-- `src/wblockdsp/language.rs:294-309` `input_label`. -/
def inputLabel (b : Block) (i : Nat) (buf : List UInt8) : List UInt8 × Nat :=
  match b.inputs[i]? with
  | some (some l) => writeText (bytes l) buf
  | some none => (buf, 0)
  | none => (buf, 0)

/-- `src/wblockdsp/language.rs:310-325` `output_label`. -/
def outputLabel (b : Block) (i : Nat) (buf : List UInt8) : List UInt8 × Nat :=
  match b.outputs[i]? with
  | some (some l) => writeText (bytes l) buf
  | some none => (buf, 0)
  | none => (buf, 0)

/-- `src/wblockdsp/language.rs:270-276` `contains`. -/
def containsAt (b : Block) (i : Nat) : Option Nat := if i = 0 then b.contains.1 else b.contains.2

end Block

/-! ## The palette: `BlockLanguage` -/

/-- `src/wblockdsp/language.rs:1017-1020` `struct BlockLanguage`. -/
structure Palette where
  types : List (String × BlockType)
  identifiers : List (String × String)

/-- The calls that change it. -/
inductive PaletteOp where
  | define (t : BlockType)
  | defineIdentifier (s : String)

namespace Palette

/-- `src/wblockdsp/language.rs:1023-1025` `new`. -/
def new : Palette := ⟨[], []⟩

/-- `src/wblockdsp/language.rs:1027-1034` `define_identifier`, `define`. -/
def step (p : Palette) : PaletteOp → Palette
  | .define t => { p with types := Map.insert p.types t.name t }
  | .defineIdentifier s => { p with identifiers := Map.insert p.identifiers s s }

def run (p : Palette) (ops : List PaletteOp) : Palette := ops.foldl step p

/-- `src/wblockdsp/language.rs:1036-1038` `is_identifier`. -/
def isIdentifier (p : Palette) (s : String) : Bool := (p.identifiers.lookup s).isSome

/-- `src/wblockdsp/language.rs:1040-1044` `list_identifiers`: the keys in any order, then sorted (by bytes in the code; for UTF-8 this
is the order of the characters). -/
def listIdentifiers (p : Palette) : List String := (p.identifiers.map Prod.fst).mergeSort (fun a b => decide (a ≤ b))

/-- `src/wblockdsp/language.rs:1051-1054` `get_type_inputs`. -/
def typeInputs (p : Palette) (s : String) : Option (List (Option String)) := (p.types.lookup s).map BlockType.inputs

/-- `src/wblockdsp/language.rs:1046-1049` `get_type_outputs`. -/
def typeOutputs (p : Palette) (s : String) : Option (List (Option String)) := (p.types.lookup s).map BlockType.outputs

/-- The loop of `get_output_name_at_index`, `src/wblockdsp/language.rs:1058-1066`; `i` counts the outputs with a name so far. -/
def nameLoop (idx : Nat) : List (Option String) → Nat → Option String
  | [], _ => none
  | none :: os, i => nameLoop idx os i
  | some s :: os, i => if i = idx then some s else nameLoop idx os (i + 1)

/-- `src/wblockdsp/language.rs:1056-1070` `get_output_name_at_index`. -/
def outputName (p : Palette) (s : String) (idx : Nat) : Option String :=
  match p.typeOutputs s with
  | some outs => nameLoop idx outs 0
  | none => none

/-- `src/wblockdsp/language.rs:1072-1084` `type_output_count`. -/
def outputCount (p : Palette) (s : String) : Nat :=
  match p.typeOutputs s with
  | some outs => outs.foldl (fun c o => if o.isSome then c + 1 else c) 0
  | none => 0

/-- `src/wblockdsp/language.rs:1086-1092` `get_type_list`: the types (the code gives category, name and user input of each), in any order. -/
def typeList (p : Palette) : List BlockType := p.types.map Prod.snd

end Palette

end HexoDSP.Block
