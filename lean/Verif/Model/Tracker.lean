import Mathlib.Data.Rat.Floor
/-!
# Model of `src/dsp/tracker/mod.rs`, `pattern.rs` and `sequencer.rs`

Signal values are rationals (rounding of `f32` is not modelled). The tables have 256 rows (`MAX_PATTERN_LEN`) and 6 columns
(`MAX_COLS`, `src/dsp/tracker/mod.rs:12-13`); they are functions of the indices, an access outside of the table is a panic
(`none`) and written out where it can happen. `usize` counters are unbounded. The mutex is assumed to be obtained.
-/

namespace HexoDSP.Tracker

/-- `src/dsp/tracker/mod.rs:16-22` `enum PatternColType`. -/
inductive ColType where
  | note
  | step
  | value
  | gate
  deriving DecidableEq, Repr

/-- A value handed to the sequencer: a number, or a bit pattern stored with `f32::from_bits` (gate columns). -/
inductive Sig where
  | num (q : ℚ)
  | bits (n : Nat)
  deriving DecidableEq

/-- The number of a value. Bit patterns below `2 ^ 23` are the subnormal floats `n * 2 ^ -149`. -/
def Sig.val : Sig → ℚ
  | .num q => q
  | .bits n => n / 2 ^ 149

/-- `f32::to_bits`; `enc` is the encoding of the numbers. -/
def Sig.toBits (enc : ℚ → Nat) : Sig → Nat
  | .num q => enc q
  | .bits n => n

/-- An entry `(f32, u8)` of a compiled column. -/
abbrev OutCell := Sig × Nat

/-- `src/matrix_repr.rs:106-113` `struct PatternRepr`. -/
structure PatternRepr where
  colTypes : Fin 6 → Nat
  data : List (List Int)
  rows : Nat
  editStep : Nat
  cursor : Nat × Nat

/-- `src/dsp/tracker/pattern.rs:10-21` `struct PatternData`. An entry of `strings` is represented by the number that it shows
(`format!("{:03x}", v)`, line 279). -/
structure PatternData where
  colTypes : Nat → ColType
  data : Nat → Nat → Option Nat
  outData : Nat → Nat → OutCell
  strings : Nat → Nat → Option Nat
  cursor : Nat × Nat
  rows : Nat
  editStep : Nat
  dirty : Nat → Bool
  generation : Nat

/-- `src/dsp/tracker/pattern.rs:24-36` `PatternData::new`. -/
def PatternData.new (rows : Nat) : PatternData :=
  { colTypes := fun _ => .value, data := fun _ _ => none, outData := fun _ _ => (.num 0, 0), strings := fun _ _ => none,
    cursor := (2, 2), rows := rows, editStep := 4, dirty := fun _ => true, generation := 0 }

/-- Function update. -/
def upd {β : Type} (f : Nat → β) (i : Nat) (b : β) : Nat → β := fun j => if j = i then b else f j

/-- Update of a table. -/
def upd2 {β : Type} (f : Nat → Nat → β) (r c : Nat) (b : β) : Nat → Nat → β := fun i j => if i = r ∧ j = c then b else f i j

/-- `src/dsp/tracker/pattern.rs:61-66`: the code of a column type. -/
def ColType.code : ColType → Nat
  | .value => 0
  | .note => 1
  | .step => 2
  | .gate => 3

/-- `src/dsp/tracker/pattern.rs:87-93`: the column type of a code. -/
def ColType.ofCode : Nat → ColType
  | 0 => .value
  | 1 => .note
  | 2 => .step
  | 3 => .gate
  | _ => .value

/-- `src/dsp/tracker/pattern.rs:40-56` `is_unset`. -/
def PatternData.isUnset (p : PatternData) : Bool :=
  (List.range 6).all (fun c => decide (p.colTypes c = .value)) &&
    (List.range 256).all (fun r => (List.range 6).all (fun c => (p.data r c).isNone))

/-- `src/dsp/tracker/pattern.rs:58-83` `to_repr`. -/
def PatternData.toRepr (p : PatternData) : PatternRepr :=
  { colTypes := fun c => (p.colTypes c).code,
    data := (List.range 256).map (fun r => (List.range 6).map (fun c =>
      match p.data r c with
      | some v => (v : Int)
      | none => -1)),
    rows := p.rows, editStep := p.editStep, cursor := p.cursor }

/-- `src/dsp/tracker/pattern.rs:100`: a stored number; `as u16` keeps the low 16 bits. -/
def cellOfRepr (v : Int) : Option Nat := if v < 0 then none else some (v % 65536).toNat

/-- `src/dsp/tracker/pattern.rs:85-108` `from_repr`. The nested loop over the table is written as one update; it panics if the
table is larger than 256 rows of 6 cells. The cached strings are not touched. -/
def PatternData.fromRepr (p : PatternData) (repr : PatternRepr) : Option PatternData :=
  if repr.data.length ≤ 256 ∧ repr.data.all (fun row => decide (row.length ≤ 6)) = true then
    some { p with
      colTypes := fun c => if h : c < 6 then ColType.ofCode (repr.colTypes ⟨c, h⟩) else p.colTypes c
      dirty := fun c => if c < 6 then true else p.dirty c
      data := fun r c =>
        match repr.data[r]? with
        | none => p.data r c
        | some row =>
          match row[c]? with
          | none => p.data r c
          | some v => cellOfRepr v
      rows := repr.rows
      editStep := repr.editStep
      cursor := repr.cursor
      generation := p.generation + 1 }
  else none

/-- `src/dsp/tracker/pattern.rs:114-118` `modified_col`. -/
def PatternData.modifiedCol (p : PatternData) (col : Nat) : PatternData :=
  if col < 6 then { p with dirty := upd p.dirty col true } else p

/-- `src/dsp/tracker/pattern.rs:154`: `((v & 0xFFF) as f32) / (0xFFF as f32)`. -/
def unit12 (v : Nat) : ℚ := ((v &&& 0xFFF : Nat) : ℚ) / 0xFFF

/-- `src/dsp/tracker/pattern.rs:162-174`: the cells from `si` to `ei` are written: start, end, and the line between them. -/
def writeSpan (out : Nat → OutCell) (sv : ℚ) (si : Nat) (ev : ℚ) (ei : Nat) : Nat → OutCell := fun i =>
  if si < i ∧ i < ei then
    let x : ℚ := ((i - si : Nat) : ℚ) / ((ei - si : Nat) : ℚ)
    (.num (sv * (1 - x) + ev * x), 0)
  else if i = ei then (.num ev, 1)
  else if i = si then (.num sv, 0)
  else out i

/-- `src/dsp/tracker/pattern.rs:143-186`: the loop for a value column, with `start_value`, `start_idx` and `end_idx`. The first
argument is the number of values of `end_idx` up to `out_col.len()` still to come. -/
def valueLoop (rows : Nat) (cell : Nat → Option Nat) : Nat → (Nat → OutCell) → ℚ → Nat → Nat → Option (Nat → OutCell)
  | 0, out, _, _, _ => some out
  | left + 1, out, sv, si, ei =>
    if ei = rows then
      some (writeSpan out sv si (((cell (ei - 1)).map unit12).getD 0) (ei - 1))
    else if 256 ≤ ei then none
    else
      match (cell ei).map unit12 with
      | some ev => valueLoop rows cell left (writeSpan out sv si ev ei) ev ei (ei + 1)
      | none => valueLoop rows cell left out sv si (ei + 1)

/-- `f32::clamp` for `lo ≤ hi`. -/
def clamp (x lo hi : ℚ) : ℚ := max lo (min x hi)

/-- `src/dsp/tracker/pattern.rs:193`: the pitch of a note number. -/
def notePitch (v : Nat) : ℚ := (((v : Int) - 69 : Int) : ℚ) * (1 / 10) / 12

/-- `src/dsp/tracker/pattern.rs:189-199`, `202-212`: the loop of note and step columns; `conv` converts a cell, `post` is
applied when the value is written. The list is the remaining rows. -/
def holdLoop (conv : Nat → ℚ) (post : ℚ → ℚ) (cell : Nat → Option Nat) : List Nat → (Nat → OutCell) → ℚ → (Nat → OutCell)
  | [], out, _ => out
  | row :: rest, out, cur =>
    match cell row with
    | some v => holdLoop conv post cell rest (upd out row (.num (post (conv v)), 1)) (conv v)
    | none => holdLoop conv post cell rest (upd out row (.num (post cur), 0)) cur

/-- `src/dsp/tracker/pattern.rs:221-225`: a gate cell. -/
def gateCell : Option Nat → OutCell
  | some v => (.bits v, 1)
  | none => (.bits 0xF000, 0)

/-- `src/dsp/tracker/pattern.rs:134-229` `sync_out_data`. -/
def PatternData.syncOutData (p : PatternData) (col : Nat) : Option PatternData :=
  if 6 ≤ col then none
  else if p.rows = 0 then some p
  else
    let cell := fun r => p.data r col
    match p.colTypes col with
    | .value => (valueLoop p.rows cell 257 (p.outData col) 0 0 0).map (fun o => { p with outData := upd p.outData col o })
    | .note =>
      let o := holdLoop notePitch (fun x => clamp x (-1) 1) cell (List.range 256) (p.outData col) 0
      some { p with outData := upd p.outData col o }
    | .step =>
      let o := holdLoop unit12 (fun x => x) cell (List.range 256) (p.outData col) 0
      some { p with outData := upd p.outData col o }
    | .gate => some { p with outData := upd p.outData col (fun r => if r < 256 then gateCell (cell r) else p.outData col r) }

/-- `src/dsp/tracker/pattern.rs:268-285` `get_cell`: the shown text (as the number shown); fills the cache. -/
def PatternData.getCell (p : PatternData) (row col : Nat) : Option Nat × PatternData :=
  if 256 ≤ row then (none, p)
  else if 6 ≤ col then (none, p)
  else
    match p.strings row col with
    | some s => (some s, p)
    | none =>
      match p.data row col with
      | some v => (some v, { p with strings := upd2 p.strings row col (some v) })
      | none => (none, p)

/-- `src/dsp/tracker/pattern.rs:287-299` `clear_cell`. -/
def PatternData.clearCell (p : PatternData) (row col : Nat) : PatternData :=
  if 256 ≤ row then p
  else if 6 ≤ col then p
  else
    let p := { p with data := upd2 p.data row col none, strings := upd2 p.strings row col none }
    let p := p.modifiedCol col
    { p with generation := p.generation + 1 }

/-- `src/dsp/tracker/pattern.rs:301-310` `get_cell_value`. -/
def PatternData.getCellValue (p : PatternData) (row col : Nat) : Nat :=
  if 256 ≤ row then 0
  else if 6 ≤ col then 0
  else (p.data row col).getD 0

/-- `src/dsp/tracker/pattern.rs:312-324` `set_cell_value`; `val` is a `u16`. -/
def PatternData.setCellValue (p : PatternData) (row col val : Nat) : PatternData :=
  if 256 ≤ row then p
  else if 6 ≤ col then p
  else
    let p := { p with data := upd2 p.data row col (some val), strings := upd2 p.strings row col none }
    let p := p.modifiedCol col
    { p with generation := p.generation + 1 }

/-- `as i16`: the low 16 bits as a signed number. -/
def asI16 (v : Int) : Int := (v + 32768) % 65536 - 32768

/-- `as u16`. -/
def asU16 (v : Int) : Nat := (v % 65536).toNat

/-- Addition of two `i16`: with overflow checks (`checked`, debug builds) an overflow panics, without it wraps. -/
def addI16 (checked : Bool) (a b : Int) : Option Int :=
  if -32768 ≤ a + b ∧ a + b ≤ 32767 then some (a + b) else if checked then none else some (asI16 (a + b))

/-- `src/dsp/tracker/pattern.rs:233-238` `change_value`. -/
def PatternData.changeValue (checked : Bool) (p : PatternData) (row col : Nat) (offs : Int) : Option PatternData :=
  match addI16 checked (asI16 (p.getCellValue row col)) offs with
  | none => none
  | some s => some (p.setCellValue row col (asU16 (min (max s 0) 0xFFF)))

/-- `src/dsp/tracker/pattern.rs:358-362` `set_rows`. -/
def PatternData.setRows (p : PatternData) (rows : Nat) : PatternData :=
  let p := { p with rows := min rows 256 }
  let p := p.modifiedCol 0
  { p with generation := p.generation + 1 }

/-- `src/dsp/tracker/pattern.rs:364-398` `set_col_note_type`, `set_col_step_type`, `set_col_value_type`, `set_col_gate_type`. -/
def PatternData.setColType (p : PatternData) (col : Nat) (t : ColType) : PatternData :=
  if 6 ≤ col then p
  else
    let p := { p with colTypes := upd p.colTypes col t }
    let p := p.modifiedCol col
    { p with generation := p.generation + 1 }

/-- `src/dsp/tracker/pattern.rs:400-403` `set_cursor`. -/
def PatternData.setCursor (p : PatternData) (row col : Nat) : PatternData :=
  { p with cursor := (row, col), generation := p.generation + 1 }

/-- `src/dsp/tracker/pattern.rs:407-410` `set_edit_step`. -/
def PatternData.setEditStep (p : PatternData) (es : Nat) : PatternData :=
  { p with editStep := es, generation := p.generation + 1 }

/-! ## The sequencer -/

/-- `src/dsp/tracker/sequencer.rs:9-14` `struct PatternSequencer` without the random numbers (see `Model/GateSeq.lean`). -/
structure Sequencer where
  rows : Nat
  data : Nat → Nat → OutCell

/-- `src/dsp/tracker/sequencer.rs:45-57` `new`. -/
def Sequencer.new (rows : Nat) : Sequencer := { rows := rows, data := fun _ _ => (.num 0, 0) }

/-- `src/dsp/tracker/sequencer.rs:67-71` `set_col`: all 256 cells are copied. -/
def Sequencer.setCol (s : Sequencer) (col : Nat) (d : Nat → OutCell) : Option Sequencer :=
  if col < 6 then some { s with data := upd s.data col (fun r => if r < 256 then d r else s.data col r) } else none

/-- `src/dsp/tracker/sequencer.rs:82`, `114`, `136`: `(self.rows as f32) - 0.00001`. -/
def lastRowIdx (rows : Nat) : ℚ := (rows : ℚ) - 1 / 100000

/-- `floor() as usize`: saturates at zero. -/
def floorUsize (x : ℚ) : Nat := ⌊x⌋.toNat

/-- `f32::fract`: `x - x.trunc()`. -/
def fract (x : ℚ) : ℚ := if 0 ≤ x then x - ⌊x⌋ else x - ⌈x⌉

/-- `src/dsp/tracker/sequencer.rs:86-88`: the row of a phase. -/
def lineOf (rows : Nat) (phase : ℚ) : Nat := floorUsize (phase * lastRowIdx rows) % rows

/-- `src/dsp/tracker/sequencer.rs:73-103` `col_interpolate_at_phase`, one sample. -/
def Sequencer.interpolateAt (s : Sequencer) (col : Nat) (phase : ℚ) : Option (ℚ × Nat) :=
  if 6 ≤ col ∨ s.rows = 0 then none
  else
    let frac := fract (phase * lastRowIdx s.rows)
    let line := lineOf s.rows phase
    let prevLine := if line = 0 then s.rows - 1 else line - 1
    if 256 ≤ prevLine ∨ 256 ≤ line then none
    else
      let prev := (s.data col prevLine).1.val
      let next := (s.data col line).1.val
      some (prev * (1 - frac) + next * frac, (s.data col line).2)

/-- `src/dsp/tracker/sequencer.rs:105-125` `col_get_at_phase`, one sample. -/
def Sequencer.getAt (s : Sequencer) (col : Nat) (phase : ℚ) : Option (ℚ × Nat) :=
  if 6 ≤ col ∨ s.rows = 0 then none
  else
    let line := lineOf s.rows phase
    if 256 ≤ line then none else some ((s.data col line).1.val, (s.data col line).2)

/-! ## Tracker and backend -/

/-- `src/dsp/tracker/mod.rs:28-35` `enum PatternUpdateMsg`. -/
structure Msg where
  col : Nat
  colType : ColType
  patternLen : Nat
  data : Nat → OutCell

/-- `src/dsp/tracker/mod.rs:50-54` `struct TrackerBackend` without the consumer, which is `World.queue`. -/
structure Backend where
  seq : Sequencer
  colTypes : Nat → ColType

/-- `src/dsp/tracker/mod.rs:37-42` `struct Tracker` with the queue of its producer and the backend at the other end of
that queue, if there is one. `taken` is `seq.is_none()`. Older backends, whose queue was replaced, are left out: they receive
nothing any more. -/
structure World where
  pat : PatternData
  taken : Bool
  queue : List Msg
  backend : Option Backend

/-- `src/dsp/tracker/mod.rs:73-83` `Tracker::new`. -/
def World.new : World := { pat := PatternData.new 256, taken := false, queue := [], backend := none }

/-- `src/dsp/tracker/mod.rs:89-110` `send_one_update`: the loop over the columns from `col`; the flag is the result. A full
queue (64 messages, `MAX_RINGBUF_SIZE`) drops the message. -/
def World.sendFrom (w : World) : List Nat → Option (Bool × World)
  | [] => some (false, w)
  | col :: cols =>
    if w.pat.dirty col = true then
      let p := { w.pat with dirty := upd w.pat.dirty col false }
      match p.syncOutData col with
      | none => none
      | some p =>
        let msg : Msg := { col := col, colType := p.colTypes col, patternLen := p.rows, data := p.outData col }
        some (true, { w with pat := p, queue := if w.queue.length < 64 then w.queue ++ [msg] else w.queue })
    else w.sendFrom cols

/-- `src/dsp/tracker/mod.rs:89-110` `send_one_update`. -/
def World.sendOneUpdate (w : World) : Option (Bool × World) := w.sendFrom (List.range 6)

/-- `src/dsp/tracker/mod.rs:112-127` `get_backend`. -/
def World.getBackend (w : World) : World :=
  { w with
    queue := if w.taken then [] else w.queue
    taken := true
    backend := some { seq := Sequencer.new 256, colTypes := fun _ => .value } }

/-- `src/dsp/tracker/mod.rs:130-144` `check_updates`. -/
def World.checkUpdates (w : World) : Option (Bool × World) :=
  match w.backend, w.queue with
  | some b, m :: q =>
    if m.col < 6 then
      match ({ b.seq with rows := m.patternLen } : Sequencer).setCol m.col m.data with
      | none => none
      | some s => some (true, { w with queue := q, backend := some { seq := s, colTypes := upd b.colTypes m.col m.colType } })
    else none
  | _, _ => some (false, w)

/-- `src/dsp/tracker/mod.rs:150-168` `get_col_at_phase` for one sample of a note, step or value column (gate columns:
`Model/GateSeq.lean`). `some none`: the buffers are left as they are. -/
def Backend.colAtPhase (b : Backend) (col : Nat) (phase : ℚ) : Option (Option (ℚ × Nat)) :=
  if b.seq.rows = 0 then some none
  else if 6 ≤ col then none
  else
    match b.colTypes col with
    | .note => (b.seq.getAt col phase).map some
    | .step => (b.seq.getAt col phase).map some
    | .value => (b.seq.interpolateAt col phase).map some
    | .gate => some none

/-- The calls: edits of the pattern, `send` (`check_pattern_data` of the frontend), `poll` (the audio thread, once per block)
and the creation of a backend. -/
inductive Op where
  | setCell (row col val : Nat)
  | clearCell (row col : Nat)
  | changeValue (row col : Nat) (offs : Int)
  | setColType (col : Nat) (t : ColType)
  | setRows (rows : Nat)
  | setCursor (row col : Nat)
  | setEditStep (n : Nat)
  | load (repr : PatternRepr)
  | getCell (row col : Nat)
  | send
  | poll
  | getBackend

/-- One call; `checked` says whether arithmetic overflow panics. -/
def World.step (checked : Bool) (w : World) : Op → Option World
  | .setCell r c v => some { w with pat := w.pat.setCellValue r c v }
  | .clearCell r c => some { w with pat := w.pat.clearCell r c }
  | .changeValue r c o => (w.pat.changeValue checked r c o).map (fun p => { w with pat := p })
  | .setColType c t => some { w with pat := w.pat.setColType c t }
  | .setRows n => some { w with pat := w.pat.setRows n }
  | .setCursor r c => some { w with pat := w.pat.setCursor r c }
  | .setEditStep n => some { w with pat := w.pat.setEditStep n }
  | .load repr => (w.pat.fromRepr repr).map (fun p => { w with pat := p })
  | .getCell r c => some { w with pat := (w.pat.getCell r c).2 }
  | .send => w.sendOneUpdate.map Prod.snd
  | .poll => w.checkUpdates.map Prod.snd
  | .getBackend => some w.getBackend

/-- A history of calls. -/
def World.run (checked : Bool) : World → List Op → Option World
  | w, [] => some w
  | w, op :: ops => (w.step checked op).bind (fun w => w.run checked ops)

end HexoDSP.Tracker
