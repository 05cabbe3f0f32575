import Verif.Model.Tracker
/-!
# What a tracker column should sound like (C33, C34)

Written down from the help text of `TSeq` (`src/dsp/node_tseq.rs:85-165`); a column is given by its cells only.
-/

namespace HexoDSP.TrackerSpec
open HexoDSP.Tracker

/-- Twelve bits on the range from 0 to 1. -/
def unit (v : Nat) : ℚ := ((v % 4096 : Nat) : ℚ) / 4095

/-- A pitch: 0.1 per octave, A4 (69) is 0, kept in the range -1 to 1. -/
def pitch (v : Nat) : ℚ := max (-1) (min 1 (((v : ℚ) - 69) / 120))

/-- Row `s` is the last row with a cell at or above row `r`, and holds `v`. -/
def LastSet (cell : Nat → Option Nat) (r s v : Nat) : Prop := s ≤ r ∧ cell s = some v ∧ ∀ i, s < i → i ≤ r → cell i = none

/-- No cell at or above row `r`. -/
def NoneSet (cell : Nat → Option Nat) (r : Nat) : Prop := ∀ i, i ≤ r → cell i = none

/-- A column that holds the last cell: before the first cell the value is 0. The gate is on exactly in rows with a cell. -/
structure Holds (conv : Nat → ℚ) (cell : Nat → Option Nat) (sig : Nat → OutCell) : Prop where
  held : ∀ r s v, r < 256 → LastSet cell r s v → (sig r).1 = .num (conv v)
  before : ∀ r, r < 256 → NoneSet cell r → (sig r).1 = .num 0
  gateOn : ∀ r v, r < 256 → cell r = some v → (sig r).2 = 1
  gateOff : ∀ r, r < 256 → cell r = none → (sig r).2 = 0

/-- The value a value column is fixed to in row `r`: that of the cell; an empty first or last row counts as 0. -/
def fixedAt (rows : Nat) (cell : Nat → Option Nat) (r : Nat) : Option ℚ :=
  match cell r with
  | some v => some (unit v)
  | none => if r = 0 ∨ r + 1 = rows then some 0 else none

/-- A value column: straight lines between the fixed rows. The gate is on in the last row only. -/
structure Lines (rows : Nat) (cell : Nat → Option Nat) (sig : Nat → OutCell) : Prop where
  fixed : ∀ r q, r < rows → fixedAt rows cell r = some q → (sig r).1 = .num q
  line : ∀ a b qa qb r, a < r → r < b → b < rows → fixedAt rows cell a = some qa → fixedAt rows cell b = some qb →
    (∀ i, a < i → i < b → fixedAt rows cell i = none) →
    (sig r).1 = .num (qa + (qb - qa) * (((r : ℚ) - a) / ((b : ℚ) - a)))
  gate : ∀ r, r < rows → (sig r).2 = if r + 1 = rows then 1 else 0

/-- A gate column hands over the bits of the cells; an empty cell has a bit above the twelve set. -/
structure Gates (cell : Nat → Option Nat) (sig : Nat → OutCell) : Prop where
  on : ∀ r v, r < 256 → cell r = some v → sig r = (.bits v, 1)
  off : ∀ r, r < 256 → cell r = none → sig r = (.bits 0xF000, 0)

/-- The signal of a column of a given type. -/
def Sounds (t : ColType) (rows : Nat) (cell : Nat → Option Nat) (sig : Nat → OutCell) : Prop :=
  match t with
  | .step => Holds unit cell sig
  | .note => Holds pitch cell sig
  | .value => Lines rows cell sig
  | .gate => Gates cell sig

/-- The operation marks column `c` as changed. -/
def touches (c : Nat) : Op → Bool
  | .setCell r c' _ => decide (r < 256 ∧ c' = c)
  | .clearCell r c' => decide (r < 256 ∧ c' = c)
  | .changeValue r c' _ => decide (r < 256 ∧ c' = c)
  | .setColType c' _ => decide (c' = c)
  | .setRows _ => decide (c = 0)
  | .load _ => true
  | _ => false

/-- Is this the creation of a sequencer? -/
def isNewBackend : Op → Bool
  | .getBackend => true
  | _ => false

/-- Column `c` was changed (or the tracker was new) after the last creation of a second sequencer and, if `rowsMatter`, after the last
change of the number of rows. The history is given with the latest call first. -/
def recent (rowsMatter : Bool) (c : Nat) : List Op → Bool
  | [] => true
  | op :: before =>
    if touches c op then true
    else
      match op with
      | .setRows _ => !rowsMatter && recent rowsMatter c before
      | .getBackend => !(before.any isNewBackend) && recent rowsMatter c before
      | _ => recent rowsMatter c before

/-- Whenever an update is sent fewer than 64 updates are waiting. -/
def Roomy (checked : Bool) (ops : List Op) : Prop :=
  ∀ before after w, ops = before ++ Op.send :: after → World.new.run checked before = some w → w.queue.length < 64

/-- Patterns in a history have at most 256 rows (what `set_rows` ensures and the representation of a pattern has). -/
def okLoads (ops : List Op) : Prop := ∀ repr, .load repr ∈ ops → repr.rows ≤ 256

/-- No pattern in the history has zero rows. -/
def someRows (ops : List Op) : Prop := (∀ repr, .load repr ∈ ops → repr.rows ≠ 0) ∧ Op.setRows 0 ∉ ops

end HexoDSP.TrackerSpec
