import Verif.Model.Tracker
/-!
# Model of the gate columns, `src/dsp/tracker/sequencer.rs:127-195`

The random number generator `SplitMix64` (crate `synfx_dsp`) is an arbitrary generator `next : R → ℚ × R`.
-/

namespace HexoDSP.GateSeq
open HexoDSP.Tracker

variable {R : Type}

/-- The generator and `rand_vals` of one column (`src/dsp/tracker/sequencer.rs:12-13`): the row of the last draw and its result. -/
structure Dice (R : Type) where
  rng : R
  line : Nat
  val : ℚ

/-- `src/dsp/tracker/sequencer.rs:39-40`: nothing drawn yet. -/
def Dice.new (rng : R) : Dice R := { rng := rng, line := 99999, val := 0 }

/-- `src/dsp/tracker/sequencer.rs:16-33` `FRACT_16THS`; `none` is an index out of range. -/
def fract16 (i : Nat) : Option ℚ := if i < 16 then some (((i : ℚ) + 1) / 16) else none

/-- `src/dsp/tracker/sequencer.rs:167-173`: the random number for a row. -/
def Dice.draw (next : R → ℚ × R) (d : Dice R) (line : Nat) : ℚ × Dice R :=
  if d.line ≠ line then ((next d.rng).1, { rng := (next d.rng).2, line := line, val := (next d.rng).1 }) else (d.val, d)

/-- `src/dsp/tracker/sequencer.rs:144-193`: one sample: the cell, its row and the position in the row. -/
def gateSample (next : R → ℚ × R) (enc : ℚ → Nat) (d : Dice R) (cell : OutCell) (line : Nat) (frac : ℚ) : Option ((ℚ × ℚ) × Dice R) :=
  let gate := cell.1.toBits enc
  match fract16 (gate &&& 0x00F) with
  | none => none
  | some pulseWidth =>
    let rowDiv : ℚ := ((16 - ((gate &&& 0x0F0) >>> 4) : Nat) : ℚ)
    let probability := (gate &&& 0xF00) >>> 8
    let subFrac := fract (frac * rowDiv)
    let on : (ℚ × ℚ) :=
      if gate &&& 0xF000 > 0 then (0, 0) else (if subFrac ≤ pulseWidth then 1 else 0, (cell.2 : ℚ))
    if probability < 0xF then
      match fract16 probability with
      | none => none
      | some p =>
        let r := d.draw next line
        if p < r.1 then some ((0, if gate &&& 0xF000 > 0 then 0 else (cell.2 : ℚ)), r.2)
        else some (on, r.2)
    else some (on, d)

/-- `src/dsp/tracker/sequencer.rs:127-195` `col_gate_at_phase`, one sample. -/
def gateAt (next : R → ℚ × R) (enc : ℚ → Nat) (s : Sequencer) (d : Dice R) (col : Nat) (phase : ℚ) : Option ((ℚ × ℚ) × Dice R) :=
  if 6 ≤ col ∨ s.rows = 0 then none
  else
    let rowPhase := clamp phase 0 1 * lastRowIdx s.rows
    let line := floorUsize rowPhase % s.rows
    if 256 ≤ line then none else gateSample next enc d (s.data col line) line (fract rowPhase)

/-- The loop over the samples of a block (`src/dsp/tracker/sequencer.rs:139`). -/
def gateBlock (next : R → ℚ × R) (enc : ℚ → Nat) (s : Sequencer) (col : Nat) : Dice R → List ℚ → Option (List (ℚ × ℚ) × Dice R)
  | d, [] => some ([], d)
  | d, p :: ps =>
    match gateAt next enc s d col p with
    | none => none
    | some (o, d) => (gateBlock next enc s col d ps).map (fun r => (o :: r.1, r.2))

end HexoDSP.GateSeq
