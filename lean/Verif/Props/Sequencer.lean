import Verif.Props.Tracker
import Verif.Spec.GateSeq
import Mathlib.Tactic.Linarith
import Mathlib.Tactic.IntervalCases
import Mathlib.Tactic.Positivity
/-!
# The sequencer (C35, C59, C60)
-/

set_option linter.unusedSectionVars false

namespace HexoDSP.SequencerProps
open HexoDSP.Tracker HexoDSP.TrackerSpec HexoDSP.GateSeq HexoDSP.GateSpec

/-! ## C35: rows and phases -/

theorem lastRowIdx_pos {rows : Nat} (h : 1 ≤ rows) : 0 < lastRowIdx rows := by
  unfold lastRowIdx
  have : (1 : ℚ) ≤ rows := by exact_mod_cast h
  linarith

/-- **C35** The row looked up is below the number of rows, for every phase whatsoever. -/
theorem row_below_rows (rows : Nat) (h : 1 ≤ rows) (phase : ℚ) : lineOf rows phase < rows := Nat.mod_lt _ h

/-- **C35** Row `r` is played exactly while the phase is in the `r`-th of equal parts (the last one 0.00001 rows shorter). -/
theorem row_of_phase {rows : Nat} (h : 1 ≤ rows) {phase : ℚ} (h0 : 0 ≤ phase) (h1 : phase ≤ 1) (r : Nat) :
    lineOf rows phase = r ↔ (r : ℚ) ≤ phase * ((rows : ℚ) - 1 / 100000) ∧ phase * ((rows : ℚ) - 1 / 100000) < r + 1 := by
  have hp := lastRowIdx_pos h
  have hx0 : 0 ≤ phase * lastRowIdx rows := mul_nonneg h0 hp.le
  have hx1 : phase * lastRowIdx rows < rows := by
    have : phase * lastRowIdx rows ≤ 1 * lastRowIdx rows := mul_le_mul_of_nonneg_right h1 hp.le
    unfold lastRowIdx at this ⊢
    linarith
  have hf0 : 0 ≤ ⌊phase * lastRowIdx rows⌋ := Int.floor_nonneg.2 hx0
  have hf1 : ⌊phase * lastRowIdx rows⌋ < (rows : Int) := by
    rw [Int.floor_lt]; exact_mod_cast hx1
  have hl : lineOf rows phase = ⌊phase * lastRowIdx rows⌋.toNat := by
    unfold lineOf floorUsize
    exact Nat.mod_eq_of_lt (by omega)
  rw [hl]
  change _ ↔ (r : ℚ) ≤ phase * lastRowIdx rows ∧ phase * lastRowIdx rows < r + 1
  have key : ⌊phase * lastRowIdx rows⌋.toNat = r ↔ ⌊phase * lastRowIdx rows⌋ = (r : Int) := by omega
  rw [key, Int.floor_eq_iff]
  push_cast
  rfl

/-- **C35** The row grows with the phase. -/
theorem row_monotone {rows : Nat} (h : 1 ≤ rows) {p q : ℚ} (h0 : 0 ≤ p) (hpq : p ≤ q) (h1 : q ≤ 1) : lineOf rows p ≤ lineOf rows q := by
  have a := (row_of_phase h h0 (hpq.trans h1) (lineOf rows p)).1 rfl
  have b := (row_of_phase h (h0.trans hpq) h1 (lineOf rows q)).1 rfl
  have hm : p * lastRowIdx rows ≤ q * lastRowIdx rows := mul_le_mul_of_nonneg_right hpq (lastRowIdx_pos h).le
  unfold lastRowIdx at hm
  have : (lineOf rows p : ℚ) < lineOf rows q + 1 := by linarith [a.1, b.2]
  have : lineOf rows p < lineOf rows q + 1 := by exact_mod_cast this
  omega

/-- **C35** Every row is played. -/
theorem every_row_played {rows : Nat} (r : Nat) (hr : r < rows) : ∃ phase : ℚ, 0 ≤ phase ∧ phase ≤ 1 ∧ lineOf rows phase = r := by
  have hp := lastRowIdx_pos (rows := rows) (by omega)
  have hr' : (r : ℚ) + 1 ≤ rows := by exact_mod_cast hr
  have h0 : 0 ≤ (r : ℚ) / lastRowIdx rows := div_nonneg (Nat.cast_nonneg r) hp.le
  have h1 : (r : ℚ) / lastRowIdx rows ≤ 1 := by
    rw [div_le_one hp]; unfold lastRowIdx; linarith
  refine ⟨(r : ℚ) / lastRowIdx rows, h0, h1, ?_⟩
  rw [row_of_phase (by omega) h0 h1]
  change (r : ℚ) ≤ (r : ℚ) / lastRowIdx rows * lastRowIdx rows ∧ (r : ℚ) / lastRowIdx rows * lastRowIdx rows < (r : ℚ) + 1
  rw [div_mul_cancel₀ _ hp.ne']
  exact ⟨le_refl _, by linarith⟩

/-- **C35** The lookup of a note or step column never fails and gives the cell of the row. -/
theorem lookup_row (s : Sequencer) (col : Nat) (hc : col < 6) (h1 : 1 ≤ s.rows) (h2 : s.rows ≤ 256) (phase : ℚ) :
    s.getAt col phase = some ((s.data col (lineOf s.rows phase)).1.val, (s.data col (lineOf s.rows phase)).2) := by
  have := row_below_rows s.rows h1 phase
  unfold Sequencer.getAt
  rw [if_neg (by omega)]
  simp only
  rw [if_neg (by omega)]

theorem fract_range {x : ℚ} (h : 0 ≤ x) : 0 ≤ fract x ∧ fract x < 1 := by
  unfold fract
  rw [if_pos h]
  have h1 := Int.floor_le x
  have h2 := Int.lt_floor_add_one x
  constructor <;> linarith

/-- **C35** The interpolated output of a value column lies between the values of the played row and the row before it (the last row comes before
the first), whose gate it has; it moves from the one to the other linearly. -/
theorem interpolated_between (s : Sequencer) (col : Nat) (hc : col < 6) (h1 : 1 ≤ s.rows) (h2 : s.rows ≤ 256) (phase : ℚ) (h0 : 0 ≤ phase) :
    ∃ out, s.interpolateAt col phase = some (out, (s.data col (lineOf s.rows phase)).2) ∧
      ∀ r prev, r = lineOf s.rows phase → prev = (r + s.rows - 1) % s.rows →
        min (s.data col prev).1.val (s.data col r).1.val ≤ out ∧ out ≤ max (s.data col prev).1.val (s.data col r).1.val ∧
        (phase ≤ 1 → out = (s.data col prev).1.val + ((s.data col r).1.val - (s.data col prev).1.val) * (phase * ((s.rows : ℚ) - 1 / 100000) - r)) := by
  have hl := row_below_rows s.rows h1 phase
  unfold Sequencer.interpolateAt
  rw [if_neg (by omega)]
  simp only
  have hprev : (if lineOf s.rows phase = 0 then s.rows - 1 else lineOf s.rows phase - 1) = (lineOf s.rows phase + s.rows - 1) % s.rows := by
    split
    · next h => rw [h, Nat.zero_add, Nat.mod_eq_of_lt (by omega)]
    · rw [show lineOf s.rows phase + s.rows - 1 = (lineOf s.rows phase - 1) + s.rows by omega, Nat.add_mod_right, Nat.mod_eq_of_lt (by omega)]
  have hpl : (lineOf s.rows phase + s.rows - 1) % s.rows < s.rows := Nat.mod_lt _ h1
  rw [hprev, if_neg (by omega)]
  refine ⟨_, rfl, ?_⟩
  rintro r prev rfl rfl
  have hx0 : 0 ≤ phase * lastRowIdx s.rows := mul_nonneg h0 (lastRowIdx_pos h1).le
  obtain ⟨f0, f1⟩ := fract_range hx0
  generalize (s.data col ((lineOf s.rows phase + s.rows - 1) % s.rows)).1.val = a
  generalize (s.data col (lineOf s.rows phase)).1.val = b
  refine ⟨?_, ?_, ?_⟩
  · rcases le_total a b with h | h
    · rw [min_eq_left h]; nlinarith
    · rw [min_eq_right h]; nlinarith
  · rcases le_total a b with h | h
    · rw [max_eq_right h]; nlinarith
    · rw [max_eq_left h]; nlinarith
  · intro hp1
    have hr := (row_of_phase h1 h0 hp1 (lineOf s.rows phase)).1 rfl
    have hfl : ⌊phase * lastRowIdx s.rows⌋ = (lineOf s.rows phase : Int) := by
      rw [Int.floor_eq_iff]
      push_cast
      exact hr
    have : fract (phase * lastRowIdx s.rows) = phase * ((s.rows : ℚ) - 1 / 100000) - lineOf s.rows phase := by
      unfold fract
      rw [if_pos hx0, hfl]
      push_cast
      rfl
    rw [this]; ring

/-- **C35**, **C33** A step column that has arrived plays, in row `r`, the last value at or above that row. -/
theorem step_column_plays (b : Backend) (col rows : Nat) (cell : Nat → Option Nat) (hc : col < 6) (hrows : b.seq.rows = rows) (h1 : 1 ≤ rows)
    (h2 : rows ≤ 256) (ht : b.colTypes col = .step) (hs : Sounds .step rows cell (b.seq.data col)) (phase : ℚ) (s v : Nat)
    (hl : LastSet cell (lineOf rows phase) s v) :
    b.colAtPhase col phase = some (some (unit v, if lineOf rows phase = s then 1 else 0)) := by
  have hlt := row_below_rows rows h1 phase
  unfold Backend.colAtPhase
  rw [if_neg (by omega), if_neg (by omega)]
  simp only [ht]
  rw [lookup_row b.seq col hc (by omega) (by omega), hrows, hs.held _ s v (by omega) hl]
  simp only [Sig.val, Option.map_some, Option.some.injEq, Prod.mk.injEq, true_and]
  split
  · next h => exact hs.gateOn _ v (by omega) (by rw [h]; exact hl.2.1)
  · next h => exact hs.gateOff _ (by omega) (hl.2.2 _ (by have := hl.1; omega) (Nat.le_refl _))

example : lineOf 16 (1 / 2) = 7 ∧ lineOf 16 1 = 15 ∧ lineOf 256 1 = 255 ∧ lineOf 1 1 = 0 := by
  decide +kernel

/-! ## C59: the coding of gate cells -/

variable {R : Type}

theorem digits {prob ratchet len : Nat} (hp : prob < 16) (hr : ratchet < 16) (hl : len < 16) :
    cellOf prob ratchet len &&& 0x00F = len ∧ (cellOf prob ratchet len &&& 0x0F0) >>> 4 = ratchet ∧
    (cellOf prob ratchet len &&& 0xF00) >>> 8 = prob ∧ cellOf prob ratchet len &&& 0xF000 = 0 := by
  unfold cellOf
  have e1 : ∀ n : Nat, n &&& 0x00F = n % 16 := fun n => Nat.and_two_pow_sub_one_eq_mod n 4
  have sh4 : ∀ n : Nat, (n &&& 0x0F0) >>> 4 = (n >>> 4) &&& 0xF := fun n => by rw [Nat.shiftRight_and_distrib]; rfl
  have sh8 : ∀ n : Nat, (n &&& 0xF00) >>> 8 = (n >>> 8) &&& 0xF := fun n => by rw [Nat.shiftRight_and_distrib]; rfl
  have e2 : ∀ n : Nat, n &&& 0xF = n % 16 := fun n => Nat.and_two_pow_sub_one_eq_mod n 4
  refine ⟨?_, ?_, ?_, ?_⟩
  · rw [e1]; omega
  · rw [sh4, e2, Nat.shiftRight_eq_div_pow]; omega
  · rw [sh8, e2, Nat.shiftRight_eq_div_pow]; omega
  · have hlt : prob * 256 + ratchet * 16 + len < 4096 := by omega
    apply Nat.eq_of_testBit_eq
    intro i
    rw [Nat.testBit_and, Nat.zero_testBit]
    rcases Nat.lt_or_ge i 12 with h | h
    · have : Nat.testBit 0xF000 i = false := by
        interval_cases i <;> rfl
      rw [this, Bool.and_false]
    · have : Nat.testBit (prob * 256 + ratchet * 16 + len) i = false :=
        Nat.testBit_lt_two_pow (lt_of_lt_of_le hlt (by
          calc 4096 = 2 ^ 12 := rfl
            _ ≤ 2 ^ i := Nat.pow_le_pow_right (by omega) h))
      rw [this, Bool.false_and]

theorem on_iff {ratchet len : Nat} (hr : ratchet < 16) {x : ℚ} (h0 : 0 ≤ x) (h1 : x < 1) :
    fract (x * ((16 - ratchet : Nat) : ℚ)) ≤ ((len : ℚ) + 1) / 16 ↔ On ratchet len x := by
  have hn : (0 : ℚ) < ((16 - ratchet : Nat) : ℚ) := by exact_mod_cast (by omega : 0 < 16 - ratchet)
  generalize hN : 16 - ratchet = n at hn ⊢
  have hx0 : 0 ≤ x * (n : ℚ) := mul_nonneg h0 hn.le
  have hx1 : x * (n : ℚ) < n := by nlinarith
  have hf0 : 0 ≤ ⌊x * (n : ℚ)⌋ := Int.floor_nonneg.2 hx0
  have hfn : ⌊x * (n : ℚ)⌋ < (n : Int) := by rw [Int.floor_lt]; exact_mod_cast hx1
  unfold fract
  rw [if_pos hx0]
  unfold On
  rw [hN]
  constructor
  · intro h
    have a := Int.floor_le (x * (n : ℚ))
    have b := Int.lt_floor_add_one (x * (n : ℚ))
    have hc : ((⌊x * (n : ℚ)⌋.toNat : Nat) : ℚ) = ((⌊x * (n : ℚ)⌋ : Int) : ℚ) := by
      have : ((⌊x * (n : ℚ)⌋.toNat : Nat) : Int) = ⌊x * (n : ℚ)⌋ := Int.toNat_of_nonneg hf0
      exact_mod_cast this
    refine ⟨⌊x * (n : ℚ)⌋.toNat, by omega, ?_, ?_, ?_⟩
    · rw [div_le_iff₀ hn, hc]; exact a
    · rw [lt_div_iff₀ hn, hc]; exact b
    · rw [le_div_iff₀ hn, hc]; linarith
  · rintro ⟨k, hk, a, b, c⟩
    rw [div_le_iff₀ hn] at a
    rw [lt_div_iff₀ hn] at b
    rw [le_div_iff₀ hn] at c
    have : ⌊x * (n : ℚ)⌋ = (k : Int) := by
      rw [Int.floor_eq_iff]; push_cast; exact ⟨a, b⟩
    rw [this]
    push_cast
    linarith

open Classical in
/-- **C59** A set gate cell, at position `x` of its row: with the probability digit 0xF the gate is on exactly in the given part of each
of the `16 - ratchet` parts of the row; with a lower one this holds if the random number of the row is at most `(prob + 1) / 16`, else the
output is 0. The gate output is 1 in any case. -/
theorem gate_cell_meaning (next : R → ℚ × R) (enc : ℚ → Nat) (d : Dice R) (prob ratchet len : Nat) (hp : prob < 16) (hr : ratchet < 16)
    (hl : len < 16) (line : Nat) (x : ℚ) (h0 : 0 ≤ x) (h1 : x < 1) :
    gateSample next enc d (.bits (cellOf prob ratchet len), 1) line x =
      some ((if (prob = 15 ∨ (d.draw next line).1 ≤ chance prob) ∧ On ratchet len x then 1 else 0, 1),
        if prob = 15 then d else (d.draw next line).2) := by
  obtain ⟨a1, a2, a3, a4⟩ := digits hp hr hl
  unfold gateSample
  simp only [Sig.toBits, a1, a2, a3, a4]
  have hf : fract16 len = some (((len : ℚ) + 1) / 16) := by unfold fract16; rw [if_pos hl]
  have hon := on_iff (len := len) hr h0 h1
  simp only [hf]
  by_cases h15 : prob < 15
  · have hf2 : fract16 prob = some (chance prob) := by unfold fract16 chance; rw [if_pos hp]
    have hne : prob ≠ 15 := by omega
    rw [if_pos h15]
    simp only [hf2, hne, false_or, if_false]
    by_cases hch : (d.draw next line).1 ≤ chance prob
    · rw [if_neg (not_lt.2 hch)]
      simp only [hch, true_and, gt_iff_lt, Nat.lt_irrefl, if_false]
      by_cases ho : On ratchet len x
      · rw [if_pos (hon.2 ho), if_pos ho]; norm_num
      · rw [if_neg (fun h => ho (hon.1 h)), if_neg ho]; norm_num
    · rw [if_pos (not_le.1 hch)]
      simp only [hch, false_and, if_false, gt_iff_lt, Nat.lt_irrefl]
      norm_num
  · obtain rfl : prob = 15 := by omega
    rw [if_neg h15]
    simp only [true_or, true_and, if_true, gt_iff_lt, Nat.lt_irrefl, if_false]
    by_cases ho : On ratchet len x
    · rw [if_pos (hon.2 ho), if_pos ho]; norm_num
    · rw [if_neg (fun h => ho (hon.1 h)), if_neg ho]; norm_num

theorem empty_gate_aux (next : R → ℚ × R) (enc : ℚ → Nat) (d : Dice R) (line : Nat) (x : ℚ) (cell : OutCell) (h1 : cell.1.toBits enc &&& 0x00F = 0)
    (h2 : (cell.1.toBits enc &&& 0xF00) >>> 8 = 0) (h3 : cell.1.toBits enc &&& 0xF000 > 0) :
    (gateSample next enc d cell line x).map Prod.fst = some (0, 0) := by
  have h4 : fract16 0 = some ((((0 : Nat) : ℚ) + 1) / 16) := rfl
  unfold gateSample
  simp only [h1, h2, h4, if_pos h3]
  rw [if_pos (by omega)]
  split <;> rfl

/-- **C59** An empty cell of a gate column is silent, whatever the random numbers are. -/
theorem empty_gate_silent (next : R → ℚ × R) (enc : ℚ → Nat) (d : Dice R) (line : Nat) (x : ℚ) :
    (gateSample next enc d (gateCell none) line x).map Prod.fst = some (0, 0) :=
  empty_gate_aux next enc d line x (gateCell none) (by show 0xF000 &&& 0x00F = 0; decide) (by show (0xF000 &&& 0xF00) >>> 8 = 0; decide) (by show 0xF000 &&& 0xF000 > 0; decide)

/-- Half the row on, two pulses. -/
example : (gateSample (fun (r : Nat) => ((1 : ℚ) / 2, r + 1)) (fun _ => 0) (Dice.new 0) (.bits (cellOf 15 14 7), 1) 3 (1 / 8)).map Prod.fst = some (1, 1) ∧
    (gateSample (fun (r : Nat) => ((1 : ℚ) / 2, r + 1)) (fun _ => 0) (Dice.new 0) (.bits (cellOf 15 14 7), 1) 3 (3 / 8)).map Prod.fst = some (0, 1) ∧
    (gateSample (fun (r : Nat) => ((1 : ℚ) / 2, r + 1)) (fun _ => 0) (Dice.new 0) (.bits (cellOf 6 15 15), 1) 3 (3 / 8)).map Prod.fst = some (0, 1) := by
  decide +kernel

/-! ## C60: the random numbers -/

/-- The probability digit of a cell is not 0xF (an empty cell counts as probability 0). -/
def random (enc : ℚ → Nat) (cell : OutCell) : Bool := decide ((cell.1.toBits enc &&& 0xF00) >>> 8 < 0xF)

/-- The row played at a phase (gate columns clamp the phase). -/
def gateRow (rows : Nat) (phase : ℚ) : Nat := lineOf rows (max 0 (min phase 1))

theorem gateSample_dice {next : R → ℚ × R} {enc : ℚ → Nat} {d d' : Dice R} {cell : OutCell} {line : Nat} {x : ℚ} {o : ℚ × ℚ}
    (h : gateSample next enc d cell line x = some (o, d')) : d' = if random enc cell then (d.draw next line).2 else d := by
  unfold gateSample at h
  simp only at h
  unfold random
  split at h
  · cases h
  · split at h
    · next hp =>
      rw [decide_eq_true hp, if_pos rfl]
      split at h
      · cases h
      · split at h <;> (injection h with h; injection h with _ h; exact h.symm)
    · next hp =>
      rw [decide_eq_false hp, if_neg (by decide)]
      injection h with h; injection h with _ h; exact h.symm

theorem gateAt_dice {next : R → ℚ × R} {enc : ℚ → Nat} {s : Sequencer} {d d' : Dice R} {col : Nat} {phase : ℚ} {o : ℚ × ℚ}
    (h : gateAt next enc s d col phase = some (o, d')) :
    d' = if random enc (s.data col (gateRow s.rows phase)) then (d.draw next (gateRow s.rows phase)).2 else d := by
  unfold gateAt at h
  split at h
  · cases h
  · simp only at h
    split at h
    · cases h
    · exact gateSample_dice h

/-- The rows with random cells in the order they are played, without repetitions of the row before. -/
def visits (last : Nat) : List Nat → List Nat
  | [] => []
  | r :: rs => if r = last then visits last rs else r :: visits r rs

/-- The generator after `n` draws. -/
def draws (next : R → ℚ × R) : Nat → R → R
  | 0, g => g
  | n + 1, g => draws next n (next g).2

/-- **C60** The random numbers drawn while a column is played: one for each visit of a row with a random cell, where only rows with random
cells count. -/
theorem draw_per_visit_partial (next : R → ℚ × R) (enc : ℚ → Nat) (s : Sequencer) (col : Nat) : ∀ (phases : List ℚ) (d d' : Dice R) (o : List (ℚ × ℚ)),
    gateBlock next enc s col d phases = some (o, d') →
    d'.rng = draws next (visits d.line (((phases.map (gateRow s.rows)).filter (fun r => random enc (s.data col r))))).length d.rng
  | [], d, d', o, h => by
    obtain ⟨_, rfl⟩ := Prod.mk.inj (Option.some.inj h); rfl
  | p :: ps, d, d', o, h => by
    rw [gateBlock] at h
    split at h
    · cases h
    · next o1 d1 h1 =>
      simp only [Option.map_eq_some_iff] at h
      obtain ⟨x, hx, he⟩ := h
      obtain ⟨_, rfl⟩ := Prod.mk.inj he
      have ih := draw_per_visit_partial next enc s col ps d1 x.2 x.1 hx
      have hd := gateAt_dice h1
      rw [List.map_cons, List.filter_cons]
      split at hd
      · next hr =>
        rw [if_pos hr, visits]
        subst hd
        rw [ih]
        by_cases hl : gateRow s.rows p = d.line
        · rw [if_pos hl]
          have : d.draw next (gateRow s.rows p) = (d.val, d) := by unfold Dice.draw; rw [if_neg (by rw [hl]; simp)]
          rw [this]
        · rw [if_neg hl]
          have : d.draw next (gateRow s.rows p) = ((next d.rng).1, { rng := (next d.rng).2, line := gateRow s.rows p, val := (next d.rng).1 }) := by
            unfold Dice.draw; rw [if_pos (fun h => hl h.symm)]
          rw [this]
          rfl
      · next hr =>
        rw [if_neg hr, ih, hd]

/-- **C60** (negation) If only one row has a random cell, one random number is drawn for all repetitions of the pattern, however long it is played: the
gate comes always or never. -/
theorem single_random_row_drawn_once (next : R → ℚ × R) (enc : ℚ → Nat) (s : Sequencer) (col r : Nat) (phases : List ℚ) (g : R) (d' : Dice R)
    (o : List (ℚ × ℚ)) (honly : ∀ i, i ≠ r → random enc (s.data col i) = false)
    (h : gateBlock next enc s col (Dice.new g) phases = some (o, d')) : d'.rng = g ∨ d'.rng = (next g).2 := by
  have hd := draw_per_visit_partial next enc s col phases _ d' o h
  have hv : ∀ (l : List Nat) (last : Nat), (∀ i ∈ l, i = r) → (visits last l).length ≤ 1 ∧ (last = r → visits last l = []) := by
    intro l
    induction l with
    | nil => intro last _; exact ⟨by simp [visits], fun _ => rfl⟩
    | cons i l ih =>
      intro last hl
      have hi : i = r := hl i List.mem_cons_self
      have hl' := fun j hj => hl j (List.mem_cons_of_mem _ hj)
      rw [visits]
      split
      · exact ih last hl'
      · next hne =>
        refine ⟨?_, fun h => absurd (hi.trans h.symm) hne⟩
        rw [(ih i hl').2 hi]; simp
  have hlen := (hv ((phases.map (gateRow s.rows)).filter (fun r => random enc (s.data col r))) (Dice.new g).line (by
    intro i hi
    by_contra hne
    have := (List.mem_filter.1 hi).2
    rw [honly i hne] at this; cases this)).1
  generalize (visits (Dice.new g).line ((phases.map (gateRow s.rows)).filter (fun r => random enc (s.data col r)))).length = n at hd hlen
  match n, hlen with
  | 0, _ => left; exact hd
  | 1, _ => right; exact hd

/-- Two rows, the first with a chance of one half, the second always on: four repetitions, one random number. -/
example : (∀ i, i ≠ 0 → random (fun _ => 0) (((fun _ i => if i = 0 then (.bits 0x7FF, 1) else (.bits 0xFFF, 1)) : Nat → Nat → OutCell) 0 i) = false) ∧
    (gateBlock (fun (r : Nat) => (if r = 0 then (1 : ℚ) else 0, r + 1)) (fun _ => 0)
      ⟨2, fun _ i => if i = 0 then (.bits 0x7FF, 1) else (.bits 0xFFF, 1)⟩ 0 (Dice.new 0) [0, 3/4, 0, 3/4, 0, 3/4, 0, 3/4]).map (fun r => (r.1.map Prod.fst, r.2.rng)) =
    some ([0, 1, 0, 1, 0, 1, 0, 1], 1) := by
  refine ⟨?_, by decide +kernel⟩
  intro i hi
  simp only [random, if_neg hi, Sig.toBits]
  decide

end HexoDSP.SequencerProps
