import Verif.Lemmas.FloatSeq

namespace HexoDSP.FloatSeqProps
open HexoDSP.FloatNodes HexoDSP.FloatLemmas HexoDSP.SinSpec HexoDSP.FloatNodesProps HexoDSP.FloatSeqSpec HexoDSP.FloatSeq HexoDSP.FloatSeq.Lemmas

variable {rn : ℚ → ℚ}

/-- Without rounding this is the column of `Verif/Model/Tracker.lean`. -/
theorem interpolate_exact (s : Tracker.Sequencer) (col : Nat) (hc : col < 6) (h1 : 1 ≤ s.rows) (h2 : s.rows ≤ 256) (phase : ℚ) :
    (s.interpolateAt col phase).map Prod.fst = some (interpolateAt id s.rows (fun r => (s.data col r).1.val) phase) := by
  have hl : Tracker.lineOf s.rows phase < s.rows := Nat.mod_lt _ h1
  unfold Tracker.Sequencer.interpolateAt
  rw [if_neg (by omega)]
  dsimp only
  rw [if_neg (by split <;> omega)]
  rfl

/-- The same for the position in a gate column (`Verif/Model/GateSeq.lean`). -/
theorem gate_exact (rows div : Nat) (phase : ℚ) :
    Tracker.fract (gatePos id rows div phase) = Tracker.fract (Tracker.fract (phase * Tracker.lastRowIdx rows) * ((div : Nat) : ℚ)) := rfl

theorem reads (hr : Nearest rn) {rows : Nat} (h1 : 1 ≤ rows) (h2 : rows ≤ 256) {phase : ℚ} (h0 : 0 ≤ phase) (hp : phase ≤ 1) :
    (lineOf rn rows phase = ⌊rn (phase * lastRowIdx rn rows)⌋₊ ∧ lineOf rn rows phase < rows) ∧
    Tracker.fract (rn (phase * lastRowIdx rn rows)) = rn (phase * lastRowIdx rn rows) - lineOf rn rows phase := by
  obtain ⟨a, b, _⟩ := row_phase hr h1 h2 h0 hp
  obtain ⟨c, d⟩ := line_floor hr h1 h2 h0 hp
  have e : lineOf rn rows phase = ⌊rn (phase * lastRowIdx rn rows)⌋₊ := by
    symm
    rw [Nat.floor_eq_iff a]
    exact ⟨c, d⟩
  refine ⟨⟨e, Nat.mod_lt _ h1⟩, ?_⟩
  unfold Tracker.fract
  rw [if_pos a, e, natCast_floor_eq_intCast_floor a]

/-- **C132** A value column whose values lie between 0 and 1 plays values between 0 and 1 with `f32` arithmetic too, and what it plays lies within 1/30000 of the
line through the values of its rows. -/
theorem value_near_line (hr : Nearest rn) {rows : Nat} (h1 : 1 ≤ rows) (h2 : rows ≤ 256) {val : Nat → ℚ} (hv : ∀ r, r < rows → 0 ≤ val r ∧ val r ≤ 1)
    {phase : ℚ} (h0 : 0 ≤ phase) (hp : phase ≤ 1) :
    0 ≤ interpolateAt rn rows val phase ∧ interpolateAt rn rows val phase ≤ 1 ∧
    |interpolateAt rn rows val phase - curve rows val (phase * rows)| ≤ 1 / 30000 := by
  obtain ⟨a, b, c⟩ := row_phase hr h1 h2 h0 hp
  obtain ⟨⟨e, hl⟩, hf⟩ := reads hr h1 h2 h0 hp
  have hF := fract_f32 (hr (phase * lastRowIdx rn rows)).1 a
  have hm := fract_mem _ a
  have prev : (if lineOf rn rows phase = 0 then rows - 1 else lineOf rn rows phase - 1) = (lineOf rn rows phase + rows - 1) % rows := by
    split
    · rename_i g; rw [g, Nat.zero_add, Nat.mod_eq_of_lt (by omega)]
    · rw [show lineOf rn rows phase + rows - 1 = lineOf rn rows phase - 1 + rows by omega, Nat.add_mod_right, Nat.mod_eq_of_lt (by omega)]
  have cur : lineOf rn rows phase = lineOf rn rows phase % rows := (Nat.mod_eq_of_lt hl).symm
  have hc : curve rows val (rn (phase * lastRowIdx rn rows)) =
      val ((lineOf rn rows phase + rows - 1) % rows) * (1 - Tracker.fract (rn (phase * lastRowIdx rn rows))) +
        val (lineOf rn rows phase) * Tracker.fract (rn (phase * lastRowIdx rn rows)) := by
    unfold curve
    dsimp only
    rw [← e, hf, ← cur]
  obtain ⟨m0, m1, mE⟩ := mix_bounds hr (hv _ (Nat.mod_lt (lineOf rn rows phase + rows - 1) h1)) (hv _ hl) ⟨hm.1, hm.2.le⟩ hF
  unfold interpolateAt
  dsimp only
  rw [prev]
  refine ⟨m0, m1, ?_⟩
  rw [← hc] at mE
  have hpos : 0 ≤ phase * rows := mul_nonneg h0 (by positivity)
  have lip : |curve rows val (rn (phase * lastRowIdx rn rows)) - curve rows val (phase * rows)| ≤ 1 / 40000 := by
    obtain ⟨c1, c2⟩ := abs_le.1 c
    rcases le_total (rn (phase * lastRowIdx rn rows)) (phase * rows) with h | h
    · have := curve_lip h1 hv a h (by linarith)
      rw [abs_sub_comm] at this
      linarith
    · have := curve_lip h1 hv hpos h (by linarith)
      linarith
  obtain ⟨l1, l2⟩ := abs_le.1 lip
  obtain ⟨k1, k2⟩ := abs_le.1 mE
  rw [abs_le]
  constructor <;> linarith

/-- **C132** A row that is divided into `div` gates has `div` parts with `f32` arithmetic too: wherever the phase is in the row, it is in one of them, the one it
should be in up to 1/2000 of a part, and a later phase of the same row is never in an earlier part. -/
theorem gate_parts (hr : Nearest rn) {rows : Nat} (h1 : 1 ≤ rows) (h2 : rows ≤ 256) {div : Nat} (d1 : 1 ≤ div) (d16 : div ≤ 16) {p q : ℚ} (h0 : 0 ≤ p)
    (hpq : p ≤ q) (hq : q ≤ 1) (hl : lineOf rn rows p = lineOf rn rows q) :
    ⌊gatePos rn rows div p⌋₊ < div ∧ |gatePos rn rows div p - (p * rows - lineOf rn rows p) * div| ≤ 1 / 2000 ∧
    ⌊gatePos rn rows div p⌋₊ ≤ ⌊gatePos rn rows div q⌋₊ := by
  obtain ⟨a, b, c⟩ := row_phase hr h1 h2 h0 (hpq.trans hq)
  obtain ⟨a', b', c'⟩ := row_phase hr h1 h2 (h0.trans hpq) hq
  obtain ⟨-, hf⟩ := reads hr h1 h2 h0 (hpq.trans hq)
  obtain ⟨-, hf'⟩ := reads hr h1 h2 (h0.trans hpq) hq
  have hF := fract_f32 (hr (p * lastRowIdx rn rows)).1 a
  have hm := fract_mem _ a
  have d0 : (0 : ℚ) ≤ div := by positivity
  have d16' : (div : ℚ) ≤ 16 := by exact_mod_cast d16
  have last0 : 0 ≤ lastRowIdx rn rows := by
    have := (last_row hr h1 h2).1
    have : (1 : ℚ) ≤ rows := by exact_mod_cast h1
    linarith
  have g0 : 0 ≤ gatePos rn rows div p := rn_ge hr f32_zero (mul_nonneg hm.1 d0)
  refine ⟨?_, ?_, ?_⟩
  · rw [Nat.floor_lt g0]
    exact scaled_lt hr hF hm.2 d1 d16
  · have hx0 : 0 ≤ Tracker.fract (rn (p * lastRowIdx rn rows)) * div := mul_nonneg hm.1 d0
    have hx1 : Tracker.fract (rn (p * lastRowIdx rn rows)) * div ≤ 16 := by nlinarith
    have h := rn_err hr (x := Tracker.fract (rn (p * lastRowIdx rn rows)) * div) (j := 4) (by norm_num) (by norm_num)
      (by rw [abs_of_nonneg hx0]; norm_num; exact hx1)
    have e : (2 : ℚ) ^ ((4 : ℤ) - 25) = 1 / 2 ^ 21 := by norm_num
    rw [e] at h
    obtain ⟨k1, k2⟩ := abs_le.1 h
    obtain ⟨c1, c2⟩ := abs_le.1 c
    unfold gatePos
    generalize rn (Tracker.fract (rn (p * lastRowIdx rn rows)) * div) = y at *
    rw [hf] at k1 k2
    generalize rn (p * lastRowIdx rn rows) = r at *
    rw [abs_le]
    constructor <;> nlinarith
  · apply Nat.floor_mono
    apply rn_mono hr
    rw [hf, hf', hl]
    refine mul_le_mul_of_nonneg_right ?_ d0
    have := rn_mono hr (mul_le_mul_of_nonneg_right hpq last0)
    linarith

/-- **C132** A column that has the same value in all rows is not played as exactly this value: here the value 7 of 4095 in 16 rows. -/
theorem flat_column_wavers (hr : Nearest rn) : ∃ phase, F32 phase ∧ 0 ≤ phase ∧ phase ≤ 1 ∧
    interpolateAt rn 16 (fun _ => rn (7 / 4095)) phase ≠ rn (7 / 4095) := by
  have e16 : rn ((16 : Nat) : ℚ) = 16 := by
    rw [rn_fix hr (f32_rows (by norm_num))]; norm_num
  have ev : rn (7 / 4095) = ((14683649 : ℤ) : ℚ) * (2 : ℚ) ^ (-33 : ℤ) :=
    rn_unique hr (by norm_num) (by norm_num) (by norm_num) (by norm_num) (by norm_num [abs_of_pos, abs_of_neg])
  have ec : rn (1 / 100000) = ((10995116 : ℤ) : ℚ) * (2 : ℚ) ^ (-40 : ℤ) :=
    rn_unique hr (by norm_num) (by norm_num) (by norm_num) (by norm_num) (by norm_num [abs_of_pos, abs_of_neg])
  have el : lastRowIdx rn 16 = ((16777206 : ℤ) : ℚ) * (2 : ℚ) ^ (-20 : ℤ) := by
    unfold lastRowIdx
    rw [e16, ec]
    exact rn_unique hr (by norm_num) (by norm_num) (by norm_num) (by norm_num) (by norm_num [abs_of_pos, abs_of_neg])
  have er : rn (21 / 2048 * lastRowIdx rn 16) = ((11010041 : ℤ) : ℚ) * (2 : ℚ) ^ (-26 : ℤ) := by
    rw [el]
    exact rn_unique hr (by norm_num) (by norm_num) (by norm_num) (by norm_num) (by norm_num [abs_of_pos, abs_of_neg])
  have ef : Tracker.fract (((11010041 : ℤ) : ℚ) * (2 : ℚ) ^ (-26 : ℤ)) = ((11010041 : ℤ) : ℚ) * (2 : ℚ) ^ (-26 : ℤ) := by
    have : ⌊((11010041 : ℤ) : ℚ) * (2 : ℚ) ^ (-26 : ℤ)⌋ = 0 := by
      rw [Int.floor_eq_iff]; norm_num
    unfold Tracker.fract
    rw [if_pos (by norm_num), this]
    norm_num
  have ea : rn (1 - ((11010041 : ℤ) : ℚ) * (2 : ℚ) ^ (-26 : ℤ)) = ((14024706 : ℤ) : ℚ) * (2 : ℚ) ^ (-24 : ℤ) :=
    rn_unique hr (by norm_num) (by norm_num) (by norm_num) (by norm_num) (by norm_num [abs_of_pos, abs_of_neg])
  have eb : rn (((14683649 : ℤ) : ℚ) * (2 : ℚ) ^ (-33 : ℤ) * (((14024706 : ℤ) : ℚ) * (2 : ℚ) ^ (-24 : ℤ))) = ((12274615 : ℤ) : ℚ) * (2 : ℚ) ^ (-33 : ℤ) :=
    rn_unique hr (by norm_num) (by norm_num) (by norm_num) (by norm_num) (by norm_num [abs_of_pos, abs_of_neg])
  have ed : rn (((14683649 : ℤ) : ℚ) * (2 : ℚ) ^ (-33 : ℤ) * (((11010041 : ℤ) : ℚ) * (2 : ℚ) ^ (-26 : ℤ))) = ((9636139 : ℤ) : ℚ) * (2 : ℚ) ^ (-35 : ℤ) :=
    rn_unique hr (by norm_num) (by norm_num) (by norm_num) (by norm_num) (by norm_num [abs_of_pos, abs_of_neg])
  have ey : rn (((12274615 : ℤ) : ℚ) * (2 : ℚ) ^ (-33 : ℤ) + ((9636139 : ℤ) : ℚ) * (2 : ℚ) ^ (-35 : ℤ)) = ((14683650 : ℤ) : ℚ) * (2 : ℚ) ^ (-33 : ℤ) :=
    rn_unique hr (by norm_num) (by norm_num) (by norm_num) (by norm_num) (by norm_num [abs_of_pos, abs_of_neg])
  refine ⟨21 / 2048, ⟨21, -11, by norm_num, by norm_num, by norm_num, by norm_num⟩, by norm_num, by norm_num, ?_⟩
  unfold interpolateAt
  dsimp only
  rw [er, ef, ev, ea, eb, ed, ey]
  norm_num

/-- The hypotheses hold for a column of 16 rows with the values 0, 1/16, … and for every phase; with exact numbers the phase 1/3 gives a value between two rows. -/
example : (∀ r : Nat, r < 16 → 0 ≤ ((r : ℚ) / 16) ∧ ((r : ℚ) / 16) ≤ 1) ∧ curve 16 (fun r : Nat => (r : ℚ) / 16) (1 / 3 * 16) = 13 / 48 := by
  constructor
  · intro r hr
    have : (r : ℚ) ≤ 16 := by exact_mod_cast hr.le
    constructor
    · positivity
    · rw [div_le_one (by norm_num)]; exact this
  · have : ⌊(1 / 3 * 16 : ℚ)⌋₊ = 5 := by rw [Nat.floor_eq_iff (by norm_num)]; norm_num
    unfold curve
    rw [this]
    norm_num

example : ∃ rn : ℚ → ℚ, Nearest rn ∧ lineOf rn 16 (1 / 3) = lineOf rn 16 (11 / 32) := by
  obtain ⟨rn, hr⟩ := nearest_exists
  refine ⟨rn, hr, ?_⟩
  obtain ⟨_, _, c⟩ := row_phase hr (rows := 16) (by norm_num) (by norm_num) (phase := 1 / 3) (by norm_num) (by norm_num)
  obtain ⟨_, _, c'⟩ := row_phase hr (rows := 16) (by norm_num) (by norm_num) (phase := 11 / 32) (by norm_num) (by norm_num)
  obtain ⟨d, e⟩ := line_floor hr (rows := 16) (by norm_num) (by norm_num) (phase := 1 / 3) (by norm_num) (by norm_num)
  obtain ⟨d', e'⟩ := line_floor hr (rows := 16) (by norm_num) (by norm_num) (phase := 11 / 32) (by norm_num) (by norm_num)
  obtain ⟨f, g⟩ := abs_le.1 c
  obtain ⟨f', g'⟩ := abs_le.1 c'
  push_cast at *
  have h1 : (lineOf rn 16 (1 / 3) : ℚ) < 6 := by linarith
  have h2 : (4 : ℚ) < lineOf rn 16 (1 / 3) := by linarith
  have h3 : (lineOf rn 16 (11 / 32) : ℚ) < 6 := by linarith
  have h4 : (4 : ℚ) < lineOf rn 16 (11 / 32) := by linarith
  have h1 : lineOf rn 16 (1 / 3) < 6 := by exact_mod_cast h1
  have h2 : 4 < lineOf rn 16 (1 / 3) := by exact_mod_cast h2
  have h3 : lineOf rn 16 (11 / 32) < 6 := by exact_mod_cast h3
  have h4 : 4 < lineOf rn 16 (11 / 32) := by exact_mod_cast h4
  omega

end HexoDSP.FloatSeqProps
