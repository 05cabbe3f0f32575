import Verif.Model.FloatNodes
import Verif.Lemmas.Float
/-!
# C126, C127, C128: rows, clipping and NaN with `f32` numbers
-/

namespace HexoDSP.FloatNodesProps
open HexoDSP.SinSpec HexoDSP.FloatLemmas HexoDSP.FloatNodes

variable {rn : ℚ → ℚ}

/-! ## C126: the row of a phase -/

/-- Without rounding it is the row of `Verif/Model/Tracker.lean`. -/
theorem line_exact (rows : Nat) (phase : ℚ) : lineOf id rows phase = Tracker.lineOf rows phase := rfl

theorem rn_mono (hr : Nearest rn) {x y : ℚ} (h : x ≤ y) : rn x ≤ rn y := by
  rcases eq_or_lt_of_le h with rfl | h
  · exact le_rfl
  by_contra hc
  have hc := not_le.1 hc
  have h1 := (hr x).2 _ (hr y).1
  have h2 := (hr y).2 _ (hr x).1
  rcases abs_cases (rn x - x) with ⟨a, _⟩ | ⟨a, _⟩ <;> rcases abs_cases (rn y - x) with ⟨b, _⟩ | ⟨b, _⟩ <;>
    rcases abs_cases (rn x - y) with ⟨c, _⟩ | ⟨c, _⟩ <;> rcases abs_cases (rn y - y) with ⟨d, _⟩ | ⟨d, _⟩ <;> linarith

theorem step_size (hr : Nearest rn) : |rn (1 / 100000) - 1 / 100000| ≤ 1 / 2 ^ 41 := by
  have h := rn_err hr (x := 1 / 100000) (j := -16) (by norm_num) (by norm_num) (by norm_num [abs_of_pos])
  have : (2 : ℚ) ^ ((-16 : ℤ) - 25) = 1 / 2 ^ 41 := by norm_num
  rwa [this] at h

theorem f32_rows {rows : Nat} (h : rows ≤ 257) : F32 (rows : ℚ) :=
  ⟨rows, 0, by rw [Nat.abs_cast]; exact_mod_cast (by omega : rows < 2 ^ 24), by norm_num, by norm_num, by simp⟩

theorem last_row (hr : Nearest rn) {rows : Nat} (h1 : 1 ≤ rows) (h2 : rows ≤ 256) :
    (rows : ℚ) - 16 / 1000000 ≤ lastRowIdx rn rows ∧ lastRowIdx rn rows ≤ rows - 4 / 1000000 := by
  unfold lastRowIdx
  rw [rn_fix hr (f32_rows (by omega))]
  obtain ⟨a, b⟩ := abs_le.1 (step_size hr)
  have hF : F32 ((rows : ℚ) - 1 / 2 ^ 16) := by
    refine ⟨rows * 2 ^ 16 - 1, -16, ?_, by norm_num, by norm_num, ?_⟩
    · have h1' : (1 : ℤ) ≤ rows := by exact_mod_cast h1
      have h2' : (rows : ℤ) ≤ 256 := by exact_mod_cast h2
      rw [abs_lt]
      constructor <;> omega
    · push_cast
      have : (2 : ℚ) ^ (-16 : ℤ) = 1 / 2 ^ 16 := by norm_num
      rw [this]
      ring
  have h := (hr ((rows : ℚ) - rn (1 / 100000))).2 _ hF
  have h3 : |(rows : ℚ) - 1 / 2 ^ 16 - (rows - rn (1 / 100000))| ≤ 54 / 10000000 := by
    rw [abs_le]
    constructor <;> linarith
  obtain ⟨c, d⟩ := abs_le.1 (h.trans h3)
  constructor <;> linarith

theorem row_phase (hr : Nearest rn) {rows : Nat} (h1 : 1 ≤ rows) (h2 : rows ≤ 256) {phase : ℚ} (h0 : 0 ≤ phase) (hp : phase ≤ 1) :
    0 ≤ rn (phase * lastRowIdx rn rows) ∧ rn (phase * lastRowIdx rn rows) < rows ∧ |rn (phase * lastRowIdx rn rows) - phase * rows| ≤ 1 / 40000 := by
  obtain ⟨a, b⟩ := last_row hr h1 h2
  have h1' : (1 : ℚ) ≤ rows := by exact_mod_cast h1
  have h2' : (rows : ℚ) ≤ 256 := by exact_mod_cast h2
  have hF : F32 (lastRowIdx rn rows) := (hr _).1
  have hx0 : 0 ≤ phase * lastRowIdx rn rows := mul_nonneg h0 (by linarith)
  have hx1 : phase * lastRowIdx rn rows ≤ lastRowIdx rn rows := by nlinarith
  refine ⟨rn_ge hr f32_zero hx0, by linarith [rn_le hr hF hx1], ?_⟩
  have h := rn_err hr (x := phase * lastRowIdx rn rows) (j := 8) (by norm_num) (by norm_num) (by rw [abs_of_nonneg hx0]; norm_num; linarith)
  have e : (2 : ℚ) ^ ((8 : ℤ) - 25) = 1 / 2 ^ 17 := by norm_num
  rw [e] at h
  obtain ⟨c, d⟩ := abs_le.1 h
  rw [abs_le]
  constructor <;> nlinarith

theorem line_floor (hr : Nearest rn) {rows : Nat} (h1 : 1 ≤ rows) (h2 : rows ≤ 256) {phase : ℚ} (h0 : 0 ≤ phase) (hp : phase ≤ 1) :
    (lineOf rn rows phase : ℚ) ≤ rn (phase * lastRowIdx rn rows) ∧ rn (phase * lastRowIdx rn rows) < lineOf rn rows phase + 1 := by
  obtain ⟨a, b, _⟩ := row_phase hr h1 h2 h0 hp
  have hfl : 0 ≤ ⌊rn (phase * lastRowIdx rn rows)⌋ := Int.floor_nonneg.2 a
  have hlt : ⌊rn (phase * lastRowIdx rn rows)⌋ < (rows : ℤ) := by
    rw [Int.floor_lt]; exact_mod_cast b
  have e : (lineOf rn rows phase : ℤ) = ⌊rn (phase * lastRowIdx rn rows)⌋ := by
    unfold lineOf Tracker.floorUsize
    rw [Nat.mod_eq_of_lt (by omega)]
    omega
  have e' : (lineOf rn rows phase : ℚ) = (⌊rn (phase * lastRowIdx rn rows)⌋ : ℚ) := by exact_mod_cast e
  rw [e']
  exact ⟨Int.floor_le _, Int.lt_floor_add_one _⟩

/-- **C126** With `f32` arithmetic, in patterns of up to 256 rows, a phase from 0 to 1 selects the row it lies in, up to 1/40000 of a row. The selected row
exists, and at the very end (phase 1) it is the last one. -/
theorem row_selected (hr : Nearest rn) {rows : Nat} (h1 : 1 ≤ rows) (h2 : rows ≤ 256) {phase : ℚ} (h0 : 0 ≤ phase) (hp : phase ≤ 1) :
    lineOf rn rows phase < rows ∧ (lineOf rn rows phase : ℚ) - 1 / 40000 ≤ phase * rows ∧ phase * rows ≤ lineOf rn rows phase + 1 + 1 / 40000 ∧
    lineOf rn rows 1 = rows - 1 := by
  obtain ⟨_, _, c⟩ := row_phase hr h1 h2 h0 hp
  obtain ⟨d, e⟩ := line_floor hr h1 h2 h0 hp
  obtain ⟨f, g⟩ := abs_le.1 c
  refine ⟨Nat.mod_lt _ h1, by linarith, by linarith, ?_⟩
  obtain ⟨_, _, c⟩ := row_phase hr h1 h2 (phase := 1) (by norm_num) le_rfl
  obtain ⟨d, e⟩ := line_floor hr h1 h2 (phase := 1) (by norm_num) le_rfl
  obtain ⟨f, g⟩ := abs_le.1 c
  have hlt : lineOf rn rows 1 < rows := Nat.mod_lt _ h1
  have : (rows : ℚ) < lineOf rn rows 1 + 2 := by linarith
  have : rows < lineOf rn rows 1 + 2 := by exact_mod_cast this
  omega

/-- **C126** A later phase never selects an earlier row. -/
theorem row_monotone (hr : Nearest rn) {rows : Nat} (h1 : 1 ≤ rows) (h2 : rows ≤ 256) {p q : ℚ} (h0 : 0 ≤ p) (hpq : p ≤ q) (hq : q ≤ 1) :
    lineOf rn rows p ≤ lineOf rn rows q := by
  obtain ⟨a, _⟩ := line_floor hr h1 h2 h0 (hpq.trans hq)
  obtain ⟨_, b⟩ := line_floor hr h1 h2 (h0.trans hpq) hq
  obtain ⟨l, _⟩ := last_row hr h1 h2
  have h1' : (1 : ℚ) ≤ rows := by exact_mod_cast h1
  have := rn_mono hr (mul_le_mul_of_nonneg_right hpq (show 0 ≤ lastRowIdx rn rows by linarith))
  have : (lineOf rn rows p : ℚ) < lineOf rn rows q + 1 := by linarith
  have : lineOf rn rows p < lineOf rn rows q + 1 := by exact_mod_cast this
  omega

/-- **C126** Every row is selected by some `f32` phase. -/
theorem every_row (hr : Nearest rn) {rows : Nat} (h2 : rows ≤ 256) (r : Nat) (hlt : r < rows) :
    ∃ phase, F32 phase ∧ 0 ≤ phase ∧ phase ≤ 1 ∧ lineOf rn rows phase = r := by
  have hrows : (0 : ℚ) < rows := by exact_mod_cast (by omega : 0 < rows)
  have h2' : (rows : ℚ) ≤ 256 := by exact_mod_cast h2
  have hr' : (r : ℚ) + 1 ≤ rows := by exact_mod_cast hlt
  set x := ((r : ℚ) + 1 / 2) / rows with hx
  have hx0 : 0 ≤ x := by rw [hx]; positivity
  have hx1 : x ≤ 1 := by rw [hx, div_le_one hrows]; linarith
  have hxr : x * rows = r + 1 / 2 := by rw [hx]; field_simp
  have one : F32 (1 : ℚ) := ⟨1, 0, by norm_num, by norm_num, by norm_num, by norm_num⟩
  have herr := rn_err hr (x := x) (j := 0) (by norm_num) (by norm_num) (by rw [abs_of_nonneg hx0]; simpa using hx1)
  have e : (2 : ℚ) ^ ((0 : ℤ) - 25) = 1 / 2 ^ 25 := by norm_num
  rw [e] at herr
  obtain ⟨a, b⟩ := abs_le.1 herr
  have h0 := rn_ge hr f32_zero hx0
  have h1 := rn_le hr one hx1
  refine ⟨rn x, (hr x).1, h0, h1, ?_⟩
  obtain ⟨_, c, d, _⟩ := row_selected hr (by omega : 1 ≤ rows) h2 h0 h1
  have u : (lineOf rn rows (rn x) : ℚ) < r + 1 := by nlinarith
  have l : (r : ℚ) < lineOf rn rows (rn x) + 1 := by nlinarith
  have u' : lineOf rn rows (rn x) < r + 1 := by exact_mod_cast u
  have l' : r < lineOf rn rows (rn x) + 1 := by exact_mod_cast l
  omega

/-- **C126** (negation) The limit of 256 rows is needed: with 257 rows the phase 1 selects the first row. -/
theorem row_wraps (hr : Nearest rn) : lineOf rn 257 1 = 0 := by
  have e : lastRowIdx rn 257 = 257 := by
    unfold lastRowIdx
    have f := rn_fix hr (f32_rows (rows := 257) le_rfl)
    push_cast at f ⊢
    rw [f]
    obtain ⟨a, b⟩ := abs_le.1 (step_size hr)
    have := rn_unique hr (x := 257 - rn (1 / 100000)) (m := 8421376) (e := -15) (by norm_num) (by norm_num) (by norm_num) (by norm_num) (by
      have e1 : ((8421376 : ℤ) : ℚ) * (2 : ℚ) ^ (-15 : ℤ) = 257 := by norm_num
      have e2 : (2 : ℚ) ^ (-15 : ℤ) = 1 / 2 ^ 15 := by norm_num
      rw [e1, e2, abs_of_nonpos (by linarith)]
      linarith)
    rw [this]
    norm_num
  unfold lineOf Tracker.floorUsize
  have f := rn_fix hr (f32_rows (rows := 257) le_rfl)
  push_cast at f
  rw [e, one_mul, f]
  have : ⌊(257 : ℚ)⌋ = 257 := by norm_num
  rw [this]
  rfl

/-! ## C127: clipped mapping -/

theorem clamp_mem (x : ℚ) : 0 ≤ MapNodes.clamp x 0 1 ∧ MapNodes.clamp x 0 1 ≤ 1 := by
  unfold MapNodes.clamp
  exact ⟨le_max_left _ _, max_le zero_le_one (min_le_right _ _)⟩

/-- Without rounding these are the nodes of `Verif/Model/MapNodes.lean`. -/
theorem maps_exact (mode : ℤ) (inp atv offs imin imax s lo hi : ℚ) :
    smapClipped id mode s lo hi = MapNodes.smap mode 1 s lo hi ∧ mapClipped id inp atv offs imin imax lo hi = MapNodes.map 1 inp atv offs imin imax lo hi := by
  constructor
  · unfold smapClipped MapNodes.smap
    split <;> simp_all
  · simp only [mapClipped, MapNodes.map, position, MapNodes.position, id]
    norm_num

/-- **C127** A clipped `Map` stays between `min` and `max`, whatever the rounding and whatever the inputs. -/
theorem map_stays (inp atv offs imin imax lo hi : ℚ) :
    min lo hi ≤ mapClipped rn inp atv offs imin imax lo hi ∧ mapClipped rn inp atv offs imin imax lo hi ≤ max lo hi := by
  unfold mapClipped
  simp only
  generalize rn (lo + _) = r
  unfold MapNodes.clamp
  split
  · next h => rw [min_eq_left h.le, max_eq_right h.le]; exact ⟨le_max_left _ _, max_le h.le (min_le_right _ _)⟩
  · next h =>
    have h := not_lt.1 h
    rw [min_eq_right h, max_eq_left h]; exact ⟨le_max_left _ _, max_le h (min_le_right _ _)⟩

theorem mix_err (hr : Nearest rn) {lo hi t : ℚ} (hlo : |lo| ≤ 1) (hhi : |hi| ≤ 1) (h0 : 0 ≤ t) (h1 : t ≤ 1) :
    |rn (lo + rn (rn (hi - lo) * t)) - (lo + (hi - lo) * t)| ≤ 3 / 2 ^ 24 := by
  have e : (2 : ℚ) ^ ((1 : ℤ) - 25) = 1 / 2 ^ 24 := by norm_num
  obtain ⟨a1, a2⟩ := abs_le.1 hlo
  obtain ⟨b1, b2⟩ := abs_le.1 hhi
  have two : F32 (2 : ℚ) := ⟨1, 1, by norm_num, by norm_num, by norm_num, by norm_num⟩
  have hd : |hi - lo| ≤ (2 : ℚ) ^ (1 : ℤ) := by rw [zpow_one, abs_le]; constructor <;> linarith
  have e1 := rn_err hr (by norm_num) (by norm_num) hd
  rw [e] at e1
  have d1 : -2 ≤ rn (hi - lo) := rn_ge hr (f32_neg two) (by linarith)
  have d2 : rn (hi - lo) ≤ 2 := rn_le hr two (by linarith)
  have hp : |rn (hi - lo) * t| ≤ (2 : ℚ) ^ (1 : ℤ) := by rw [zpow_one, abs_le]; constructor <;> nlinarith
  have e2 := rn_err hr (by norm_num) (by norm_num) hp
  rw [e] at e2
  obtain ⟨c1, c2⟩ := abs_le.1 e1
  obtain ⟨f1, f2⟩ := abs_le.1 e2
  have g1 : -(1 / 2 ^ 24) ≤ rn (hi - lo) * t - (hi - lo) * t := by nlinarith
  have g2 : rn (hi - lo) * t - (hi - lo) * t ≤ 1 / 2 ^ 24 := by nlinarith
  have k1 : -1 ≤ lo + (hi - lo) * t := by nlinarith
  have k2 : lo + (hi - lo) * t ≤ 1 := by nlinarith
  have hs : |lo + rn (rn (hi - lo) * t)| ≤ (2 : ℚ) ^ (1 : ℤ) := by rw [zpow_one, abs_le]; constructor <;> linarith
  have e3 := rn_err hr (by norm_num) (by norm_num) hs
  rw [e] at e3
  obtain ⟨h1', h2'⟩ := abs_le.1 e3
  rw [abs_le]
  constructor <;> linarith

theorem smap_form (hr : Nearest rn) (mode : ℤ) (m0 : 0 ≤ mode) (m3 : mode ≤ 3) (s lo hi : ℚ) :
    ∃ t, 0 ≤ t ∧ t ≤ 1 ∧ smapClipped rn mode s lo hi = some (rn (lo + rn (rn (hi - lo) * t))) := by
  have one : F32 (1 : ℚ) := ⟨1, 0, by norm_num, by norm_num, by norm_num, by norm_num⟩
  have inv : ∀ x : ℚ, 0 ≤ rn (1 - MapNodes.clamp x 0 1) ∧ rn (1 - MapNodes.clamp x 0 1) ≤ 1 := fun x =>
    ⟨rn_ge hr f32_zero (by linarith [(clamp_mem x).2]), rn_le hr one (by linarith [(clamp_mem x).1])⟩
  rcases (by omega : mode = 0 ∨ mode = 1 ∨ mode = 2 ∨ mode = 3) with rfl | rfl | rfl | rfl
  · exact ⟨_, (clamp_mem s).1, (clamp_mem s).2, rfl⟩
  · exact ⟨_, (clamp_mem _).1, (clamp_mem _).2, rfl⟩
  · exact ⟨_, (inv s).1, (inv s).2, rfl⟩
  · exact ⟨_, (inv _).1, (inv _).2, rfl⟩

/-- **C127** (partial) A clipped `SMap` whose `min` and `max` are in the range of their knobs leaves the interval between them by at most `3 / 2^24`. -/
theorem smap_stays_partial (hr : Nearest rn) (mode : ℤ) (m0 : 0 ≤ mode) (m3 : mode ≤ 3) (s lo hi : ℚ) (hlo : |lo| ≤ 1) (hhi : |hi| ≤ 1) :
    ∃ y, smapClipped rn mode s lo hi = some y ∧ min lo hi - 3 / 2 ^ 24 ≤ y ∧ y ≤ max lo hi + 3 / 2 ^ 24 := by
  obtain ⟨t, h0, h1, e⟩ := smap_form hr mode m0 m3 s lo hi
  refine ⟨_, e, ?_⟩
  obtain ⟨a, b⟩ := abs_le.1 (mix_err hr hlo hhi h0 h1)
  have c : min lo hi ≤ lo + (hi - lo) * t ∧ lo + (hi - lo) * t ≤ max lo hi := by
    rcases le_total lo hi with h | h
    · rw [min_eq_left h, max_eq_right h]; constructor <;> nlinarith
    · rw [min_eq_right h, max_eq_left h]; constructor <;> nlinarith
  constructor <;> linarith [c.1, c.2]

/-- The numbers `-0.2` and `0.1` of type `f32`. -/
def exLo : ℚ := (-13421773 : ℤ) * (2 : ℚ) ^ (-26 : ℤ)
def exHi : ℚ := (13421773 : ℤ) * (2 : ℚ) ^ (-27 : ℤ)

/-- **C127** (negation) A clipped `SMap` with the range from -0.2 to 0.1 exceeds 0.1 at the end of its range, whatever way ties are decided. -/
theorem smap_exceeds (hr : Nearest rn) : F32 exLo ∧ F32 exHi ∧ exLo < exHi ∧ ∃ y, smapClipped rn 0 1 exLo exHi = some y ∧ exHi < y := by
  refine ⟨⟨_, _, by norm_num, by norm_num, by norm_num, rfl⟩, ⟨_, _, by norm_num, by norm_num, by norm_num, rfl⟩, by norm_num [exLo, exHi], _, rfl, ?_⟩
  have c : MapNodes.clamp 1 0 1 = 1 := by norm_num [MapNodes.clamp]
  have d : rn (exHi - exLo) = ((10066330 : ℤ) : ℚ) * (2 : ℚ) ^ (-25 : ℤ) := by
    apply rn_unique hr (by norm_num) (by norm_num) (by norm_num) (by norm_num)
    norm_num [exLo, exHi, abs_lt]
  have d2 : rn (((10066330 : ℤ) : ℚ) * (2 : ℚ) ^ (-25 : ℤ)) = ((10066330 : ℤ) : ℚ) * (2 : ℚ) ^ (-25 : ℤ) :=
    rn_fix hr ⟨_, _, by norm_num, by norm_num, by norm_num, rfl⟩
  have y : rn (exLo + ((10066330 : ℤ) : ℚ) * (2 : ℚ) ^ (-25 : ℤ)) = ((13421774 : ℤ) : ℚ) * (2 : ℚ) ^ (-27 : ℤ) := by
    apply rn_unique hr (by norm_num) (by norm_num) (by norm_num) (by norm_num)
    norm_num [exLo]
  rw [c, d, mul_one, d2, y]
  norm_num [exHi]

/-! ## C130: the random walker -/

theorem one_f32 : F32 (1 : ℚ) := ⟨1, 0, by norm_num, by norm_num, by norm_num, by norm_num⟩

/-- Without rounding it is the target of `Verif/Model/RndWk.lean`. -/
theorem walk_exact (trig mn mx step offs slew value rnd : ℚ) :
    walkTarget id mn mx step offs value rnd = some (RndWk.newTarget ⟨trig, step, offs, mn, mx, slew⟩ value rnd) := by
  have h : (walkRange mn mx).1 ≤ (walkRange mn mx).2 := by
    unfold walkRange; simp only; split <;> simp only <;> linarith
  have hd : (1 : ℚ) / 10000 ≤ MapNodes.clamp ((walkRange mn mx).2 - (walkRange mn mx).1) (1 / 10000) 1 := le_max_left _ _
  have hc : (walkRange mn mx).1 - MapNodes.clamp ((walkRange mn mx).2 - (walkRange mn mx).1) (1 / 10000) 1 * (99 / 100) ≤
      (walkRange mn mx).2 + MapNodes.clamp ((walkRange mn mx).2 - (walkRange mn mx).1) (1 / 10000) 1 * (99 / 100) := by linarith
  simp only [walkTarget, id, clampOrPanic, if_pos hc, Option.map_some]
  rfl

theorem clamp_f32 {x : ℚ} (hx : F32 x) : F32 (MapNodes.clamp x 0 1) := by
  unfold MapNodes.clamp
  rcases max_choice 0 (min x 1) with h | h <;> rw [h]
  · exact f32_zero
  · rcases min_choice x 1 with h | h <;> rw [h]
    · exact hx
    · exact one_f32

theorem walkRange_spec {mn mx : ℚ} (h1 : F32 mn) (h2 : F32 mx) : F32 (walkRange mn mx).1 ∧ F32 (walkRange mn mx).2 ∧ 0 ≤ (walkRange mn mx).1 ∧
    (walkRange mn mx).1 ≤ (walkRange mn mx).2 ∧ (walkRange mn mx).2 ≤ 1 := by
  unfold walkRange
  simp only
  split
  · next h => exact ⟨clamp_f32 h2, clamp_f32 h1, (clamp_mem _).1, h.le, (clamp_mem _).2⟩
  · next h => exact ⟨clamp_f32 h1, clamp_f32 h2, (clamp_mem _).1, not_lt.1 h, (clamp_mem _).2⟩

theorem err (hr : Nearest rn) {x : ℚ} (h : |x| ≤ 1) : |rn x - x| ≤ 1 / 2 ^ 25 := by
  have := rn_err hr (x := x) (j := 0) (by norm_num) (by norm_num) (by simpa using h)
  have e : (2 : ℚ) ^ ((0 : ℤ) - 25) = 1 / 2 ^ 25 := by norm_num
  rwa [e] at this

theorem err2 (hr : Nearest rn) {x : ℚ} (h : |x| ≤ 2) : |rn x - x| ≤ 1 / 2 ^ 24 := by
  have := rn_err hr (x := x) (j := 1) (by norm_num) (by norm_num) (by simpa using h)
  have e : (2 : ℚ) ^ ((1 : ℤ) - 25) = 1 / 2 ^ 24 := by norm_num
  rwa [e] at this

/-- **C130** With `f32` arithmetic a trigger never panics, whatever the inputs, and if the range is at least 0.0001 wide, the new target lies in it. -/
theorem walk_in_range_partial (hr : Nearest rn) {mn mx : ℚ} (h1 : F32 mn) (h2 : F32 mx) (step offs value rnd : ℚ) :
    ∃ t, walkTarget rn mn mx step offs value rnd = some t ∧
      (1 / 10000 ≤ (walkRange mn mx).2 - (walkRange mn mx).1 → (walkRange mn mx).1 ≤ t ∧ t ≤ (walkRange mn mx).2) := by
  obtain ⟨fl, fh, h0, hlh, h1'⟩ := walkRange_spec h1 h2
  unfold walkTarget
  simp only
  generalize rn (rn (value + _) + _) = s
  generalize (walkRange mn mx).1 = lo at *
  generalize (walkRange mn mx).2 = hi at *
  have c0 : 0 ≤ rn (1 / 10000) := rn_ge hr f32_zero (by norm_num)
  have c1 : rn (1 / 10000) ≤ 1 := rn_le hr one_f32 (by norm_num)
  have k0 : 0 ≤ rn (99 / 100) := rn_ge hr f32_zero (by norm_num)
  have k1 : rn (99 / 100) ≤ 1 := rn_le hr one_f32 (by norm_num)
  have kE := abs_le.1 (err hr (x := 99 / 100) (by norm_num [abs_of_pos]))
  have d1 : rn (hi - lo) ≤ 1 := rn_le hr one_f32 (by linarith)
  set delta := MapNodes.clamp (rn (hi - lo)) (rn (1 / 10000)) 1 with hdef
  have hd0 : 0 ≤ delta := c0.trans (le_max_left _ _)
  have hd1 : delta ≤ 1 := max_le c1 (min_le_right _ _)
  have g0 : 0 ≤ rn (delta * rn (99 / 100)) := rn_ge hr f32_zero (mul_nonneg hd0 k0)
  have g1 : rn (delta * rn (99 / 100)) ≤ 1 := rn_le hr one_f32 (by nlinarith)
  have gE := abs_le.1 (err hr (x := delta * rn (99 / 100)) (by rw [abs_of_nonneg (mul_nonneg hd0 k0)]; nlinarith))
  set room := rn (delta * rn (99 / 100)) with hroom
  have hA : rn (lo - room) ≤ lo := rn_le hr fl (by linarith)
  have hB : hi ≤ rn (hi + room) := rn_ge hr fh (by linarith)
  have hAE := abs_le.1 (err hr (x := lo - room) (by rw [abs_le]; constructor <;> linarith))
  have hBE := abs_le.1 (err2 hr (x := hi + room) (by rw [abs_le]; constructor <;> linarith))
  have hAB : rn (lo - room) ≤ rn (hi + room) := by linarith
  refine ⟨_, by rw [clampOrPanic, if_pos hAB, Option.map_some], ?_⟩
  intro hw
  have hd : delta = rn (hi - lo) := by
    rw [hdef]; unfold MapNodes.clamp
    rw [min_eq_left d1, max_eq_right (rn_mono hr hw)]
  have dE := abs_le.1 (err hr (x := hi - lo) (by rw [abs_le]; constructor <;> linarith))
  rw [← hd] at dE
  have hroomle : room ≤ 99 / 100 * (hi - lo) + 3 / 2 ^ 25 := by nlinarith
  generalize hs : MapNodes.clamp s (rn (lo - room)) (rn (hi + room)) = t
  have t0 : rn (lo - room) ≤ t := by rw [← hs]; exact le_max_left _ _
  have t1 : t ≤ rn (hi + room) := by rw [← hs]; exact max_le hAB (min_le_right _ _)
  have e5 : (10 : ℚ) / 2 ^ 25 ≤ 1 / 100 * (hi - lo) := by
    have : (10 : ℚ) / 2 ^ 25 ≤ 1 / 100 * (1 / 10000) := by norm_num
    linarith
  have key : ∀ x : ℚ, lo ≤ x → x ≤ hi → lo ≤ rn x ∧ rn x ≤ hi := fun x a b => ⟨rn_ge hr fl a, rn_le hr fh b⟩
  by_cases ht : t > hi
  · rw [if_pos ht]
    have hE := abs_le.1 (err2 hr (x := hi - t) (by rw [abs_le]; constructor <;> linarith))
    have h0' : rn (hi - t) ≤ 0 := rn_le hr f32_zero (by linarith)
    obtain ⟨a, b⟩ := key (hi - |rn (hi - t)|) (by rw [abs_of_nonpos h0']; linarith) (by linarith [abs_nonneg (rn (hi - t))])
    rw [if_neg (not_lt.2 a)]
    exact ⟨a, b⟩
  · rw [if_neg ht]
    by_cases ht2 : t < lo
    · rw [if_pos ht2]
      have hE := abs_le.1 (err2 hr (x := lo - t) (by rw [abs_le]; constructor <;> linarith))
      have h0' : 0 ≤ rn (lo - t) := rn_ge hr f32_zero (by linarith)
      exact key (lo + |rn (lo - t)|) (by linarith [abs_nonneg (rn (lo - t))]) (by rw [abs_of_nonneg h0']; linarith)
    · rw [if_neg ht2]
      exact ⟨not_lt.1 ht2, not_lt.1 ht⟩

/-- **C130** (negation) If the range is narrower, the target may lie outside: with `min` and `max` at 0 a value that is pushed down ends above 0. -/
theorem narrow_range_left_f32 (hr : Nearest rn) : ∃ t, walkTarget rn 0 0 1 (-1) 0 0 = some t ∧ (walkRange 0 0) = (0, 0) ∧ 0 < t := by
  have two : F32 (2 : ℚ) := ⟨1, 1, by norm_num, by norm_num, by norm_num, by norm_num⟩
  have r0 : rn 0 = 0 := rn_fix hr f32_zero
  have r1 : rn 1 = 1 := rn_fix hr one_f32
  have rm1 : rn (-1) = -1 := rn_fix hr (f32_neg one_f32)
  have rm2 : rn (-2) = -2 := rn_fix hr (f32_neg two)
  have wr : walkRange 0 0 = (0, 0) := by norm_num [walkRange, MapNodes.clamp]
  have c0 : 0 ≤ rn (1 / 10000) := rn_ge hr f32_zero (by norm_num)
  have c1 : rn (1 / 10000) ≤ 1 := rn_le hr one_f32 (by norm_num)
  have cE := abs_le.1 (err hr (x := 1 / 10000) (by norm_num [abs_of_pos]))
  have kE := abs_le.1 (err hr (x := 99 / 100) (by norm_num [abs_of_pos]))
  have dl : MapNodes.clamp (rn ((0 : ℚ) - 0)) (rn (1 / 10000)) 1 = rn (1 / 10000) := by
    rw [sub_zero, r0]; unfold MapNodes.clamp
    rw [min_eq_left zero_le_one, max_eq_left c0]
  have cp : MapNodes.clamp (1 : ℚ) (-1) 1 = 1 := by norm_num [MapNodes.clamp]
  have cm : MapNodes.clamp (-1 : ℚ) (-1) 1 = -1 := by norm_num [MapNodes.clamp]
  simp only [walkTarget, wr, dl, cp, cm]
  have e1 : rn (rn (0 + rn (rn (rn ((0 : ℚ) * 2) * 1) - 1)) + -1) = -2 := by
    rw [zero_mul, r0, zero_mul, r0, zero_sub, rm1, zero_add, rm1, show (-1 : ℚ) + -1 = -2 by norm_num, rm2]
  rw [e1]
  have p : (1 : ℚ) / 20000 ≤ rn (1 / 10000) * rn (99 / 100) := by
    have a : (9 : ℚ) / 100000 ≤ rn (1 / 10000) := by linarith
    have b : (9 : ℚ) / 10 ≤ rn (99 / 100) := by linarith
    nlinarith
  have q : rn (1 / 10000) * rn (99 / 100) ≤ 1 := by
    have b : rn (99 / 100) ≤ 1 := rn_le hr one_f32 (by norm_num)
    have b0 : 0 ≤ rn (99 / 100) := rn_ge hr f32_zero (by norm_num)
    nlinarith
  have gE := abs_le.1 (err hr (x := rn (1 / 10000) * rn (99 / 100)) (by rw [abs_le]; constructor <;> linarith))
  have g1 : rn (rn (1 / 10000) * rn (99 / 100)) ≤ 1 := rn_le hr one_f32 q
  have gF : F32 (rn (rn (1 / 10000) * rn (99 / 100))) := (hr _).1
  set g := rn (rn (1 / 10000) * rn (99 / 100)) with hg
  have gpos : 0 < g := by linarith
  have rneg : rn (0 - g) = -g := by rw [zero_sub]; exact rn_fix hr (f32_neg gF)
  have rpos : rn (0 + g) = g := by rw [zero_add]; exact rn_fix hr gF
  have cl : clampOrPanic (-2) (-g) g = some (-g) := by
    unfold clampOrPanic MapNodes.clamp
    rw [if_pos (by linarith), min_eq_left (by linarith), max_eq_left (by linarith)]
  rw [rneg, rpos, cl, Option.map_some]
  refine ⟨_, rfl, trivial, ?_⟩
  have ng1 : ¬ -g > 0 := by linarith
  have ng2 : -g < 0 := by linarith
  rw [if_neg ng1, if_pos ng2, show (0 : ℚ) - -g = g by ring, rn_fix hr gF, abs_of_pos gpos, zero_add, rn_fix hr gF]
  exact gpos

/-! ## C128: NaN -/

theorem clampAssert_some (x : Option ℚ) {l h : ℚ} (hlh : l ≤ h) : ∃ y, clampAssert x (some l) (some h) = some y ∧ (x = none → y = none) ∧
    ∀ v, x = some v → ∃ w, y = some w ∧ l ≤ w ∧ w ≤ h := by
  unfold clampAssert
  simp only [if_pos hlh]
  refine ⟨_, rfl, fun e => by rw [e]; rfl, ?_⟩
  rintro v rfl
  refine ⟨_, rfl, ?_⟩
  beta_reduce
  split
  · exact ⟨le_rfl, hlh⟩
  · split
    · exact ⟨hlh, le_rfl⟩
    · exact ⟨not_lt.1 ‹_›, not_lt.1 ‹_›⟩

/-- **C128** (partial) A clipped `Map` panics exactly if the signal at `min` or the one at `max` is NaN, whatever the other signals are. -/
theorem map_panics_iff (r lo hi : Option ℚ) : mapWrite r lo hi = none ↔ lo = none ∨ hi = none := by
  unfold mapWrite
  rcases lo with _ | lo <;> rcases hi with _ | hi
  · simp [lt, clampAssert]
  · simp [lt, clampAssert]
  · simp [lt, clampAssert]
  · simp only [lt, decide_eq_true_eq, reduceCtorEq, or_self, iff_false]
    split
    · next h => obtain ⟨y, e, _⟩ := clampAssert_some r h.le; rw [e]; simp
    · next h => obtain ⟨y, e, _⟩ := clampAssert_some r (not_lt.1 h); rw [e]; simp

/-- **C128** (partial) A triggered random walker panics exactly if the signal at `min` or the one at `max` is NaN. -/
theorem rndwk_panics_iff (lo hi t : Option ℚ) : newTarget lo hi t = none ↔ lo = none ∨ hi = none := by
  obtain ⟨lo', e1, n1, s1⟩ := clampAssert_some lo (zero_le_one (α := ℚ))
  obtain ⟨hi', e2, n2, s2⟩ := clampAssert_some hi (zero_le_one (α := ℚ))
  have hd : ((1 : ℚ) / 10000) ≤ 1 := by norm_num
  simp only [newTarget, e1, e2, Option.bind_some]
  rcases lo with _ | lo
  · rw [n1 rfl]
    obtain ⟨d', e3, n3, _⟩ := clampAssert_some (op (· - ·) hi' none) hd
    have ho : op (fun x y : ℚ => x - y) hi' none = none := by cases hi' <;> rfl
    have hl : lt hi' none = false := by cases hi' <;> rfl
    simp only [hl, Bool.false_eq_true, if_false, e3, Option.bind_some]
    rw [n3 ho]
    simp [op, clampAssert]
  · obtain ⟨l, rfl, hl0, hl1⟩ := s1 lo rfl
    rcases hi with _ | hi
    · rw [n2 rfl]
      obtain ⟨d', e3, n3, _⟩ := clampAssert_some (op (· - ·) none (some l)) hd
      simp only [lt, Bool.false_eq_true, if_false, e3, Option.bind_some]
      rw [n3 rfl]
      simp [op, clampAssert]
    · obtain ⟨h, rfl, hh0, hh1⟩ := s2 hi rfl
      simp only [reduceCtorEq, or_self, iff_false]
      have fin : ∀ a b : ℚ, a ≤ b → ((clampAssert (op (· - ·) (some b) (some a)) (some (1 / 10000)) (some 1)).bind (fun delta =>
          (clampAssert t (op (· - ·) (some a) (op (· * ·) delta (some (99 / 100)))) (op (· + ·) (some b) (op (· * ·) delta (some (99 / 100))))).map (fun t =>
          let t := if lt (some b) t then op (fun h t => h - |h - t|) (some b) t else t
          if lt t (some a) then op (fun l t => l + |l - t|) (some a) t else t))) ≠ none := by
        intro a b hab
        obtain ⟨d', e3, _, s3⟩ := clampAssert_some (op (· - ·) (some b) (some a)) hd
        obtain ⟨d, rfl, hd0, _⟩ := s3 _ rfl
        rw [e3, Option.bind_some]
        obtain ⟨y, e4, _⟩ := clampAssert_some t (show a - d * (99 / 100) ≤ b + d * (99 / 100) by linarith)
        have : clampAssert t (op (· - ·) (some a) (op (· * ·) (some d) (some (99 / 100)))) (op (· + ·) (some b) (op (· * ·) (some d) (some (99 / 100)))) = some y := e4
        rw [this]
        simp
      by_cases hc : h < l
      · have : lt (some h) (some l) = true := by simpa [lt] using hc
        rw [this]
        exact fin h l hc.le
      · have : lt (some h) (some l) = false := by simpa [lt] using not_lt.1 hc
        rw [this]
        exact fin l h (not_lt.1 hc)

/-- **C128** (negation) One sample that is NaN at the input `min` stops the audio thread. -/
theorem nan_panics : mapWrite (some (1/2)) none (some 1) = none ∧ newTarget none (some 1) (some (1/2)) = none :=
  ⟨(map_panics_iff _ _ _).2 (.inl rfl), (rndwk_panics_iff _ _ _).2 (.inl rfl)⟩

/-! ## The hypotheses are met -/

example : ∃ rn, Nearest rn ∧ lineOf rn 256 1 = 255 := by
  obtain ⟨rn, h⟩ := nearest_exists
  exact ⟨rn, h, (row_selected h (by norm_num) (by norm_num) (phase := 1) (by norm_num) le_rfl).2.2.2⟩

example : smapClipped id 3 (1/2) (-1) 1 = some (-1/2) ∧ mapClipped id (3/2) 1 0 0 1 (-1) 1 = 1 ∧ mapWrite none (some 0) (some 1) = some none ∧
    newTarget (some 1) (some 0) (some (3/2)) = some (some (1/2)) := by decide +kernel

example : ∃ rn, Nearest rn ∧ ∃ t, walkTarget rn 1 (1/4) 1 1 (1/2) 1 = some t ∧ 1/4 ≤ t ∧ t ≤ 1 := by
  obtain ⟨rn, h⟩ := nearest_exists
  obtain ⟨t, e, ht⟩ := walk_in_range_partial h (mn := 1) (mx := 1/4) one_f32 ⟨1, -2, by norm_num, by norm_num, by norm_num, by norm_num⟩ 1 1 (1/2) 1
  have wr : walkRange 1 (1/4) = (1/4, 1) := by norm_num [walkRange, MapNodes.clamp]
  rw [wr] at ht
  exact ⟨rn, h, t, e, ht (by norm_num)⟩

example : walkTarget id 1 (1/4) (1/2) 0 (3/4) 1 = some (3/4) := by decide +kernel

end HexoDSP.FloatNodesProps
