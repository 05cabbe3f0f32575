import Verif.Props.SamplFloat
/-!
# Which part of a recording is played, with `f32` and `f64` numbers (C144)
-/

set_option linter.unusedSectionVars false

namespace HexoDSP.SamplPartProps
open HexoDSP.SamplFloat HexoDSP.SamplFloatSpec HexoDSP.SinSpec HexoDSP.SamplFloatProps

variable {rn rn32 : ℚ → ℚ}

theorem min_near {a b c d e : ℚ} (h1 : |a - c| ≤ e) (h2 : |b - d| ≤ e) : |min a b - min c d| ≤ e := by
  obtain ⟨p, q⟩ := abs_le.1 h1
  obtain ⟨r, s⟩ := abs_le.1 h2
  rw [abs_le]
  constructor
  · have := le_min (show min c d - e ≤ a by linarith [min_le_left c d]) (show min c d - e ≤ b by linarith [min_le_right c d])
    linarith
  · have := le_min (show min a b - e ≤ c by linarith [min_le_left a b]) (show min a b - e ≤ d by linarith [min_le_right a b])
    linarith

/-- **C144** The offset setting, limited to a place before the end: as set, up to `2^-25`, and never 1. -/
theorem offset (h32 : Nearest rn32) (offs : ℚ) : 0 ≤ curOffs rn32 offs ∧ curOffs rn32 offs ≤ 1 - 1 / 2 ^ 21 ∧
    |curOffs rn32 offs - min |offs| (999999 / 1000000)| ≤ 1 / 2 ^ 25 := by
  have e := FloatLemmas.rn_err h32 (x := 999999 / 1000000) (j := 0) (by norm_num) (by norm_num) (by norm_num [abs_le])
  have e2 : (2 : ℚ) ^ ((0 : ℤ) - 25) = 1 / 2 ^ 25 := by norm_num
  rw [e2] at e
  unfold curOffs
  generalize rn32 (999999 / 1000000) = L at *
  obtain ⟨a, b⟩ := abs_le.1 e
  norm_num at a b
  refine ⟨le_min (abs_nonneg _) (by linarith), (min_le_right _ _).trans (by norm_num; linarith), ?_⟩
  exact min_near (by simp) e

theorem err (hr : Nearest64 rn) {n : ℕ} (hb : n ≤ 2 ^ 50) {o : ℚ} (h0 : 0 ≤ o) (h1 : o ≤ 1) : |rn (n * o) - n * o| ≤ 1 / 16 := by
  have n2 : (n : ℚ) ≤ 2 ^ 50 := by exact_mod_cast hb
  have n0 : (0 : ℚ) ≤ n := Nat.cast_nonneg _
  have := mul_le_mul n2 h1 h0 (by norm_num)
  have e := SamplFloatProps.rn_err hr (x := n * o) (j := 50) (by norm_num) (by norm_num) (by
    rw [abs_of_nonneg (mul_nonneg n0 h0)]; norm_num at this ⊢; exact this)
  norm_num at e ⊢
  exact e

/-- **C144** The part that is played starts inside of the recording, where the offset says up to one sample and an eighth, and ends inside of it. It is as long as the length setting says, as far as there is something left of the
recording, up to a sample. -/
theorem part (hr : Nearest64 rn) (h32 : Nearest rn32) {n : ℕ} (hn : 0 < n) (hb : n ≤ 2 ^ 50) (offs len : ℚ) :
    startIdx rn n (curOffs rn32 offs) < n ∧ startIdx rn n (curOffs rn32 offs) + count rn n (startIdx rn n (curOffs rn32 offs)) len ≤ n ∧
    |(startIdx rn n (curOffs rn32 offs) : ℚ) - n * curOffs rn32 offs| ≤ 9 / 8 ∧
    |(count rn n (startIdx rn n (curOffs rn32 offs)) len : ℚ) - min ((n : ℚ) - startIdx rn n (curOffs rn32 offs)) (n * min |len| 1)| ≤ 1 := by
  obtain ⟨o0, o1, -⟩ := offset h32 offs
  generalize curOffs rn32 offs = o at *
  have n0 : (0 : ℚ) < n := by exact_mod_cast hn
  have n2 : (n : ℚ) ≤ 2 ^ 50 := by exact_mod_cast hb
  have oo : o ≤ 1 := by norm_num at o1; linarith
  have no0 : 0 ≤ n * o := mul_nonneg n0.le o0
  have e := err hr hb o0 oo
  have z0 : 0 ≤ rn (n * o) := SamplFloatProps.rn_ge hr f64_zero no0
  have lt : rn (n * o) < n := by
    have up : n * o ≤ n - n * (1 / 2 ^ 21) := by
      have := mul_le_mul_of_nonneg_left o1 n0.le
      linarith
    rcases le_or_gt (n : ℚ) (2 ^ 18) with h | h
    · have e := SamplFloatProps.rn_err hr (x := n * o) (j := 18) (by norm_num) (by norm_num) (by
        rw [abs_of_nonneg no0]
        have := mul_le_mul h oo o0 (by norm_num)
        norm_num at this ⊢; exact this)
      obtain ⟨_, b⟩ := abs_le.1 e
      have n1 : (1 : ℚ) ≤ n := by exact_mod_cast hn
      norm_num at b up
      linarith
    · obtain ⟨_, b⟩ := abs_le.1 e
      have h : (262144 : ℚ) < n := by norm_num at h; exact_mod_cast h
      norm_num at b up
      linarith
  obtain ⟨e1, e2⟩ := abs_le.1 e
  have fl : ⌊rn (n * o)⌋ < n := by rw [Int.floor_lt]; exact_mod_cast lt
  have f0 : 0 ≤ ⌊rn (n * o)⌋ := Int.floor_nonneg.2 z0
  have hs : startIdx rn n o = ⌊rn (n * o)⌋.toNat := by unfold startIdx; exact min_eq_left (by omega)
  have hsq : ((⌊rn (n * o)⌋.toNat : ℕ) : ℚ) = (⌊rn (n * o)⌋ : ℚ) := by exact_mod_cast Int.toNat_of_nonneg f0
  have hlt : startIdx rn n o < n := by omega
  have g1 := Int.floor_le (rn (n * o))
  have g2 := Int.lt_floor_add_one (rn (n * o))
  refine ⟨hlt, ?_, ?_, ?_⟩
  · unfold count
    rw [if_pos hlt.le]
    have := min_le_left (n - startIdx rn n o) ⌊rn (n * min |len| 1) + 1 / 2⌋.toNat
    omega
  · rw [hs, hsq, abs_le]
    constructor <;> linarith
  · generalize startIdx rn n o = s at *
    unfold count
    rw [if_pos hlt.le]
    have l0 : 0 ≤ min |len| 1 := le_min (abs_nonneg _) (by norm_num)
    have l1 : min |len| 1 ≤ 1 := min_le_right _ _
    have w := err hr hb l0 l1
    have nl0 : 0 ≤ n * min |len| 1 := mul_nonneg n0.le l0
    have y0 : 0 ≤ rn (n * min |len| 1) := SamplFloatProps.rn_ge hr f64_zero nl0
    generalize n * min |len| 1 = x at *
    obtain ⟨w1, w2⟩ := abs_le.1 w
    generalize rn x = y at *
    have m0 : 0 ≤ ⌊y + 1 / 2⌋ := Int.floor_nonneg.2 (by linarith)
    have mq : ((⌊y + 1 / 2⌋.toNat : ℕ) : ℚ) = (⌊y + 1 / 2⌋ : ℚ) := by exact_mod_cast Int.toNat_of_nonneg m0
    have m1 := Int.floor_le (y + 1 / 2)
    have m2 := Int.lt_floor_add_one (y + 1 / 2)
    rw [← mq] at m1 m2
    rw [Nat.cast_min, Nat.cast_sub hlt.le]
    generalize ((⌊y + 1 / 2⌋.toNat : ℕ) : ℚ) = q at *
    exact min_near (by simp) (abs_le.2 ⟨by linarith, by linarith⟩)

/-- **C144** A length setting of a sample or more always leaves something to play. -/
theorem not_empty (hr : Nearest64 rn) (h32 : Nearest rn32) {n : ℕ} (hn : 0 < n) (hb : n ≤ 2 ^ 50) (offs : ℚ) {len : ℚ} (h1 : 1 ≤ n * min |len| 1) :
    0 < count rn n (startIdx rn n (curOffs rn32 offs)) len := by
  obtain ⟨h, -⟩ := part hr h32 hn hb offs len
  unfold count
  rw [if_pos h.le]
  have one : F64 1 := by simpa using pow2_f64 (k := 0) (by norm_num) (by norm_num)
  have y := SamplFloatProps.rn_ge hr one h1
  have : 1 ≤ ⌊rn (n * min |len| 1) + 1 / 2⌋ := by rw [Int.le_floor]; push_cast; linarith
  omega

/-- **C144** With exact numbers this is the part of C79. -/
theorem same_part (c : Sampl.Cfg) (l : Sampl.Loc) (f : Sampl.Frame) (h : l.prevOffs ≠ curOffs id f.offs) :
    (Sampl.relocate c l f).start = startIdx id c.data.length (curOffs id f.offs) ∧
    (Sampl.relocate c l f).count = count id c.data.length (startIdx id c.data.length (curOffs id f.offs)) f.len := by
  have h' : l.prevOffs ≠ min |f.offs| (999999 / 1000000) := h
  unfold Sampl.relocate
  simp only [h', ne_eq, not_false_eq_true, decide_true, if_true, Bool.true_or]
  exact ⟨rfl, rfl⟩

-- a recording of ten minutes, the second half, a quarter of it long
example : ∃ rn rn32, Nearest64 rn ∧ Nearest rn32 ∧ 0 < 26460000 ∧ 26460000 ≤ 2 ^ 50 ∧ (1 : ℚ) ≤ (26460000 : ℕ) * min |(1 / 4 : ℚ)| 1 ∧
    startIdx rn 26460000 (curOffs rn32 (1 / 2)) < 26460000 := by
  obtain ⟨rn, hr⟩ := nearest64_exists
  obtain ⟨rn32, h32⟩ := FloatLemmas.nearest_exists
  exact ⟨rn, rn32, hr, h32, by norm_num, by norm_num, by norm_num [abs_of_pos], (part hr h32 (by norm_num) (by norm_num) _ 1).1⟩

end HexoDSP.SamplPartProps
