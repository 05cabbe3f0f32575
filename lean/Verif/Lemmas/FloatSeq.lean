import Verif.Props.FloatNodes
import Verif.Model.FloatSeq
import Verif.Spec.FloatSeq

namespace HexoDSP.FloatSeq.Lemmas
open HexoDSP.FloatNodes HexoDSP.FloatLemmas HexoDSP.SinSpec HexoDSP.FloatNodesProps HexoDSP.FloatSeqSpec

variable {rn : ℚ → ℚ}

/-- There is no `f32` between 1 and `1 + 2^-23`. -/
theorem gap_above_one {y : ℚ} (h : F32 y) (h1 : 1 < y) : 1 + 1 / 2 ^ 23 ≤ y := by
  obtain ⟨m, e, hm, h2, h3, rfl⟩ := h
  have hp : (0 : ℚ) < (2 : ℚ) ^ e := zpow_pos (by norm_num) _
  have hm' : (m : ℚ) < 2 ^ 24 := by exact_mod_cast (abs_lt.1 hm).2
  have he : -23 ≤ e := by
    by_contra hc
    have : (2 : ℚ) ^ e ≤ (2 : ℚ) ^ (-24 : ℤ) := zpow_le_zpow_right₀ (by norm_num) (by omega)
    have e24 : (2 : ℚ) ^ (-24 : ℤ) = 1 / 2 ^ 24 := by norm_num
    rw [e24] at this
    have m0 : (0 : ℚ) < m := by
      by_contra hc'
      have := mul_nonpos_of_nonpos_of_nonneg (not_lt.1 hc') hp.le
      linarith
    nlinarith
  obtain ⟨n, rfl⟩ : ∃ n : Nat, e = -23 + n := ⟨(e + 23).toNat, by omega⟩
  have e1 : (m : ℚ) * (2 : ℚ) ^ (-23 + n : ℤ) = ((m * 2 ^ n : ℤ) : ℚ) / 2 ^ 23 := by
    rw [zpow_add₀ (by norm_num)]
    push_cast
    rw [zpow_natCast]
    norm_num
    ring
  rw [e1] at h1 ⊢
  have h4 : ((2 ^ 23 : ℤ) : ℚ) < ((m * 2 ^ n : ℤ) : ℚ) := by
    rw [lt_div_iff₀ (by norm_num)] at h1
    push_cast at h1 ⊢
    linarith
  have h5 : (2 ^ 23 : ℤ) + 1 ≤ m * 2 ^ n := by exact_mod_cast h4
  have h6 : (((2 ^ 23 : ℤ) + 1 : ℤ) : ℚ) ≤ ((m * 2 ^ n : ℤ) : ℚ) := by exact_mod_cast h5
  rw [le_div_iff₀ (by norm_num)]
  push_cast at h6 ⊢
  linarith

theorem rn_le_one (hr : Nearest rn) {z : ℚ} (h : z ≤ 1 + 1 / 2 ^ 25) : rn z ≤ 1 := by
  by_contra hc
  have hc := not_le.1 hc
  have g := gap_above_one (hr z).1 hc
  have n := (hr z).2 1 one_f32
  by_cases hz : z ≤ 1
  · exact absurd (rn_le hr one_f32 hz) (not_le.2 hc)
  · have hz := not_le.1 hz
    rw [abs_of_neg (by linarith : 1 - z < 0)] at n
    have := (abs_le.1 n).2
    linarith

/-- The fraction of an `f32` is an `f32`. -/
theorem fract_f32 {x : ℚ} (h : F32 x) (h0 : 0 ≤ x) : F32 (Tracker.fract x) := by
  unfold Tracker.fract
  rw [if_pos h0]
  obtain ⟨m, e, hm, h2, h3, rfl⟩ := h
  have hp : (0 : ℚ) < (2 : ℚ) ^ e := zpow_pos (by norm_num) _
  have m0 : 0 ≤ m := by
    by_contra hc
    have : (m : ℚ) < 0 := by exact_mod_cast not_le.1 hc
    nlinarith
  by_cases he : 0 ≤ e
  · obtain ⟨n, rfl⟩ : ∃ n : Nat, e = n := ⟨e.toNat, by omega⟩
    have : (m : ℚ) * (2 : ℚ) ^ (n : ℤ) = ((m * 2 ^ n : ℤ) : ℚ) := by push_cast; rw [zpow_natCast]
    rw [this, Int.floor_intCast, sub_self]
    exact f32_zero
  · obtain ⟨n, rfl⟩ : ∃ n : Nat, e = -n := ⟨(-e).toNat, by omega⟩
    have e1 : (m : ℚ) * (2 : ℚ) ^ (-n : ℤ) = (m : ℚ) / ((2 ^ n : ℤ) : ℚ) := by
      rw [zpow_neg, zpow_natCast]; push_cast; rw [div_eq_mul_inv]
    have hd : (0 : ℤ) < 2 ^ n := by positivity
    refine ⟨m % 2 ^ n, -n, ?_, h2, h3, ?_⟩
    · rw [abs_of_nonneg (Int.emod_nonneg _ hd.ne')]
      have k1 := Int.mul_ediv_add_emod m (2 ^ n)
      have k2 := mul_nonneg hd.le (Int.ediv_nonneg m0 hd.le)
      have := (abs_lt.1 hm).2
      omega
    · have e2 : ((m % 2 ^ n : ℤ) : ℚ) * (2 : ℚ) ^ (-n : ℤ) = ((m % 2 ^ n : ℤ) : ℚ) / ((2 ^ n : ℤ) : ℚ) := by
        rw [zpow_neg, zpow_natCast]; push_cast; rw [div_eq_mul_inv]
      have hf : ⌊(m : ℚ) / ((2 ^ n : ℤ) : ℚ)⌋ = m / 2 ^ n := by
        have k := Rat.floor_intCast_div_natCast m (2 ^ n)
        push_cast at k ⊢
        exact k
      rw [e1, e2, hf]
      have hdq : (0 : ℚ) < ((2 ^ n : ℤ) : ℚ) := by exact_mod_cast hd
      rw [eq_div_iff hdq.ne', sub_mul, div_mul_cancel₀ _ hdq.ne']
      have := Int.mul_ediv_add_emod m (2 ^ n)
      have h' : ((2 ^ n * (m / 2 ^ n) + m % 2 ^ n : ℤ) : ℚ) = (m : ℚ) := by exact_mod_cast this
      push_cast at h' ⊢
      linarith

theorem fract_mem (x : ℚ) (h0 : 0 ≤ x) : 0 ≤ Tracker.fract x ∧ Tracker.fract x < 1 := by
  unfold Tracker.fract
  rw [if_pos h0]
  exact ⟨by linarith [Int.floor_le x], by linarith [Int.lt_floor_add_one x]⟩

/-- The line is as steep as its values allow. -/
theorem curve_lip {rows : Nat} (h1 : 1 ≤ rows) {val : Nat → ℚ} (hv : ∀ r, r < rows → 0 ≤ val r ∧ val r ≤ 1) {a b : ℚ} (ha : 0 ≤ a) (hab : a ≤ b) (hb : b ≤ a + 1) :
    |curve rows val b - curve rows val a| ≤ b - a := by
  have fa := Nat.floor_le ha
  have fa' := Nat.lt_floor_add_one a
  have fb := Nat.floor_le (ha.trans hab)
  have fb' := Nat.lt_floor_add_one b
  have hm : ∀ k, k % rows < rows := fun k => Nat.mod_lt _ h1
  have hk : ⌊b⌋₊ = ⌊a⌋₊ ∨ ⌊b⌋₊ = ⌊a⌋₊ + 1 := by
    have g1 : ⌊a⌋₊ ≤ ⌊b⌋₊ := Nat.floor_mono hab
    have g2 : ⌊b⌋₊ < ⌊a⌋₊ + 2 := by
      rw [Nat.floor_lt (ha.trans hab)]; push_cast; linarith
    omega
  unfold curve
  rcases hk with e | e
  · rw [e] at fb fb' ⊢
    dsimp only
    obtain ⟨p0, p1⟩ := hv _ (hm (⌊a⌋₊ + rows - 1))
    obtain ⟨n0, n1⟩ := hv _ (hm ⌊a⌋₊)
    generalize val ((⌊a⌋₊ + rows - 1) % rows) = p at *
    generalize val (⌊a⌋₊ % rows) = n at *
    rw [abs_le]
    constructor <;> nlinarith
  · have e3 : (⌊a⌋₊ + 1 + rows - 1) % rows = ⌊a⌋₊ % rows := by
      rw [show ⌊a⌋₊ + 1 + rows - 1 = ⌊a⌋₊ + rows by omega, Nat.add_mod_right]
    rw [e] at fb fb' ⊢
    dsimp only
    rw [e3]
    obtain ⟨p0, p1⟩ := hv _ (hm (⌊a⌋₊ + rows - 1))
    obtain ⟨n0, n1⟩ := hv _ (hm ⌊a⌋₊)
    obtain ⟨q0, q1⟩ := hv _ (hm (⌊a⌋₊ + 1))
    push_cast at fb fb' ⊢
    generalize val ((⌊a⌋₊ + rows - 1) % rows) = p at *
    generalize val (⌊a⌋₊ % rows) = n at *
    generalize val ((⌊a⌋₊ + 1) % rows) = q at *
    rw [abs_le]
    constructor <;> nlinarith

theorem mix_bounds (hr : Nearest rn) {p n f : ℚ} (hp : 0 ≤ p ∧ p ≤ 1) (hn : 0 ≤ n ∧ n ≤ 1) (hf : 0 ≤ f ∧ f ≤ 1) (hF : F32 f) :
    0 ≤ rn (rn (p * rn (1 - f)) + rn (n * f)) ∧ rn (rn (p * rn (1 - f)) + rn (n * f)) ≤ 1 ∧
    |rn (rn (p * rn (1 - f)) + rn (n * f)) - (p * (1 - f) + n * f)| ≤ 5 / 2 ^ 25 := by
  have a0 : 0 ≤ rn (1 - f) := rn_ge hr f32_zero (by linarith)
  have a1 : rn (1 - f) ≤ 1 := rn_le hr one_f32 (by linarith)
  have aE := abs_le.1 (err hr (x := 1 - f) (by rw [abs_of_nonneg (by linarith)]; linarith))
  have b0 : 0 ≤ rn (p * rn (1 - f)) := rn_ge hr f32_zero (mul_nonneg hp.1 a0)
  have b1 : rn (p * rn (1 - f)) ≤ rn (1 - f) := rn_le hr (hr _).1 (by nlinarith)
  have bE := abs_le.1 (err hr (x := p * rn (1 - f)) (by rw [abs_of_nonneg (mul_nonneg hp.1 a0)]; nlinarith))
  have c0 : 0 ≤ rn (n * f) := rn_ge hr f32_zero (mul_nonneg hn.1 hf.1)
  have c1 : rn (n * f) ≤ f := rn_le hr hF (by nlinarith)
  have cE := abs_le.1 (err hr (x := n * f) (by rw [abs_of_nonneg (mul_nonneg hn.1 hf.1)]; nlinarith))
  have sE := abs_le.1 (err2 hr (x := rn (p * rn (1 - f)) + rn (n * f)) (by rw [abs_of_nonneg (by linarith)]; linarith))
  refine ⟨rn_ge hr f32_zero (by linarith), rn_le_one hr (by linarith), ?_⟩
  have k1 : p * (rn (1 - f) - (1 - f)) ≤ 1 / 2 ^ 25 := by nlinarith
  have k2 : -(1 / 2 ^ 25) ≤ p * (rn (1 - f) - (1 - f)) := by nlinarith
  rw [abs_le]
  constructor <;> linarith

/-- There is no `f32` between `1 - 2^-24` and 1. -/
theorem gap_below_one {y : ℚ} (h : F32 y) (h1 : y < 1) : y ≤ 1 - 1 / 2 ^ 24 := by
  by_cases hh : y ≤ 1 / 2
  · linarith
  have hh := not_le.1 hh
  obtain ⟨m, e, hm, h2, h3, rfl⟩ := h
  have hp : (0 : ℚ) < (2 : ℚ) ^ e := zpow_pos (by norm_num) _
  have hm' : (m : ℚ) < 2 ^ 24 := by exact_mod_cast (abs_lt.1 hm).2
  have he : -24 ≤ e := by
    by_contra hc
    have : (2 : ℚ) ^ e ≤ (2 : ℚ) ^ (-25 : ℤ) := zpow_le_zpow_right₀ (by norm_num) (by omega)
    have e25 : (2 : ℚ) ^ (-25 : ℤ) = 1 / 2 ^ 25 := by norm_num
    rw [e25] at this
    have m0 : (0 : ℚ) < m := by
      by_contra hc'
      have := mul_nonpos_of_nonpos_of_nonneg (not_lt.1 hc') hp.le
      linarith
    nlinarith
  obtain ⟨n, rfl⟩ : ∃ n : Nat, e = -24 + n := ⟨(e + 24).toNat, by omega⟩
  have e1 : (m : ℚ) * (2 : ℚ) ^ (-24 + n : ℤ) = ((m * 2 ^ n : ℤ) : ℚ) / 2 ^ 24 := by
    rw [zpow_add₀ (by norm_num)]
    push_cast
    rw [zpow_natCast]
    norm_num
    ring
  rw [e1] at h1 ⊢
  have h4 : ((m * 2 ^ n : ℤ) : ℚ) < ((2 ^ 24 : ℤ) : ℚ) := by
    rw [div_lt_iff₀ (by norm_num)] at h1
    push_cast at h1 ⊢
    linarith
  have h5 : m * 2 ^ n ≤ (2 ^ 24 : ℤ) - 1 := by
    have : m * 2 ^ n < (2 ^ 24 : ℤ) := by exact_mod_cast h4
    omega
  have h6 : ((m * 2 ^ n : ℤ) : ℚ) ≤ (((2 ^ 24 : ℤ) - 1 : ℤ) : ℚ) := by exact_mod_cast h5
  rw [div_le_iff₀ (by norm_num)]
  push_cast at h6 ⊢
  linarith

/-- Nearer to `c` than to `d`. -/
theorem rn_lt_of_nearer (hr : Nearest rn) {z c d : ℚ} (hc : F32 c) (hcd : c < d) (hz : 2 * z < c + d) : rn z < d := by
  rcases le_total z c with h | h
  · linarith [rn_le hr hc h]
  · by_contra hn
    have hn := not_lt.1 hn
    have n := (hr z).2 c hc
    rw [abs_of_nonneg (by linarith : 0 ≤ rn z - z), abs_of_nonpos (by linarith : c - z ≤ 0)] at n
    linarith

/-- A fraction of a row times the number of its gates is less than that number, after the rounding too. -/
theorem scaled_lt (hr : Nearest rn) {f : ℚ} (hF : F32 f) (h1 : f < 1) {d : Nat} (d1 : 1 ≤ d) (d16 : d ≤ 16) : rn (f * d) < d := by
  have g := gap_below_one hF h1
  have key : ∀ j : Nat, 20 ≤ j → j ≤ 24 → d * 2 ^ j ≤ 2 ^ 24 → 2 ^ 24 < 2 * (d * 2 ^ j) → rn (f * d) < d := by
    intro j j1 j2 h3 h4
    have hj : (0 : ℚ) < 2 ^ j := by positivity
    have h3' : (d : ℚ) * 2 ^ j ≤ 2 ^ 24 := by exact_mod_cast h3
    have h4' : (2 : ℚ) ^ 24 < 2 * (d * 2 ^ j) := by exact_mod_cast h4
    have hc : F32 ((d : ℚ) - 1 / 2 ^ j) := by
      refine ⟨(d * 2 ^ j : Nat) - 1, -j, ?_, by omega, by omega, ?_⟩
      · rw [abs_lt]
        have : 1 ≤ d * 2 ^ j := Nat.succ_le_of_lt (Nat.mul_pos d1 (by positivity))
        constructor <;> omega
      · push_cast
        rw [zpow_neg, zpow_natCast]
        field_simp
    have hpos : (0 : ℚ) < 1 / 2 ^ j := by positivity
    refine rn_lt_of_nearer hr hc (by linarith) ?_
    have hd : (0 : ℚ) ≤ d := by positivity
    have : f * d ≤ (1 - 1 / 2 ^ 24) * d := mul_le_mul_of_nonneg_right g hd
    have h5 : 1 / 2 ^ j < 2 * ((d : ℚ) / 2 ^ 24) := by
      rw [div_lt_iff₀ hj]
      have : 2 * ((d : ℚ) / 2 ^ 24) * 2 ^ j = 2 * (d * 2 ^ j) / 2 ^ 24 := by ring
      rw [this, lt_div_iff₀ (by norm_num)]
      linarith
    have h6 : (1 - 1 / 2 ^ 24) * (d : ℚ) = d - d / 2 ^ 24 := by ring
    linarith
  rcases (by omega : d = 1 ∨ d = 2 ∨ (3 ≤ d ∧ d ≤ 4) ∨ (5 ≤ d ∧ d ≤ 8) ∨ (9 ≤ d ∧ d ≤ 16)) with h | h | h | h | h
  · exact key 24 (by omega) (by omega) (by omega) (by omega)
  · exact key 23 (by omega) (by omega) (by omega) (by omega)
  · exact key 22 (by omega) (by omega) (by omega) (by omega)
  · exact key 21 (by omega) (by omega) (by omega) (by omega)
  · exact key 20 (by omega) (by omega) (by omega) (by omega)

end HexoDSP.FloatSeq.Lemmas
