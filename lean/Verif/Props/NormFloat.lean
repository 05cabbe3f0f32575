import Verif.Lemmas.NormFloat
import Verif.Props.Norm
/-!
# C139: what saving and loading a patch does to a parameter with `f32` numbers
-/

namespace HexoDSP.NormFloatProps
open HexoDSP.SinSpec HexoDSP.FloatLemmas HexoDSP.NormFloatSpec HexoDSP.NormFloatLemmas HexoDSP.Table

variable {rn sq : ℚ → ℚ}

theorem row_curve {p : ParamId} {r : ParamRow} (h : p.paramRow = some r) : r.d = r.n := by
  obtain ⟨k, hk⟩ := HexoDSP.NormProps.paramRow_mem h
  exact (HexoDSP.NormProps.curves_match k r hk).1.symm

theorem saveLoad_row {p : ParamId} {r : ParamRow} (h : p.paramRow = some r) (x : ℚ) :
    p.saveLoad rn sq x = ((r.n.denormF rn).map (· x)).bind fun y => (r.n.normF rn sq).map (· y) := by
  unfold ParamId.saveLoad ParamId.denormF ParamId.normF
  simp only [h, row_curve h]

theorem f32_nat {n : ℕ} (h : n < 2 ^ 24) : F32 n :=
  ⟨n, 0, by rw [abs_of_nonneg (by omega)]; exact_mod_cast h, by norm_num, by norm_num, by simp⟩

theorem lin_simp (hr : Nearest rn) {c : ℕ} (hc : c < 2 ^ 24) (hc0 : 0 < c) {x : ℚ} (hx : 0 ≤ x) :
    nLinF rn 0 c (dLinF rn 0 c x) = rn (rn (x * c) / c) := by
  have hF := f32_nat hc
  have c0 : (0 : ℚ) < c := by exact_mod_cast hc0
  unfold nLinF dLinF
  rw [zero_mul, zero_rn hr, zero_add, sub_zero, sub_zero, rn_fix hr hF, rn_fix hr (hr _).1, rn_fix hr (hr _).1, mul_comm (c : ℚ) x]
  exact abs_of_nonneg (rn_ge hr f32_zero (div_nonneg (rn_ge hr f32_zero (by positivity)) c0.le))

theorem exp_simp (hr : Nearest rn) {c : ℕ} (hc : c < 2 ^ 24) (x : ℚ) :
    nExpF rn sq 0 c (dExpF rn 0 c x) = sq |rn (rn (c * rn (x * x)) / c)| := by
  have hF := f32_nat hc
  unfold nExpF dExpF
  rw [zero_mul, zero_rn hr, zero_add, sub_zero, sub_zero, rn_fix hr hF, rn_fix hr (hr _).1, rn_fix hr (hr _).1]

/-- **C139** A parameter without a curve comes back exactly, in whatever way numbers are rounded. -/
theorem kept (p : ParamId) (r : ParamRow) (h : p.paramRow = some r) (hid : r.n = .id) (x : ℚ) : p.saveLoad rn sq x = some x := by
  rw [saveLoad_row h, hid]; rfl

/-- **C139** Once. A detuning, the factor `vs` of `vosc` or a time that starts at zero comes back almost the same: the relative change is at most `2^-22`,
two digits in the last place. (Only a detuning can be negative.) -/
theorem kept_near (hr : Nearest rn) (hq : RoundedSqrt sq) (p : ParamId) (r : ParamRow) (h : p.paramRow = some r) (x x' : ℚ) (hx : Ordinary x)
    (hx0 : r.n ≠ .det → 0 ≤ x) (hn1 : r.n ≠ .time) (hn2 : r.n ≠ .ftme) (hs : p.saveLoad rn sq x = some x') : |x' - x| ≤ |x| / 2 ^ 22 := by
  rw [saveLoad_row h] at hs
  cases hn : r.n <;> rw [hn] at hs hx0 hn1 hn2 <;> simp only [Curve.denormF, Curve.normF, Option.map_some, Option.map_none, Option.bind_some, Option.bind_none,
    Option.some.injEq, reduceCtorEq] at hs
  · subst hs; simp; positivity
  · have e := exp_simp (sq := sq) hr (c := 50) (by norm_num) x
    push_cast at e
    rw [← hs, e]
    exact exp_near hr hq (by norm_num) (by norm_num) hx (hx0 (by simp))
  · have e := exp_simp (sq := sq) hr (c := 1000) (by norm_num) x
    push_cast at e
    rw [← hs, e]
    exact exp_near hr hq (by norm_num) (by norm_num) hx (hx0 (by simp))
  · exact (hn1 rfl).elim
  · exact (hn2 rfl).elim
  · have e := exp_simp (sq := sq) hr (c := 5000) (by norm_num) x
    push_cast at e
    rw [← hs, e]
    exact exp_near hr hq (by norm_num) (by norm_num) hx (hx0 (by simp))
  · have e := lin_simp hr (c := 20) (by norm_num) (by norm_num) (hx0 (by simp))
    push_cast at e
    rw [← hs, e]
    exact scale_near hr (by norm_num) (by norm_num) hx
  · rw [← hs]
    exact scale_near hr (by norm_num) (by norm_num) hx

/-- **C139** Ever after. A detuning and the factor `vs` of `vosc` change at the first save and load only: what came back from the first
comes back the same from all others. -/
theorem settles_partial (hr : Nearest rn) (p : ParamId) (r : ParamRow) (h : p.paramRow = some r) (x x' : ℚ) (hx : Ordinary x)
    (hc : r.n = .det ∨ r.n = .vps ∧ 0 ≤ x) (hs : p.saveLoad rn sq x = some x') : p.saveLoad rn sq x' = some x' := by
  rw [saveLoad_row h] at hs ⊢
  rcases hc with hn | ⟨hn, hx0⟩ <;> rw [hn] at hs ⊢ <;> simp only [Curve.denormF, Curve.normF, Option.map_some, Option.bind_some, Option.some.injEq] at hs ⊢
  · have := scale_twice hr (c1 := 15) (k := 3) (by decide) (by norm_num) (by norm_num) hx
    rw [show ((15 : ℕ) : ℚ) * 2 ^ 3 = 120 by norm_num, hs] at this
    exact this
  · have e := lin_simp hr (c := 20) (by norm_num) (by norm_num) hx0
    have x1 : 0 ≤ x' := by rw [← hs]; exact abs_nonneg _
    have e' := lin_simp hr (c := 20) (by norm_num) (by norm_num) x1
    push_cast at e e'
    rw [e'] at *
    rw [e] at hs
    have := scale_twice hr (c1 := 5) (k := 2) (by decide) (by norm_num) (by norm_num) hx
    rw [show ((5 : ℕ) : ℚ) * 2 ^ 2 = 20 by norm_num, hs] at this
    exact this

/-- The shortest time of a filter, 0.1 as `f32`. -/
theorem tenth (hr : Nearest rn) : rn (1 / 10) = (13421773 / 134217728) := by
  have := rn_unique hr (x := 1 / 10) (m := 13421773) (e := -27) (by norm_num) (by norm_num) (by norm_num) (by norm_num) (by norm_num [abs_lt, abs_of_nonneg, abs_of_nonpos])
  rw [this]; norm_num

theorem span (hr : Nearest rn) : rn (1000 - (13421773 / 134217728)) = (8191181 / 8192) := by
  have := rn_unique hr (x := 1000 - (13421773 / 134217728)) (m := 16382362) (e := -14) (by norm_num) (by norm_num) (by norm_num) (by norm_num) (by norm_num [abs_lt, abs_of_nonneg, abs_of_nonpos])
  rw [this]; norm_num

/-- **C139** A time that does not start at zero (those of `delay`, `allp` and `comb`) comes back with a change of at most `2^-15` of its range. -/
theorem kept_range (hr : Nearest rn) (hq : RoundedSqrt sq) (p : ParamId) (r : ParamRow) (h : p.paramRow = some r) (hn : r.n = .time ∨ r.n = .ftme) (x x' : ℚ)
    (hx0 : 0 ≤ x) (hx1 : x ≤ 1) (hs : p.saveLoad rn sq x = some x') : |x' - x| ≤ 1 / 2 ^ 15 := by
  rw [saveLoad_row h] at hs
  have h5 : F32 (9999 / 2) := ⟨9999, -1, by norm_num, by norm_num, by norm_num, by norm_num⟩
  rcases hn with hn | hn <;> rw [hn] at hs <;> simp only [Curve.denormF, Curve.normF, Option.map_some, Option.bind_some, Option.some.injEq] at hs
  · rw [← hs]
    unfold nExpF dExpF
    rw [show (5000 : ℚ) - 1 / 2 = 9999 / 2 by norm_num, rn_fix hr h5]
    exact time_near hr hq hx0 hx1
  · rw [← hs]
    unfold nExpF dExpF
    rw [tenth hr, span hr]
    exact ftme_near hr hq hx0 hx1

/-- The time of a comb filter. -/
def exComb : ParamId := ⟨"time", NodeId.fromStr "comb", 1⟩

theorem exComb_row : ∃ r, exComb.paramRow = some r ∧ r.n = .ftme := by
  refine ⟨_, rfl, ?_⟩
  decide +kernel

/-- **C139** These times do not settle: there is one of a comb filter (584 ms) that creeps upwards with the first, the second and the third save and load. -/
theorem creeps (hr : Nearest rn) (hq : RoundedSqrt sq) : exComb.saveLoad rn sq (12821417 / 16777216) = some (6410709 / 8388608) ∧
    exComb.saveLoad rn sq (6410709 / 8388608) = some (12821419 / 16777216) ∧ exComb.saveLoad rn sq (12821419 / 16777216) = some (3205355 / 4194304) ∧
    ((12821417 / 16777216) : ℚ) < (6410709 / 8388608) ∧ ((6410709 / 8388608) : ℚ) < (12821419 / 16777216) ∧ ((12821419 / 16777216) : ℚ) < (3205355 / 4194304) := by
  obtain ⟨r, h, hn⟩ := exComb_row
  have l1 := tenth hr
  have l2 := span hr
  simp only [saveLoad_row h, hn, Curve.denormF, Curve.normF, Option.map_some, Option.bind_some, Option.some.injEq]
  refine ⟨?_, ?_, ?_, by norm_num, by norm_num, by norm_num⟩
  · have a1 : rn ((12821417 / 16777216) * (12821417 / 16777216)) = (2449583 / 4194304) := by
      have := rn_unique hr (x := (12821417 / 16777216) * (12821417 / 16777216)) (m := 9798332) (e := -24) (by norm_num) (by norm_num) (by norm_num) (by norm_num) (by norm_num [abs_lt, abs_of_nonneg, abs_of_nonpos])
      rw [this]; norm_num
    have a2 : rn (1 - (2449583 / 4194304)) = (1744721 / 4194304) := by
      have := rn_unique hr (x := 1 - (2449583 / 4194304)) (m := 13957768) (e := -25) (by norm_num) (by norm_num) (by norm_num) (by norm_num) (by norm_num [abs_lt, abs_of_nonneg, abs_of_nonpos])
      rw [this]; norm_num
    have a3 : rn ((13421773 / 134217728) * (1744721 / 4194304)) = (11166215 / 268435456) := by
      have := rn_unique hr (x := (13421773 / 134217728) * (1744721 / 4194304)) (m := 11166215) (e := -28) (by norm_num) (by norm_num) (by norm_num) (by norm_num) (by norm_num [abs_lt, abs_of_nonneg, abs_of_nonpos])
      rw [this]; norm_num
    have a4 : rn (1000 * (2449583 / 4194304)) = (2392171 / 4096) := by
      have := rn_unique hr (x := 1000 * (2449583 / 4194304)) (m := 9568684) (e := -14) (by norm_num) (by norm_num) (by norm_num) (by norm_num) (by norm_num [abs_lt, abs_of_nonneg, abs_of_nonpos])
      rw [this]; norm_num
    have a5 : rn ((11166215 / 268435456) + (2392171 / 4096)) = (4784683 / 8192) := by
      have := rn_unique hr (x := (11166215 / 268435456) + (2392171 / 4096)) (m := 9569366) (e := -14) (by norm_num) (by norm_num) (by norm_num) (by norm_num) (by norm_num [abs_lt, abs_of_nonneg, abs_of_nonpos])
      rw [this]; norm_num
    have a6 : rn ((4784683 / 8192) - (13421773 / 134217728)) = (597983 / 1024) := by
      have := rn_unique hr (x := (4784683 / 8192) - (13421773 / 134217728)) (m := 9567728) (e := -14) (by norm_num) (by norm_num) (by norm_num) (by norm_num) (by norm_num [abs_lt, abs_of_nonneg, abs_of_nonpos])
      rw [this]; norm_num
    have a7 : rn ((597983 / 1024) / (8191181 / 8192)) = (9798333 / 16777216) := by
      have := rn_unique hr (x := (597983 / 1024) / (8191181 / 8192)) (m := 9798333) (e := -24) (by norm_num) (by norm_num) (by norm_num) (by norm_num) (by norm_num [abs_lt, abs_of_nonneg, abs_of_nonpos])
      rw [this]; norm_num
    have a8 : sq (9798333 / 16777216) = (6410709 / 8388608) := by
      have := sq_unique hq (w := (9798333 / 16777216)) (m := 12821418) (e := -24) (by norm_num) (by norm_num) (by norm_num) (by norm_num) (by norm_num) (by norm_num)
      rw [this]; norm_num
    unfold nExpF dExpF
    rw [l1, a1, a2, a3, a4, a5, a6, l2, a7, abs_of_pos (by norm_num), a8]
  · have a1 : rn ((6410709 / 8388608) * (6410709 / 8388608)) = (4899167 / 8388608) := by
      have := rn_unique hr (x := (6410709 / 8388608) * (6410709 / 8388608)) (m := 9798334) (e := -24) (by norm_num) (by norm_num) (by norm_num) (by norm_num) (by norm_num [abs_lt, abs_of_nonneg, abs_of_nonpos])
      rw [this]; norm_num
    have a2 : rn (1 - (4899167 / 8388608)) = (3489441 / 8388608) := by
      have := rn_unique hr (x := 1 - (4899167 / 8388608)) (m := 13957764) (e := -25) (by norm_num) (by norm_num) (by norm_num) (by norm_num) (by norm_num [abs_lt, abs_of_nonneg, abs_of_nonpos])
      rw [this]; norm_num
    have a3 : rn ((13421773 / 134217728) * (3489441 / 8388608)) = (11166211 / 268435456) := by
      have := rn_unique hr (x := (13421773 / 134217728) * (3489441 / 8388608)) (m := 11166211) (e := -28) (by norm_num) (by norm_num) (by norm_num) (by norm_num) (by norm_num [abs_lt, abs_of_nonneg, abs_of_nonpos])
      rw [this]; norm_num
    have a4 : rn (1000 * (4899167 / 8388608)) = (4784343 / 8192) := by
      have := rn_unique hr (x := 1000 * (4899167 / 8388608)) (m := 9568686) (e := -14) (by norm_num) (by norm_num) (by norm_num) (by norm_num) (by norm_num [abs_lt, abs_of_nonneg, abs_of_nonpos])
      rw [this]; norm_num
    have a5 : rn ((11166211 / 268435456) + (4784343 / 8192)) = (1196171 / 2048) := by
      have := rn_unique hr (x := (11166211 / 268435456) + (4784343 / 8192)) (m := 9569368) (e := -14) (by norm_num) (by norm_num) (by norm_num) (by norm_num) (by norm_num [abs_lt, abs_of_nonneg, abs_of_nonpos])
      rw [this]; norm_num
    have a6 : rn ((1196171 / 2048) - (13421773 / 134217728)) = (4783865 / 8192) := by
      have := rn_unique hr (x := (1196171 / 2048) - (13421773 / 134217728)) (m := 9567730) (e := -14) (by norm_num) (by norm_num) (by norm_num) (by norm_num) (by norm_num [abs_lt, abs_of_nonneg, abs_of_nonpos])
      rw [this]; norm_num
    have a7 : rn ((4783865 / 8192) / (8191181 / 8192)) = (9798335 / 16777216) := by
      have := rn_unique hr (x := (4783865 / 8192) / (8191181 / 8192)) (m := 9798335) (e := -24) (by norm_num) (by norm_num) (by norm_num) (by norm_num) (by norm_num [abs_lt, abs_of_nonneg, abs_of_nonpos])
      rw [this]; norm_num
    have a8 : sq (9798335 / 16777216) = (12821419 / 16777216) := by
      have := sq_unique hq (w := (9798335 / 16777216)) (m := 12821419) (e := -24) (by norm_num) (by norm_num) (by norm_num) (by norm_num) (by norm_num) (by norm_num)
      rw [this]; norm_num
    unfold nExpF dExpF
    rw [l1, a1, a2, a3, a4, a5, a6, l2, a7, abs_of_pos (by norm_num), a8]
  · have a1 : rn ((12821419 / 16777216) * (12821419 / 16777216)) = (9798335 / 16777216) := by
      have := rn_unique hr (x := (12821419 / 16777216) * (12821419 / 16777216)) (m := 9798335) (e := -24) (by norm_num) (by norm_num) (by norm_num) (by norm_num) (by norm_num [abs_lt, abs_of_nonneg, abs_of_nonpos])
      rw [this]; norm_num
    have a2 : rn (1 - (9798335 / 16777216)) = (6978881 / 16777216) := by
      have := rn_unique hr (x := 1 - (9798335 / 16777216)) (m := 13957762) (e := -25) (by norm_num) (by norm_num) (by norm_num) (by norm_num) (by norm_num [abs_lt, abs_of_nonneg, abs_of_nonpos])
      rw [this]; norm_num
    have a3 : rn ((13421773 / 134217728) * (6978881 / 16777216)) = (5583105 / 134217728) := by
      have := rn_unique hr (x := (13421773 / 134217728) * (6978881 / 16777216)) (m := 11166210) (e := -28) (by norm_num) (by norm_num) (by norm_num) (by norm_num) (by norm_num [abs_lt, abs_of_nonneg, abs_of_nonpos])
      rw [this]; norm_num
    have a4 : rn (1000 * (9798335 / 16777216)) = (9568687 / 16384) := by
      have := rn_unique hr (x := 1000 * (9798335 / 16777216)) (m := 9568687) (e := -14) (by norm_num) (by norm_num) (by norm_num) (by norm_num) (by norm_num [abs_lt, abs_of_nonneg, abs_of_nonpos])
      rw [this]; norm_num
    have a5 : rn ((5583105 / 134217728) + (9568687 / 16384)) = (9569369 / 16384) := by
      have := rn_unique hr (x := (5583105 / 134217728) + (9568687 / 16384)) (m := 9569369) (e := -14) (by norm_num) (by norm_num) (by norm_num) (by norm_num) (by norm_num [abs_lt, abs_of_nonneg, abs_of_nonpos])
      rw [this]; norm_num
    have a6 : rn ((9569369 / 16384) - (13421773 / 134217728)) = (9567731 / 16384) := by
      have := rn_unique hr (x := (9569369 / 16384) - (13421773 / 134217728)) (m := 9567731) (e := -14) (by norm_num) (by norm_num) (by norm_num) (by norm_num) (by norm_num [abs_lt, abs_of_nonneg, abs_of_nonpos])
      rw [this]; norm_num
    have a7 : rn ((9567731 / 16384) / (8191181 / 8192)) = (153099 / 262144) := by
      have := rn_unique hr (x := (9567731 / 16384) / (8191181 / 8192)) (m := 9798336) (e := -24) (by norm_num) (by norm_num) (by norm_num) (by norm_num) (by norm_num [abs_lt, abs_of_nonneg, abs_of_nonpos])
      rw [this]; norm_num
    have a8 : sq (153099 / 262144) = (3205355 / 4194304) := by
      have := sq_unique hq (w := (153099 / 262144)) (m := 12821420) (e := -24) (by norm_num) (by norm_num) (by norm_num) (by norm_num) (by norm_num) (by norm_num)
      rw [this]; norm_num
    unfold nExpF dExpF
    rw [l1, a1, a2, a3, a4, a5, a6, l2, a7, abs_of_pos (by norm_num), a8]

/-- A detuning. -/
def exDet : ParamId := ⟨"det", NodeId.fromStr "sin", 1⟩

theorem exDet_row : ∃ r, exDet.paramRow = some r ∧ r.n = .det := by
  refine ⟨_, rfl, ?_⟩
  decide +kernel

/-- A number whose 120-fold lies in the middle between two `f32` numbers. -/
def exX : ℚ := 8947864 / 2 ^ 26

/-- The `f32` numbers from 16 on are multiples of `2^-19`. -/
theorem grid {y : ℚ} (h : F32 y) (h1 : 16 ≤ y) : ∃ n : ℤ, y = n / 2 ^ 19 := by
  obtain ⟨m, e, a1, a2, a3, rfl⟩ := h
  have hp : (0 : ℚ) < (2 : ℚ) ^ e := zpow_pos (by norm_num) _
  have he : -19 ≤ e := by
    have hm : (m : ℚ) < 2 ^ 24 := by exact_mod_cast (abs_lt.1 a1).2
    have h2 : (2 : ℚ) ^ (4 : ℤ) < (2 : ℚ) ^ (24 + e) := by
      rw [zpow_add₀ (by norm_num)]
      have e4 : (2 : ℚ) ^ (4 : ℤ) = 16 := by norm_num
      have e24 : (2 : ℚ) ^ (24 : ℤ) = 2 ^ 24 := by norm_num
      rw [e4, e24]
      exact lt_of_le_of_lt h1 (mul_lt_mul_of_pos_right hm hp)
    have := (zpow_lt_zpow_iff_right₀ (by norm_num : (1 : ℚ) < 2)).1 h2
    omega
  obtain ⟨d, rfl⟩ : ∃ d : ℕ, e = (d : ℤ) - 19 := ⟨(e + 19).toNat, by omega⟩
  refine ⟨m * 2 ^ d, ?_⟩
  rw [zpow_sub₀ (by norm_num), zpow_natCast]
  push_cast
  norm_num
  ring

/-- **C139** The first save and load may change a detuning in the last place, however ties are rounded: 16.00003 semitones is one that changes. -/
theorem changes_once (hr : Nearest rn) : ∃ x', exDet.saveLoad rn sq exX = some x' ∧ x' ≠ exX := by
  obtain ⟨r, h, hn⟩ := exDet_row
  rw [saveLoad_row h, hn]
  refine ⟨_, rfl, fun hx => ?_⟩
  have hx : rn (rn (exX * 120) / 120) = exX := hx
  have hy : F32 (rn (exX * 120)) := (hr _).1
  have h16 : F32 16 := ⟨16, 0, by norm_num, by norm_num, by norm_num, by norm_num⟩
  have hge : 16 ≤ rn (exX * 120) := rn_ge hr h16 (by unfold exX; norm_num)
  have hn := (hr (rn (exX * 120) / 120)).2
  rw [hx] at hn
  generalize rn (exX * 120) = y at *
  obtain ⟨n, rfl⟩ := grid hy hge
  have up : F32 (exX + 1 / 2 ^ 26) := ⟨8947865, -26, by norm_num, by norm_num, by norm_num, by unfold exX; norm_num⟩
  have dn : F32 (exX - 1 / 2 ^ 26) := ⟨8947863, -26, by norm_num, by norm_num, by norm_num, by unfold exX; norm_num⟩
  have n1 := hn _ up
  have n2 := hn _ dn
  unfold exX at n1 n2
  -- `16 * n` would have to be within 7.5 of `15 * 8947864`, which is 8 more than a multiple of 16
  have u1 : (n : ℚ) / 2 ^ 19 / 120 ≤ (8947864 + 1 / 2) / 2 ^ 26 := by
    by_contra hc
    have hc := not_le.1 hc
    rw [abs_of_neg (by linarith)] at n1
    rcases abs_cases ((8947864 : ℚ) / 2 ^ 26 + 1 / 2 ^ 26 - n / 2 ^ 19 / 120) with ⟨q, _⟩ | ⟨q, _⟩ <;> rw [q] at n1 <;> linarith
  have u2 : (8947864 - 1 / 2) / 2 ^ 26 ≤ (n : ℚ) / 2 ^ 19 / 120 := by
    by_contra hc
    have hc := not_le.1 hc
    rw [abs_of_pos (by linarith)] at n2
    rcases abs_cases ((8947864 : ℚ) / 2 ^ 26 - 1 / 2 ^ 26 - n / 2 ^ 19 / 120) with ⟨q, _⟩ | ⟨q, _⟩ <;> rw [q] at n2 <;> linarith
  have v1 : (n : ℚ) < 8388623 := by linarith
  have v2 : (8388622 : ℚ) < n := by linarith
  have w1 : n < 8388623 := by exact_mod_cast v1
  have w2 : 8388622 < n := by exact_mod_cast v2
  omega

theorem exX_ordinary : Ordinary exX := by
  right
  unfold exX
  rw [abs_of_pos (by norm_num)]
  norm_num

/-- The theorems speak of that detuning: it changes, by very little, and not again. -/
example (hr : Nearest rn) (hq : RoundedSqrt sq) : ∃ x', exDet.saveLoad rn sq exX = some x' ∧ x' ≠ exX ∧ |x' - exX| ≤ |exX| / 2 ^ 22 ∧
    exDet.saveLoad rn sq x' = some x' := by
  obtain ⟨x', h1, h2⟩ := changes_once (sq := sq) hr
  obtain ⟨r, h, hn⟩ := exDet_row
  exact ⟨x', h1, h2, kept_near hr hq exDet r h exX x' exX_ordinary (fun c => (c hn).elim) (by simp [hn]) (by simp [hn]) h1, settles_partial hr exDet r h exX x' exX_ordinary (.inl hn) h1⟩

/-- And of the other curves: the factor of `vosc`, the declicking of the sampler, the attack of an envelope and the slew of `midicc`; a parameter without a curve. -/
example : ((ParamId.mk "vs" (NodeId.fromStr "vosc") 4).paramRow.map (·.n)) = some .vps ∧
    ((ParamId.mk "dcms" (NodeId.fromStr "sampl") 4).paramRow.map (·.n)) = some .declick ∧
    ((ParamId.mk "atk" (NodeId.fromStr "ad") 2).paramRow.map (·.n)) = some .env ∧
    ((ParamId.mk "slew" (NodeId.fromStr "midicc") 0).paramRow.map (·.n)) = some .timz ∧
    ((ParamId.mk "att" (NodeId.fromStr "amp") 2).paramRow.map (·.n)) = some .id := by decide +kernel

/-- There are such a rounding and such a square root. -/
example : (∃ rn, Nearest rn) ∧ ∃ sq, RoundedSqrt sq := by
  refine ⟨nearest_exists, ?_⟩
  have hmin : ∀ x : ℚ, ∃ y : ℚ, F32 y ∧ ∀ z : ℚ, F32 z → |(y : ℝ) - √(x : ℝ)| ≤ |(z : ℝ) - √(x : ℝ)| := by
    intro x
    obtain ⟨y, hy, h⟩ := f32_finite.exists_minimalFor (fun y : ℚ => |(y : ℝ) - √(x : ℝ)|) _ ⟨0, f32_zero⟩
    refine ⟨y, hy, fun z hz => ?_⟩
    rcases le_total |(y : ℝ) - √(x : ℝ)| |(z : ℝ) - √(x : ℝ)| with hc | hc
    · exact hc
    · exact h hz hc
  choose sq hsq using hmin
  exact ⟨sq, fun x _ => hsq x⟩

end HexoDSP.NormFloatProps
