import Verif.Model.SinNode
import Verif.Spec.SinNode
import Mathlib.Tactic.Linarith
import Mathlib.Tactic.Ring
import Mathlib.Tactic.NormNum
import Mathlib.Tactic.Zify
import Mathlib.Data.Set.Finite.Lemmas
import Mathlib.Data.Finite.Prod
import Mathlib.Order.Interval.Finset.Basic
import Mathlib.Data.Int.Interval
import Mathlib.Algebra.Order.Round
/-!
# The sine oscillator (C89)
-/

namespace HexoDSP.SinProps
open HexoDSP.SinNode HexoDSP.SinSpec HexoDSP.Tracker

/-! ## `f32` numbers -/

theorem f32_int {k : ℤ} (h : |k| ≤ 2 ^ 24) : F32 (k : ℚ) := by
  rcases lt_or_eq_of_le h with h | h
  · exact ⟨k, 0, h, by norm_num, by norm_num, by simp⟩
  · rcases abs_eq (by norm_num : (0 : ℤ) ≤ 2 ^ 24) |>.1 h with rfl | rfl
    · exact ⟨2 ^ 23, 1, by norm_num, by norm_num, by norm_num, by norm_num⟩
    · exact ⟨-2 ^ 23, 1, by norm_num, by norm_num, by norm_num, by norm_num⟩

theorem f32_small {m e : ℤ} (hm : |m| < 2 ^ 24) (he : e ≤ 1) : |(m : ℚ) * (2 : ℚ) ^ e| < 2 ^ 25 := by
  have hm' : |(m : ℚ)| < 2 ^ 24 := by rw [← Int.cast_abs]; exact_mod_cast hm
  have h2 : (2 : ℚ) ^ e ≤ 2 := by
    have := zpow_le_zpow_right₀ (by norm_num : (1 : ℚ) ≤ 2) he
    simpa using this
  have h0 : (0 : ℚ) < (2 : ℚ) ^ e := zpow_pos (by norm_num) e
  rw [abs_mul, abs_of_pos h0]
  nlinarith [abs_nonneg (m : ℚ)]

theorem f32_big {x : ℚ} (hx : F32 x) (h : 2 ^ 25 ≤ |x|) : ∃ k : ℤ, x = 4 * k := by
  obtain ⟨m, e, hm, _, _, rfl⟩ := hx
  have he : 2 ≤ e := by
    by_contra hc
    exact absurd (f32_small hm (by omega)) (not_lt.2 h)
  obtain ⟨n, rfl⟩ : ∃ n : ℕ, e = (n : ℤ) + 2 := ⟨(e - 2).toNat, by omega⟩
  refine ⟨m * 2 ^ n, ?_⟩
  rw [zpow_add₀ (by norm_num : (2 : ℚ) ≠ 0)]
  push_cast
  rw [zpow_natCast]
  ring

/-- Below `-2^25` neighbours are at least 4 apart. -/
theorem f32_gap {x y : ℚ} (hx : F32 x) (hy : F32 y) (hb : x < -2 ^ 25) (hne : y ≠ x) : 4 ≤ |y - x| := by
  obtain ⟨k, rfl⟩ := f32_big hx (by rw [abs_of_neg (by linarith)]; linarith)
  have hk : k < -2 ^ 23 := by
    have : (k : ℚ) < -2 ^ 23 := by linarith
    exact_mod_cast this
  by_cases hc : |y| < 2 ^ 25
  · have h1 := (abs_lt.1 hc).1
    have h2 : (k : ℚ) ≤ -2 ^ 23 - 1 := by exact_mod_cast (by omega : k ≤ -2 ^ 23 - 1)
    rw [abs_of_pos (by linarith)]
    linarith
  · obtain ⟨l, rfl⟩ := f32_big hy (not_lt.1 hc)
    have hne' : l - k ≠ 0 := by
      intro h0
      have : l = k := by omega
      exact hne (by rw [this])
    have h1 : (1 : ℤ) ≤ |l - k| := Int.one_le_abs hne'
    have h2 : (1 : ℚ) ≤ |(l : ℚ) - k| := by exact_mod_cast h1
    rw [← mul_sub, abs_mul]
    norm_num
    exact h2

theorem stuck {rn : ℚ → ℚ} (hr : Nearest rn) {x z : ℚ} (hx : F32 x) (hb : x < -2 ^ 25) (h0 : x ≤ z) (h1 : z ≤ x + 1) : rn z = x := by
  by_contra hne
  have g := f32_gap hx (hr z).1 hb hne
  have n := (hr z).2 x hx
  rw [abs_of_nonpos (by linarith : x - z ≤ 0)] at n
  have t : |rn z - x| ≤ |rn z - z| + |z - x| := by
    have := abs_add_le (rn z - z) (z - x)
    rwa [sub_add_sub_cancel] at this
  rw [abs_of_nonneg (by linarith : 0 ≤ z - x)] at t
  linarith

/-- Rounding does not go over an `f32`. -/
theorem rn_ge {rn : ℚ → ℚ} (hr : Nearest rn) {a x : ℚ} (ha : F32 a) (h : a ≤ x) : a ≤ rn x := by
  by_contra hc
  have hc := not_le.1 hc
  have n := (hr x).2 a ha
  rw [abs_of_nonpos (by linarith : a - x ≤ 0), abs_of_neg (by linarith : rn x - x < 0)] at n
  linarith

theorem rn_step {rn : ℚ → ℚ} (hr : Nearest rn) {x : ℚ} (h0 : -2 ^ 24 ≤ x) (h1 : x < 0) : x + 1 / 2 ≤ rn (x + 1) := by
  have hf1 : (round (x + 1) : ℚ) - (x + 1) ≤ 1 / 2 ∧ -(1 / 2) ≤ (round (x + 1) : ℚ) - (x + 1) := by
    have := abs_sub_round (x + 1)
    obtain ⟨a, b⟩ := abs_le.1 this
    constructor <;> linarith
  have hF : F32 ((round (x + 1) : ℤ) : ℚ) := by
    refine f32_int (abs_le.2 ⟨?_, ?_⟩)
    · have : ((-2 ^ 24 : ℤ) : ℚ) ≤ (round (x + 1) : ℚ) := by push_cast; linarith [hf1.2]
      exact_mod_cast this
    · have : (round (x + 1) : ℚ) ≤ ((2 ^ 24 : ℤ) : ℚ) := by
        push_cast
        have : (2 : ℚ) ≤ 2 ^ 24 := by norm_num
        linarith [hf1.1]
      exact_mod_cast this
  have n := (hr (x + 1)).2 _ hF
  have b := abs_le.1 (n.trans (abs_le.2 ⟨by linarith [hf1.2], hf1.1⟩))
  linarith [b.1]

theorem wrap_ends {rn : ℚ → ℚ} (hr : Nearest rn) : ∀ (fuel : Nat) (x : ℚ), -2 ^ 24 ≤ x → -(fuel : ℚ) / 2 ≤ x → ∃ p, wrap rn fuel x = some p ∧ 0 ≤ p
  | 0, x, _, h => by
    have : ¬ x < 0 := by simpa using h
    exact ⟨x, by rw [wrap, if_neg this], not_lt.1 this⟩
  | fuel + 1, x, hb, h => by
    by_cases hx : x < 0
    · have s := rn_step hr hb hx
      obtain ⟨p, h1, h2⟩ := wrap_ends hr fuel (rn (x + 1)) (by linarith) (by push_cast at h; linarith)
      exact ⟨p, by rw [wrap, if_pos hx]; exact h1, h2⟩
    · exact ⟨x, by rw [wrap, if_neg hx], not_lt.1 hx⟩

theorem fract_unit {x : ℚ} (h : 0 ≤ x) : 0 ≤ fract x ∧ fract x < 1 := by
  unfold fract
  rw [if_pos h]
  have h1 := Int.floor_le x
  have h2 := Int.lt_floor_add_one x
  constructor <;> linarith

theorem frame_ends {rn : ℚ → ℚ} (hr : Nearest rn) {isr phase freq pm : ℚ} (hi : 0 ≤ isr) (hp : 0 ≤ phase) (hf : 0 ≤ freq)
    (hpm : -2 ^ 24 ≤ pm) : ∃ p phase', frame rn (2 ^ 25) isr phase freq pm = some (p, phase') ∧ 0 ≤ p ∧ p < 1 ∧ 0 ≤ phase' ∧ phase' < 1 := by
  have hz : F32 0 := by have := f32_int (k := 0) (by norm_num); simpa using this
  have hneg : F32 (-2 ^ 24) := by have := f32_int (k := -2 ^ 24) (by norm_num); push_cast at this; exact this
  obtain ⟨p, h1, h2⟩ := wrap_ends hr (2 ^ 25) (rn (phase + pm)) (rn_ge hr hneg (by linarith)) (by
    have := rn_ge hr hneg (show -2 ^ 24 ≤ phase + pm by linarith)
    push_cast
    linarith)
  have h3 : 0 ≤ rn (phase + rn (freq * isr)) := rn_ge hr hz (add_nonneg hp (rn_ge hr hz (mul_nonneg hf hi)))
  exact ⟨fract p, _, by rw [frame, h1], (fract_unit h2).1, (fract_unit h2).2, (fract_unit h3).1, (fract_unit h3).2⟩

/-- **C89** In `f32` arithmetic: as long as the phase modulation is at least `-2^24`, every block is computed, with at most `2^25` rounds of the
wrapping loop in each frame, and the sine is only asked for phases from 0 up to 1. -/
theorem block_ends_partial {rn : ℚ → ℚ} (hr : Nearest rn) {isr : ℚ} (hi : 0 ≤ isr) : ∀ (l : List (ℚ × ℚ)) (phase : ℚ), 0 ≤ phase →
    (∀ f ∈ l, 0 ≤ f.1 ∧ -2 ^ 24 ≤ f.2) → ∃ ps phase', run rn (2 ^ 25) isr phase l = some (ps, phase') ∧ ps.length = l.length ∧ 0 ≤ phase' ∧
      ∀ p ∈ ps, 0 ≤ p ∧ p < 1
  | [], phase, hp, _ => ⟨[], phase, rfl, rfl, hp, by simp⟩
  | (freq, pm) :: rest, phase, hp, hl => by
    obtain ⟨h1, h2⟩ := hl _ (List.mem_cons_self ..)
    obtain ⟨p, ph, a1, a2, a3, a4, _⟩ := frame_ends hr hi hp h1 h2
    obtain ⟨ps, ph', b1, b2, b3, b4⟩ := block_ends_partial hr hi rest ph a4 (fun f hf => hl f (List.mem_cons_of_mem _ hf))
    refine ⟨p :: ps, ph', by rw [run, a1]; simp only [b1, Option.map_some], by simp [b2], b3, ?_⟩
    intro q hq
    rcases List.mem_cons.1 hq with rfl | hq
    · exact ⟨a2, a3⟩
    · exact b4 q hq

theorem wrap_stuck {rn : ℚ → ℚ} (hr : Nearest rn) {x : ℚ} (hx : F32 x) (hb : x < -2 ^ 25) : ∀ fuel, wrap rn fuel x = none
  | 0 => by rw [wrap, if_pos (by linarith)]
  | fuel + 1 => by
    rw [wrap, if_pos (by linarith), stuck hr hx hb (by linarith) le_rfl]
    exact wrap_stuck hr hx hb fuel

/-- **C89** (negation) A single sample below `-2^25` at the phase modulation input stops the audio thread for ever: adding 1 to such an `f32`
does not change it, however often it is done. -/
theorem modulation_hangs {rn : ℚ → ℚ} (hr : Nearest rn) (isr phase freq pm : ℚ) (h0 : 0 ≤ phase) (h1 : phase < 1) (hpm : F32 pm) (hb : pm < -2 ^ 25)
    (fuel : Nat) : frame rn fuel isr phase freq pm = none := by
  have : rn (phase + pm) = pm := stuck hr hpm hb (by linarith) (by linarith)
  rw [frame, this, wrap_stuck hr hpm hb]

/-! ## The frequency, with exact numbers -/

theorem wrap_exact : ∀ (fuel : Nat) (x p : ℚ), wrap (fun x => x) fuel x = some p → 0 ≤ p ∧ SamePhase p x
  | 0, x, p, h => by
    rw [wrap] at h
    split at h
    · cases h
    · next hx => rw [← Option.some.inj h]; exact ⟨not_lt.1 hx, 0, by simp⟩
  | fuel + 1, x, p, h => by
    rw [wrap] at h
    split at h
    · obtain ⟨a, k, e⟩ := wrap_exact fuel _ p h
      exact ⟨a, k + 1, by rw [e]; push_cast; ring⟩
    · next hx => rw [← Option.some.inj h]; exact ⟨not_lt.1 hx, 0, by simp⟩

theorem fract_same {x : ℚ} (h : 0 ≤ x) : SamePhase (fract x) x := ⟨-⌊x⌋, by unfold fract; rw [if_pos h]; push_cast; ring⟩

theorem same_trans {a b c : ℚ} (h1 : SamePhase a b) (h2 : SamePhase b c) : SamePhase a c := by
  obtain ⟨k, rfl⟩ := h1
  obtain ⟨l, rfl⟩ := h2
  exact ⟨k + l, by push_cast; ring⟩

/-- **C89** With exact numbers the phase of the sine in frame `i` is where the sum of the frequencies so far, divided by the sample rate, has moved it,
plus the phase modulation of that frame, which leaves no trace in later frames. -/
theorem phase_is_sum {isr : ℚ} (hi : 0 ≤ isr) (fuel : Nat) : ∀ (l : List (ℚ × ℚ)) (phase : ℚ) (ps : List ℚ) (phase' : ℚ), 0 ≤ phase → (∀ f ∈ l, 0 ≤ f.1) →
    run (fun x => x) fuel isr phase l = some (ps, phase') → ∀ (i : Nat) f p, l[i]? = some f → ps[i]? = some p →
      0 ≤ p ∧ p < 1 ∧ SamePhase p (phase + ((l.take i).map (fun f => f.1 * isr)).sum + f.2)
  | [], phase, ps, phase', _, _, _, i, f, p, hl, _ => by simp at hl
  | (freq, pm) :: rest, phase, ps, phase', hp, hf, h, i, f, p, hl, hps => by
    rw [run] at h
    cases hfr : frame (fun x => x) fuel isr phase freq pm with
    | none => rw [hfr] at h; cases h
    | some r =>
      obtain ⟨q, ph⟩ := r
      rw [hfr] at h
      obtain ⟨⟨qs, ph'⟩, hr, he⟩ := Option.map_eq_some_iff.1 h
      obtain ⟨rfl, rfl⟩ := Prod.mk.inj he
      unfold frame at hfr
      cases hw : wrap (fun x => x) fuel (phase + pm) with
      | none => rw [hw] at hfr; cases hfr
      | some u =>
        rw [hw] at hfr
        obtain ⟨rfl, rfl⟩ := Prod.mk.inj (Option.some.inj hfr)
        obtain ⟨u0, us⟩ := wrap_exact fuel _ u hw
        have hnext : 0 ≤ phase + freq * isr := add_nonneg hp (mul_nonneg (hf _ (List.mem_cons_self ..)) hi)
        cases i with
        | zero =>
          simp only [List.getElem?_cons_zero, Option.some.injEq] at hl hps
          subst hl hps
          refine ⟨(fract_unit u0).1, (fract_unit u0).2, ?_⟩
          simp only [List.take_zero, List.map_nil, List.sum_nil, add_zero]
          exact same_trans (fract_same u0) us
        | succ i =>
          simp only [List.getElem?_cons_succ] at hl hps
          obtain ⟨a, b, c⟩ := phase_is_sum hi fuel rest _ _ _ (fract_unit hnext).1 (fun f hm => hf f (List.mem_cons_of_mem _ hm)) hr i f p hl hps
          refine ⟨a, b, same_trans c ?_⟩
          obtain ⟨k, e⟩ := fract_same hnext
          refine ⟨k, ?_⟩
          rw [e]
          simp only [List.take_succ_cons, List.map_cons, List.sum_cons]
          ring

/-- **C89** What is heard, with exact numbers: the sample in frame `i` is the sine of the place on the circle where the sum of the frequencies so far, divided by
the sample rate, and the phase modulation of the frame have led to. -/
theorem heard_in_tune (sine : ℚ → ℚ) {isr : ℚ} (hi : 0 ≤ isr) (fuel : Nat) (l : List (ℚ × ℚ)) (phase : ℚ) (ps : List ℚ) (phase' : ℚ) (hp : 0 ≤ phase)
    (hl : ∀ f ∈ l, 0 ≤ f.1) (h : run (fun x => x) fuel isr phase l = some (ps, phase')) (i : Nat) (f : ℚ × ℚ) (hf : l[i]? = some f) (hps : i < ps.length) :
    (signal sine ps)[i]? = some (sine (Int.fract (phase + ((l.take i).map (fun f => f.1 * isr)).sum + f.2))) := by
  obtain ⟨h0, h1, k, hk⟩ := phase_is_sum hi fuel l phase ps phase' hp hl h i f ps[i] hf (List.getElem?_eq_getElem hps)
  have : Int.fract (phase + ((l.take i).map (fun f => f.1 * isr)).sum + f.2) = ps[i] := by
    rw [Int.fract_eq_iff]
    exact ⟨h0, h1, -k, by rw [hk]; push_cast; ring⟩
  rw [this, signal, List.getElem?_map, List.getElem?_eq_getElem hps, Option.map_some]

theorem f32_finite : {x : ℚ | F32 x}.Finite := by
  have h : {x : ℚ | F32 x} ⊆ (fun p : ℤ × ℤ => (p.1 : ℚ) * (2 : ℚ) ^ p.2) '' (Set.Icc (-2 ^ 24) (2 ^ 24) ×ˢ Set.Icc (-149) 104) := by
    rintro x ⟨m, e, hm, h1, h2, rfl⟩
    exact ⟨(m, e), ⟨⟨(abs_lt.1 hm).1.le, (abs_lt.1 hm).2.le⟩, h1, h2⟩, rfl⟩
  exact (((Set.finite_Icc _ _).prod (Set.finite_Icc _ _)).image _).subset h

/-- There is a rounding to the nearest. -/
theorem nearest_exists : ∃ rn, Nearest rn := by
  have h : ∀ x : ℚ, ∃ y, F32 y ∧ ∀ z, F32 z → |y - x| ≤ |z - x| := by
    intro x
    obtain ⟨y, hy, hm⟩ := Set.exists_min_image {y : ℚ | F32 y} (fun y => |y - x|) f32_finite
      ⟨0, by have := f32_int (k := 0) (by norm_num); simpa using this⟩
    exact ⟨y, hy, hm⟩
  choose rn hr using h
  exact ⟨rn, hr⟩

/-- A phase modulation that stops the thread. -/
example : F32 (-33554436) ∧ (-33554436 : ℚ) < -2 ^ 25 :=
  ⟨⟨-8388609, 2, by norm_num, by norm_num, by norm_num, by norm_num⟩, by norm_num⟩

/-- Four frames at a quarter of the sample rate, with a phase modulation of -1.5 in the third. -/
example : run (fun x => x) 3 (1 / 4) 0 [(1, 0), (1, 0), (1, -3 / 2), (1, 0)] = some ([0, 1 / 4, 0, 3 / 4], 0) := by decide +kernel

/-- The third of these frames is heard at the beginning of the circle: half a turn so far, and one and a half back. -/
example : (signal (fun x => x) [0, 1 / 4, 0, 3 / 4])[2]? = some 0 ∧ Int.fract (0 + (([((1 : ℚ), (0 : ℚ)), (1, 0), (1, -3 / 2), (1, 0)].take 2).map (fun f => f.1 * (1 / 4))).sum + -3 / 2 : ℚ) = 0 := by
  constructor
  · decide +kernel
  · norm_num

end HexoDSP.SinProps
