import Verif.Model.Format
import Verif.Spec.Format
import Mathlib.Tactic.Linarith
import Mathlib.Tactic.Ring
import Mathlib.Tactic.FieldSimp
import Mathlib.Tactic.NormNum
import Mathlib.Tactic.IntervalCases
/-!
# Lemmas for the display of parameters: reading what was printed
-/

namespace HexoDSP.Format.Lemmas
open HexoDSP.Table HexoDSP.Format HexoDSP.FormatSpec

theorem digit_ok (n : Nat) (h : n < 10) : isDigit (digit n) = true ∧ (digit n).toNat - 48 = n ∧ digit n ≠ ' ' ∧ digit n ≠ '-' ∧ digit n ≠ '+' := by
  interval_cases n <;> decide

theorem decimal_append (a : List Char) (c : Char) : decimal (a ++ [c]) = 10 * decimal a + (c.toNat - 48) := by
  simp [decimal]

theorem digits_ok (n : Nat) : (∀ c ∈ digits n, isDigit c = true ∧ c ≠ ' ' ∧ c ≠ '-' ∧ c ≠ '+') ∧ digits n ≠ [] ∧ decimal (digits n) = n := by
  induction n using Nat.strongRecOn with
  | _ n ih =>
    rw [digits]
    split
    · rename_i h
      obtain ⟨h1, h2, h3⟩ := digit_ok n h
      refine ⟨fun c hc => ?_, by simp, by simp [decimal, h2]⟩
      rw [List.mem_singleton.1 hc]; exact ⟨h1, h3⟩
    · rename_i h
      obtain ⟨i1, i2, i3⟩ := ih (n / 10) (by omega)
      obtain ⟨h1, h2, h3⟩ := digit_ok (n % 10) (by omega)
      refine ⟨fun c hc => ?_, by simp, ?_⟩
      · rcases List.mem_append.1 hc with hc | hc
        · exact i1 c hc
        · rw [List.mem_singleton.1 hc]; exact ⟨h1, h3⟩
      · rw [decimal_append, i3, h2]; omega

theorem lastDigits_ok (k : Nat) : ∀ n : Nat, n < 10 ^ k → (∀ c ∈ lastDigits k n, isDigit c = true) ∧ (lastDigits k n).length = k ∧
    decimal (lastDigits k n) = n := by
  induction k with
  | zero => intro n h; simp at h; subst h; simp [lastDigits, decimal]
  | succ k ih =>
    intro n h
    have hk : n / 10 < 10 ^ k := by rw [pow_succ] at h; omega
    obtain ⟨i1, i2, i3⟩ := ih (n / 10) hk
    obtain ⟨h1, h2, -⟩ := digit_ok (n % 10) (by omega)
    refine ⟨fun c hc => ?_, by simp [lastDigits, i2], ?_⟩
    · rcases List.mem_append.1 hc with hc | hc
      · exact i1 c hc
      · rw [List.mem_singleton.1 hc]; exact h1
    · rw [lastDigits, decimal_append, i3, h2]; omega

theorem takeWhile_stop {A : Type} (p : A → Bool) (a b : List A) (ha : ∀ x ∈ a, p x = true) (hb : ∀ x, b.head? = some x → p x = false) :
    (a ++ b).takeWhile p = a ∧ (a ++ b).dropWhile p = b := by
  induction a with
  | nil =>
    cases b with
    | nil => simp
    | cons x b => have := hb x rfl; simp [this]
  | cons y a ih =>
    have := ih (fun x hx => ha x (List.mem_cons_of_mem _ hx))
    have hy := ha y List.mem_cons_self
    simp [hy, this]

/-- A unit that may follow a number. -/
def UnitOk (u : List Char) : Prop := ∀ c, u.head? = some c → isDigit c = false ∧ c ≠ '.'

/-- What is printed is read as it was meant. -/
theorem read_fixed (rd : ℝ → ℕ) (plus : Bool) (width prec : Nat) (neg : Bool) (mag : ℝ) (u : List Char) (hu : UnitOk u) :
    Tells (fixed rd plus width prec neg mag ++ u) u ∧ negative (fixed rd plus width prec neg mag ++ u) = neg ∧
    size (fixed rd plus width prec neg mag ++ u) = (rd (mag * 10 ^ prec) : ℝ) / 10 ^ prec := by
  obtain ⟨n, hn⟩ : ∃ n, rd (mag * 10 ^ prec) = n := ⟨_, rfl⟩
  obtain ⟨sign, hs⟩ : ∃ sign, (if neg then ['-'] else if plus then ['+'] else []) = sign := ⟨_, rfl⟩
  obtain ⟨k, hk⟩ : ∃ k, fixed rd plus width prec neg mag = List.replicate k ' ' ++
      (sign ++ digits (n / 10 ^ prec) ++ (if prec = 0 then [] else '.' :: lastDigits prec (n % 10 ^ prec))) := by
    unfold fixed
    simp only [hn, hs]
    exact ⟨_, rfl⟩
  obtain ⟨d1, d2, d3⟩ := digits_ok (n / 10 ^ prec)
  obtain ⟨l1, l2, l3⟩ := lastDigits_ok prec (n % 10 ^ prec) (Nat.mod_lt _ (by positivity))
  obtain ⟨c, r, hc⟩ := List.exists_cons_of_ne_nil d2
  have hc' := d1 c (by rw [hc]; exact List.mem_cons_self)
  obtain ⟨tail, ht⟩ : ∃ tail, tail = (if prec = 0 then [] else '.' :: lastDigits prec (n % 10 ^ prec)) ++ u := ⟨_, rfl⟩
  have htext : fixed rd plus width prec neg mag ++ u = List.replicate k ' ' ++ (sign ++ (digits (n / 10 ^ prec) ++ tail)) := by
    rw [hk, ht]; simp [List.append_assoc]
  rw [htext]
  -- spaces
  have hne : ∀ x, (sign ++ (digits (n / 10 ^ prec) ++ tail)).head? = some x → decide (x = ' ') = false := by
    intro x hx
    rw [← hs, hc] at hx
    cases neg <;> cases plus <;> simp at hx <;> subst hx <;> simp [hc'.2.1]
  have htrim : trim (List.replicate k ' ' ++ (sign ++ (digits (n / 10 ^ prec) ++ tail))) = sign ++ (digits (n / 10 ^ prec) ++ tail) := by
    unfold trim
    exact (takeWhile_stop _ _ _ (fun x hx => by simp [List.eq_of_mem_replicate hx]) hne).2
  -- sign
  have hneg : negative (List.replicate k ' ' ++ (sign ++ (digits (n / 10 ^ prec) ++ tail))) = neg := by
    unfold negative
    rw [htrim, ← hs, hc]
    cases neg <;> cases plus <;> simp [hc'.2.2.1]
  have huns : unsigned (List.replicate k ' ' ++ (sign ++ (digits (n / 10 ^ prec) ++ tail))) = digits (n / 10 ^ prec) ++ tail := by
    unfold unsigned
    rw [htrim, ← hs, hc]
    cases neg <;> cases plus <;> simp [hc'.2.2.1, hc'.2.2.2]
  -- digits
  have hstop : ∀ x, tail.head? = some x → isDigit x = false := by
    intro x hx
    rw [ht] at hx
    by_cases hp : prec = 0
    · simp only [hp, if_true, List.nil_append] at hx
      exact (hu x hx).1
    · simp only [hp, if_false, List.cons_append, List.head?_cons, Option.some.injEq] at hx
      subst hx; decide
  obtain ⟨w1, w2⟩ := takeWhile_stop isDigit (digits (n / 10 ^ prec)) tail (fun x hx => (d1 x hx).1) hstop
  have hwhole : whole (List.replicate k ' ' ++ (sign ++ (digits (n / 10 ^ prec) ++ tail))) = digits (n / 10 ^ prec) := by
    unfold whole; rw [huns, w1]
  have hfrac : fracUnit (List.replicate k ' ' ++ (sign ++ (digits (n / 10 ^ prec) ++ tail))) =
      (lastDigits prec (n % 10 ^ prec), u) := by
    unfold fracUnit
    rw [huns, w2, ht]
    by_cases hp : prec = 0
    · subst hp
      simp only [if_true, List.nil_append, lastDigits]
      cases u with
      | nil => rfl
      | cons x u =>
        have := (hu x rfl).2
        split
        · rename_i r' h'; injection h' with h1 h2; exact absurd h1 this
        · rfl
    · simp only [hp, if_false, List.cons_append]
      obtain ⟨v1, v2⟩ := takeWhile_stop isDigit (lastDigits prec (n % 10 ^ prec)) u l1 (fun x hx => (hu x hx).1)
      rw [v1, v2]
  refine ⟨⟨by rw [hwhole]; exact d2, by unfold unit; rw [hfrac]⟩, hneg, ?_⟩
  unfold size
  rw [hwhole, hfrac, d3]
  simp only [l2, l3]
  rw [hn]
  have hdm : (n : ℝ) = 10 ^ prec * (n / 10 ^ prec : ℕ) + (n % 10 ^ prec : ℕ) := by
    exact_mod_cast (Nat.div_add_mod n (10 ^ prec)).symm
  have hpos : (10 : ℝ) ^ prec ≠ 0 := by positivity
  rw [eq_div_iff hpos, add_mul, div_mul_cancel₀ _ hpos]
  linarith

/-- The size that is told is the rounded size. -/
noncomputable def shown (rd : ℝ → ℕ) (prec : Nat) (x : ℝ) : ℝ := (rd (|x| * 10 ^ prec) : ℝ) / 10 ^ prec

theorem read_num (rd : ℝ → ℕ) (plus : Bool) (width prec : Nat) (x : ℝ) (u : List Char) (hu : UnitOk u) :
    Tells (num rd plus width prec x ++ u) u ∧
    value (num rd plus width prec x ++ u) = if x < 0 then -shown rd prec x else shown rd prec x := by
  obtain ⟨h1, h2, h3⟩ := read_fixed rd plus width prec (decide (x < 0)) |x| u hu
  refine ⟨h1, ?_⟩
  unfold value num
  rw [h2, h3]
  simp [shown]

theorem shown_near {rd : ℝ → ℕ} (hr : Rounds rd) (prec : Nat) (x : ℝ) : |(shown rd prec x) - (|x|)| ≤ 1 / (2 * 10 ^ prec) := by
  have hp : (0 : ℝ) < 10 ^ prec := by positivity
  have := hr (|x| * 10 ^ prec) (by positivity)
  unfold shown
  rw [div_sub' hp.ne', abs_div, abs_of_pos hp, div_le_div_iff₀ hp (by positivity)]
  rw [show |x| * 10 ^ prec = 10 ^ prec * |x| by ring] at this ⊢
  nlinarith

theorem value_near {rd : ℝ → ℕ} (hr : Rounds rd) (plus : Bool) (width prec : Nat) (x : ℝ) (u : List Char) (hu : UnitOk u) :
    |value (num rd plus width prec x ++ u) - x| ≤ 1 / (2 * 10 ^ prec) := by
  rw [(read_num rd plus width prec x u hu).2]
  have := shown_near hr prec x
  split
  · rename_i h
    rw [abs_of_neg h] at this
    rw [← abs_neg]
    convert this using 2; ring
  · rename_i h
    rw [abs_of_nonneg (not_lt.1 h)] at this
    exact this

/-- Rounding does not change the order. -/
theorem rounds_mono {rd : ℝ → ℕ} (hr : Rounds rd) {x y : ℝ} (hx : 0 ≤ x) (h : x < y) : rd x ≤ rd y := by
  by_contra hc
  have h1 := abs_le.1 (hr x hx)
  have h2 := abs_le.1 (hr y (by linarith))
  have : (rd y : ℝ) + 1 ≤ rd x := by exact_mod_cast Nat.lt_of_not_le hc
  linarith [h1.2, h2.1]

theorem rounds_nat {rd : ℝ → ℕ} (hr : Rounds rd) (n : ℕ) : rd n = n := by
  have h := abs_le.1 (hr n (by positivity))
  have h1 : (rd n : ℝ) < n + 1 := by linarith [h.2]
  have h2 : (n : ℝ) < rd n + 1 := by linarith [h.1]
  have h1' : rd n < n + 1 := by exact_mod_cast h1
  have h2' : n < rd n + 1 := by exact_mod_cast h2
  omega

theorem unit_nil : UnitOk [] := by intro c hc; simp at hc
theorem unit_Hz : UnitOk ['H', 'z'] := by intro c hc; simp at hc; subst hc; decide
theorem unit_ms : UnitOk ['m', 's'] := by intro c hc; simp at hc; subst hc; decide
theorem unit_s (r : List Char) : UnitOk ('s' :: r) := by intro c hc; simp at hc; subst hc; decide
theorem unit_c : UnitOk ['c'] := by intro c hc; simp at hc; subst hc; decide
theorem unit_dB : UnitOk ['d', 'B'] := by intro c hc; simp at hc; subst hc; decide

/-! ## The formats -/

/-- The value that `num` tells. -/
noncomputable def tell (rd : ℝ → ℕ) (prec : Nat) (x : ℝ) : ℝ := if x < 0 then -shown rd prec x else shown rd prec x

theorem value_tell (rd : ℝ → ℕ) (plus : Bool) (width prec : Nat) (x : ℝ) (u : List Char) (hu : UnitOk u) :
    value (num rd plus width prec x ++ u) = tell rd prec x := (read_num rd plus width prec x u hu).2

theorem tell_near {rd : ℝ → ℕ} (hr : Rounds rd) (prec : Nat) (x : ℝ) : |tell rd prec x - x| ≤ 1 / (2 * 10 ^ prec) := by
  rw [← value_tell rd false 0 prec x [] unit_nil]
  exact value_near hr _ _ _ _ _ unit_nil

theorem shown_nonneg (rd : ℝ → ℕ) (prec : Nat) (x : ℝ) : 0 ≤ shown rd prec x := by unfold shown; positivity

theorem shown_mono {rd : ℝ → ℕ} (hr : Rounds rd) (prec : Nat) {x y : ℝ} (h : |x| < |y|) : shown rd prec x ≤ shown rd prec y := by
  unfold shown
  have hp : (0 : ℝ) < 10 ^ prec := by positivity
  have := rounds_mono hr (x := |x| * 10 ^ prec) (y := |y| * 10 ^ prec) (by positivity) (by nlinarith)
  exact div_le_div_of_nonneg_right (by exact_mod_cast this) hp.le

theorem tell_mono {rd : ℝ → ℕ} (hr : Rounds rd) (prec : Nat) {x y : ℝ} (h : x < y) : tell rd prec x ≤ tell rd prec y := by
  unfold tell
  have h1 := shown_nonneg rd prec x
  have h2 := shown_nonneg rd prec y
  split <;> split
  · rename_i a b
    have := shown_mono hr prec (x := y) (y := x) (by rw [abs_of_neg a, abs_of_neg b]; linarith)
    linarith
  · linarith
  · linarith
  · rename_i a b
    exact shown_mono hr prec (by rw [abs_of_nonneg (not_lt.1 a), abs_of_nonneg (not_lt.1 b)]; exact h)

theorem tell_exact {rd : ℝ → ℕ} (hr : Rounds rd) (prec n : Nat) {x : ℝ} (h : x * 10 ^ prec = n) : tell rd prec x = x := by
  have hp : (0 : ℝ) < 10 ^ prec := by positivity
  have hx : 0 ≤ x := by
    by_contra hc
    have h1 : x * 10 ^ prec < 0 := mul_neg_of_neg_of_pos (not_le.1 hc) hp
    rw [h] at h1
    exact absurd h1 (not_lt.2 (Nat.cast_nonneg n))
  unfold tell shown
  rw [if_neg (not_lt.2 hx), abs_of_nonneg hx, h, rounds_nat hr, ← h, mul_div_assoc, div_self hp.ne', mul_one]

theorem tell_le {rd : ℝ → ℕ} (hr : Rounds rd) (prec n : Nat) {x T : ℝ} (hT : T * 10 ^ prec = n) (h : x ≤ T) : tell rd prec x ≤ T := by
  rw [← tell_exact hr prec n hT]
  rcases h.eq_or_lt with rfl | h
  · rw [tell_exact hr prec n hT]
  · rw [tell_exact hr prec n hT]
    exact le_trans (tell_mono hr prec h) (tell_exact hr prec n hT).le

theorem le_tell {rd : ℝ → ℕ} (hr : Rounds rd) (prec n : Nat) {x T : ℝ} (hT : T * 10 ^ prec = n) (h : T ≤ x) : T ≤ tell rd prec x := by
  rcases h.eq_or_lt with rfl | h
  · exact le_of_eq (tell_exact hr prec n hT).symm
  · exact le_trans (tell_exact hr prec n hT).symm.le (tell_mono hr prec h)

/-- The number that `f_freq!` and `f_ms!` tell. -/
noncomputable def tellF (rd : ℝ → ℕ) (d : ℝ) : ℝ := if d ≥ 1000 then tell rd 0 d else if d ≥ 100 then tell rd 1 d else tell rd 2 d

theorem fFreq_tells (rd : ℝ → ℕ) (d : ℝ) : Tells (fFreq rd d) ['H', 'z'] ∧ value (fFreq rd d) = tellF rd d := by
  unfold fFreq tellF
  split
  · exact ⟨(read_num _ _ _ _ _ _ unit_Hz).1, value_tell _ _ _ _ _ _ unit_Hz⟩
  · split
    · exact ⟨(read_num _ _ _ _ _ _ unit_Hz).1, value_tell _ _ _ _ _ _ unit_Hz⟩
    · exact ⟨(read_num _ _ _ _ _ _ unit_Hz).1, value_tell _ _ _ _ _ _ unit_Hz⟩

theorem fMs_tells (rd : ℝ → ℕ) (d : ℝ) : Tells (fMs rd d) ['m', 's'] ∧ value (fMs rd d) = tellF rd d := by
  unfold fMs tellF
  split
  · exact ⟨(read_num _ _ _ _ _ _ unit_ms).1, value_tell _ _ _ _ _ _ unit_ms⟩
  · split
    · exact ⟨(read_num _ _ _ _ _ _ unit_ms).1, value_tell _ _ _ _ _ _ unit_ms⟩
    · exact ⟨(read_num _ _ _ _ _ _ unit_ms).1, value_tell _ _ _ _ _ _ unit_ms⟩

theorem tellF_near {rd : ℝ → ℕ} (hr : Rounds rd) (d : ℝ) : |tellF rd d - d| ≤ max (1 / 200) (d / 2000) := by
  unfold tellF
  split
  · refine le_trans (tell_near hr 0 d) (le_max_of_le_right ?_); norm_num; linarith
  · split
    · refine le_trans (tell_near hr 1 d) (le_max_of_le_right ?_); norm_num; linarith
    · refine le_trans (tell_near hr 2 d) (le_max_of_le_left ?_); norm_num

theorem tellF_mono {rd : ℝ → ℕ} (hr : Rounds rd) {x y : ℝ} (h : x < y) : tellF rd x ≤ tellF rd y := by
  unfold tellF
  by_cases a1 : x ≥ 1000
  · rw [if_pos a1, if_pos (by linarith : y ≥ 1000)]; exact tell_mono hr 0 h
  rw [if_neg a1]
  by_cases a2 : x ≥ 100
  · rw [if_pos a2]
    by_cases b1 : y ≥ 1000
    · rw [if_pos b1]
      exact le_trans (tell_le hr 1 10000 (T := 1000) (by norm_num) (by linarith)) (le_tell hr 0 1000 (by norm_num) b1)
    · rw [if_neg b1, if_pos (by linarith : y ≥ 100)]; exact tell_mono hr 1 h
  · rw [if_neg a2]
    have hx := tell_le hr 2 10000 (T := 100) (x := x) (by norm_num) (by linarith)
    by_cases b1 : y ≥ 1000
    · rw [if_pos b1]
      have := le_tell hr 0 1000 (T := 1000) (by norm_num) b1
      linarith
    · rw [if_neg b1]
      by_cases b2 : y ≥ 100
      · rw [if_pos b2]; exact le_trans hx (le_tell hr 1 1000 (by norm_num) b2)
      · rw [if_neg b2]; exact tell_mono hr 2 h

/-- The period that `f_lfot!` (`hz`) and `f_lfoms!` tell. -/
noncomputable def tellL (rd : ℝ → ℕ) (hz : Bool) (d : ℝ) : ℝ :=
  if d < 10 then (if hz then 1000 / tell rd 1 (1000 / d) else tell rd 3 d)
  else if d < 250 then tell rd 1 d
  else if d < 1500 then tell rd 0 d
  else if d < 10000 then 1000 * tell rd 2 (d / 1000)
  else 1000 * tell rd 1 (d / 1000)

theorem period_ms (rd : ℝ → ℕ) (w p : Nat) (x : ℝ) : Tells (num rd false w p x ++ ['m', 's']) ['m', 's'] ∧
    period (num rd false w p x ++ ['m', 's']) = tell rd p x := by
  have h := read_num rd false w p x _ unit_ms
  refine ⟨h.1, ?_⟩
  unfold period
  rw [h.1.2, if_neg (by decide), if_neg (by decide)]; exact h.2

theorem period_s (rd : ℝ → ℕ) (w p : Nat) (x : ℝ) : Tells (num rd false w p x ++ ['s']) ['s'] ∧
    period (num rd false w p x ++ ['s']) = 1000 * tell rd p x := by
  have h := read_num rd false w p x _ (unit_s [])
  refine ⟨h.1, ?_⟩
  unfold period
  rw [h.1.2, if_neg (by decide), if_pos rfl]; rw [h.2]; rfl

theorem period_Hz (rd : ℝ → ℕ) (w p : Nat) (x : ℝ) : Tells (num rd false w p x ++ ['H', 'z']) ['H', 'z'] ∧
    period (num rd false w p x ++ ['H', 'z']) = 1000 / tell rd p x := by
  have h := read_num rd false w p x _ unit_Hz
  refine ⟨h.1, ?_⟩
  unfold period
  rw [h.1.2, if_pos rfl]; rw [h.2]; rfl

theorem fLfot_tells (rd : ℝ → ℕ) (d : ℝ) : (Tells (fLfot rd d) ['H', 'z'] ∨ Tells (fLfot rd d) ['m', 's'] ∨ Tells (fLfot rd d) ['s']) ∧
    period (fLfot rd d) = tellL rd true d := by
  unfold fLfot tellL
  split
  · exact ⟨.inl (period_Hz _ _ _ _).1, (period_Hz _ _ _ _).2⟩
  split
  · exact ⟨.inr (.inl (period_ms _ _ _ _).1), (period_ms _ _ _ _).2⟩
  split
  · exact ⟨.inr (.inl (period_ms _ _ _ _).1), (period_ms _ _ _ _).2⟩
  split
  · exact ⟨.inr (.inr (period_s _ _ _ _).1), (period_s _ _ _ _).2⟩
  · exact ⟨.inr (.inr (period_s _ _ _ _).1), (period_s _ _ _ _).2⟩

theorem fLfoms_tells (rd : ℝ → ℕ) (d : ℝ) : (Tells (fLfoms rd d) ['m', 's'] ∨ Tells (fLfoms rd d) ['s']) ∧
    period (fLfoms rd d) = tellL rd false d := by
  unfold fLfoms tellL
  split
  · exact ⟨.inl (period_ms _ _ _ _).1, (period_ms _ _ _ _).2⟩
  split
  · exact ⟨.inl (period_ms _ _ _ _).1, (period_ms _ _ _ _).2⟩
  split
  · exact ⟨.inl (period_ms _ _ _ _).1, (period_ms _ _ _ _).2⟩
  split
  · exact ⟨.inr (period_s _ _ _ _).1, (period_s _ _ _ _).2⟩
  · exact ⟨.inr (period_s _ _ _ _).1, (period_s _ _ _ _).2⟩

theorem tellL_near {rd : ℝ → ℕ} (hr : Rounds rd) (hz : Bool) (d : ℝ) (h0 : 0.1 ≤ d) : |tellL rd hz d - d| ≤ d / 200 := by
  unfold tellL
  split
  · rename_i h
    have hd : 0 < d := by norm_num at h0; linarith
    split
    · have hf : 100 < 1000 / d := by rw [lt_div_iff₀ hd]; linarith
      have hn := tell_near hr 1 (1000 / d)
      have hlo := le_tell hr 1 1000 (T := 100) (x := 1000 / d) (by norm_num) hf.le
      obtain ⟨f, hfd⟩ : ∃ f, f = tell rd 1 (1000 / d) := ⟨_, rfl⟩
      rw [← hfd] at hn hlo ⊢
      have hpos : 0 < f := by linarith
      have e : 1000 / f - d = (1000 / d - f) * d / f := by field_simp
      rw [e, abs_div, abs_mul, abs_of_pos hd, abs_of_pos hpos, div_le_iff₀ hpos, abs_sub_comm]
      have : |f - 1000 / d| ≤ f / 200 := by norm_num at hn; linarith
      nlinarith
    · refine le_trans (tell_near hr 3 d) ?_; norm_num at h0 ⊢; linarith
  split
  · refine le_trans (tell_near hr 1 d) ?_; norm_num; linarith
  split
  · refine le_trans (tell_near hr 0 d) ?_; norm_num; linarith
  have key : ∀ p, |1000 * tell rd p (d / 1000) - d| ≤ 1000 * (1 / (2 * 10 ^ p)) := by
    intro p
    have := tell_near hr p (d / 1000)
    have e : 1000 * tell rd p (d / 1000) - d = 1000 * (tell rd p (d / 1000) - d / 1000) := by ring
    rw [e, abs_mul, abs_of_pos (by norm_num : (0 : ℝ) < 1000)]
    linarith
  split
  · refine le_trans (key 2) ?_; norm_num; linarith
  · refine le_trans (key 1) ?_; norm_num; linarith

theorem tellL_mono {rd : ℝ → ℕ} (hr : Rounds rd) (hz : Bool) {x y : ℝ} (hx : 0 < x) (h : x < y) : tellL rd hz x ≤ tellL rd hz y := by
  -- each of the five ranges, with its ends
  have r1 : ∀ d, 0 < d → d < 10 → tellL rd hz d ≤ 10 := by
    intro d hd h
    unfold tellL
    rw [if_pos h]
    split
    · have hf : 100 ≤ 1000 / d := by rw [le_div_iff₀ hd]; linarith
      have := le_tell hr 1 1000 (T := 100) (x := 1000 / d) (by norm_num) hf
      rw [div_le_iff₀ (by linarith)]; linarith
    · exact tell_le hr 3 10000 (by norm_num) h.le
  have r2 : ∀ d, 10 ≤ d → 10 ≤ tellL rd hz d := by
    intro d h
    unfold tellL
    rw [if_neg (not_lt.2 h)]
    split
    · exact le_tell hr 1 100 (by norm_num) h
    split
    · exact le_tell hr 0 10 (by norm_num) h
    split
    · have := le_tell hr 2 1 (T := 0.01) (x := d / 1000) (by norm_num) (by norm_num; linarith)
      norm_num at this ⊢; linarith
    · have := le_tell hr 1 1 (T := 0.1) (x := d / 1000) (by norm_num) (by norm_num; linarith)
      norm_num at this ⊢; linarith
  have r3 : ∀ d, 250 ≤ d → 250 ≤ tellL rd hz d := by
    intro d h
    unfold tellL
    rw [if_neg (by linarith), if_neg (not_lt.2 h)]
    split
    · exact le_tell hr 0 250 (by norm_num) h
    split
    · have := le_tell hr 2 25 (T := 0.25) (x := d / 1000) (by norm_num) (by norm_num; linarith)
      norm_num at this ⊢; linarith
    · have := le_tell hr 1 15 (T := 1.5) (x := d / 1000) (by norm_num) (by norm_num; linarith)
      norm_num at this ⊢; linarith
  have r4 : ∀ d, 1500 ≤ d → 1500 ≤ tellL rd hz d := by
    intro d h
    unfold tellL
    rw [if_neg (by linarith), if_neg (by linarith), if_neg (not_lt.2 h)]
    split
    · have := le_tell hr 2 150 (T := 1.5) (x := d / 1000) (by norm_num) (by norm_num; linarith)
      norm_num at this ⊢; linarith
    · have := le_tell hr 1 15 (T := 1.5) (x := d / 1000) (by norm_num) (by norm_num; linarith)
      norm_num at this ⊢; linarith
  by_cases a1 : x < 10
  · by_cases b1 : y < 10
    · unfold tellL
      rw [if_pos a1, if_pos b1]
      split
      · have hy : 0 < y := by linarith
        have hf : 100 ≤ 1000 / y := by rw [le_div_iff₀ hy]; linarith
        have hlo := le_tell hr 1 1000 (T := 100) (x := 1000 / y) (by norm_num) hf
        have hm := tell_mono hr 1 (x := 1000 / y) (y := 1000 / x) (div_lt_div_of_pos_left (by norm_num) hx h)
        exact div_le_div_of_nonneg_left (by norm_num) (by linarith) hm
      · exact tell_mono hr 3 h
    · exact le_trans (r1 x hx a1) (r2 y (not_lt.1 b1))
  by_cases a2 : x < 250
  · by_cases b2 : y < 250
    · unfold tellL
      rw [if_neg a1, if_pos a2, if_neg (by linarith), if_pos b2]
      exact tell_mono hr 1 h
    · refine le_trans ?_ (r3 y (not_lt.1 b2))
      unfold tellL
      rw [if_neg a1, if_pos a2]
      exact tell_le hr 1 2500 (by norm_num) a2.le
  by_cases a3 : x < 1500
  · by_cases b3 : y < 1500
    · unfold tellL
      rw [if_neg a1, if_neg a2, if_pos a3, if_neg (by linarith), if_neg (by linarith), if_pos b3]
      exact tell_mono hr 0 h
    · refine le_trans ?_ (r4 y (not_lt.1 b3))
      unfold tellL
      rw [if_neg a1, if_neg a2, if_pos a3]
      exact tell_le hr 0 1500 (by norm_num) a3.le
  have hxy : x / 1000 < y / 1000 := by linarith
  unfold tellL
  rw [if_neg a1, if_neg a2, if_neg a3, if_neg (by linarith : ¬ y < 10), if_neg (by linarith : ¬ y < 250), if_neg (by linarith : ¬ y < 1500)]
  by_cases a4 : x < 10000
  · rw [if_pos a4]
    by_cases b4 : y < 10000
    · rw [if_pos b4]; have := tell_mono hr 2 hxy; linarith
    · rw [if_neg b4]
      have h1 := tell_le hr 2 1000 (T := 10) (x := x / 1000) (by norm_num) (by linarith)
      have h2 := le_tell hr 1 100 (T := 10) (x := y / 1000) (by norm_num) (by linarith)
      linarith
  · rw [if_neg a4, if_neg (by linarith)]
    have := tell_mono hr 1 hxy; linarith

/-- Semitones and cents: the size told by `f_det!`. -/
noncomputable def tellD (a : ℝ) : ℝ := (⌊a⌋₊ : ℝ) + (⌊(a - ⌊a⌋₊) * 100 + 1 / 2⌋₊ : ℝ) / 100

theorem space_trim (t : List Char) : trim (' ' :: t) = trim t := by simp [trim]

theorem fDet_tells {rd : ℝ → ℕ} (hr : Rounds rd) (d : ℝ) :
    (Tells (fDet rd d) ['s'] ∨ ∃ r, Tells (fDet rd d) ('s' :: r) ∧ Tells r ['c'] ∧ negative r = false) ∧
    semitones (fDet rd d) = (if d < 0 then -1 else 1) * tellD |d| := by
  unfold fDet tellD
  obtain ⟨s, hs⟩ : ∃ s, ⌊|d|⌋₊ = s := ⟨_, rfl⟩
  simp only [hs]
  obtain ⟨c, hc⟩ : ∃ c, ⌊(|d| - s) * 100 + 1 / 2⌋₊ = c := ⟨_, rfl⟩
  simp only [hc]
  have ex : ∀ n : ℕ, (rd ((n : ℝ) * 10 ^ 0) : ℝ) / 10 ^ 0 = n := by intro n; simp [rounds_nat hr]
  split
  · obtain ⟨r, hrr⟩ : ∃ r, r = fixed rd false 3 0 false (c : ℝ) ++ ['c'] := ⟨_, rfl⟩
    have e : fixed rd false 2 0 (decide (d < 0)) (s : ℝ) ++ ['s', ' '] ++ fixed rd false 3 0 false (c : ℝ) ++ ['c'] =
        fixed rd false 2 0 (decide (d < 0)) (s : ℝ) ++ 's' :: (' ' :: r) := by rw [hrr]; simp
    rw [e]
    obtain ⟨t1, t2, t3⟩ := read_fixed rd false 2 0 (decide (d < 0)) (s : ℝ) _ (unit_s (' ' :: r))
    obtain ⟨u1, u2, u3⟩ := read_fixed rd false 3 0 false (c : ℝ) _ unit_c
    rw [← hrr] at u1 u2 u3
    have hn : negative (' ' :: r) = false := by rw [← u2]; unfold negative; rw [space_trim]
    have hun : unsigned (' ' :: r) = unsigned r := by unfold unsigned; rw [space_trim]
    have hsz : size (' ' :: r) = size r := by unfold size whole fracUnit; rw [hun]
    refine ⟨.inr ⟨_, t1, ⟨?_, ?_⟩, hn⟩, ?_⟩
    · unfold whole; rw [hun]; exact u1.1
    · have := u1.2; unfold unit fracUnit at this ⊢; rw [hun]; exact this
    · unfold semitones
      have hne : ('s' :: ' ' :: r : List Char) ≠ ['s'] := by simp
      rw [t2, t3, t1.2, if_neg hne, List.tail_cons, hsz, u3, ex, ex]
      by_cases hd : d < 0 <;> simp [hd]
  · rename_i hsmall
    have hc0 : c = 0 := by
      by_contra hne
      have : (1 : ℝ) ≤ c := by exact_mod_cast Nat.one_le_iff_ne_zero.2 hne
      exact hsmall (by norm_num; linarith)
    obtain ⟨t1, t2, t3⟩ := read_fixed rd false 2 0 (decide (d < 0)) (s : ℝ) _ (unit_s [])
    refine ⟨.inl t1, ?_⟩
    unfold semitones
    rw [t2, t3, t1.2, if_pos (rfl : ['s'] = ['s']), ex, hc0]
    by_cases hd : d < 0 <;> simp [hd]

theorem tellD_near (a : ℝ) (ha : 0 ≤ a) : |tellD a - a| ≤ 1 / 200 := by
  unfold tellD
  have h1 := Nat.floor_le ha
  have h0 : 0 ≤ (a - ⌊a⌋₊) * 100 + 1 / 2 := by linarith
  have h2 := Nat.floor_le h0
  have h3 := Nat.lt_floor_add_one ((a - ⌊a⌋₊) * 100 + 1 / 2)
  rw [abs_le]
  constructor <;> linarith

theorem tellD_nonneg (a : ℝ) : 0 ≤ tellD a := by unfold tellD; positivity

theorem tellD_mono (a b : ℝ) (ha : 0 ≤ a) (h : a ≤ b) : tellD a ≤ tellD b := by
  unfold tellD
  have hf := Nat.floor_le_floor h
  rcases hf.eq_or_lt with he | hlt
  · rw [← he]
    have : ⌊(a - ⌊a⌋₊) * 100 + 1 / 2⌋₊ ≤ ⌊(b - ⌊a⌋₊) * 100 + 1 / 2⌋₊ := Nat.floor_le_floor (by linarith)
    have : (⌊(a - ⌊a⌋₊) * 100 + 1 / 2⌋₊ : ℝ) ≤ ⌊(b - ⌊a⌋₊) * 100 + 1 / 2⌋₊ := by exact_mod_cast this
    linarith
  · have h1 : (⌊a⌋₊ : ℝ) + 1 ≤ ⌊b⌋₊ := by exact_mod_cast hlt
    have h2 : (⌊(a - ⌊a⌋₊) * 100 + 1 / 2⌋₊ : ℝ) ≤ 100 := by
      have hl := Nat.lt_floor_add_one a
      have : ⌊(a - ⌊a⌋₊) * 100 + 1 / 2⌋₊ < 101 := (Nat.floor_lt (by linarith [Nat.floor_le ha])).2 (by push_cast; linarith)
      exact_mod_cast Nat.lt_succ_iff.1 this
    have h3 : (0 : ℝ) ≤ ⌊(b - ⌊b⌋₊) * 100 + 1 / 2⌋₊ := by positivity
    linarith

/-- Decibels. -/
theorem fDb_tells {rd : ℝ → ℕ} (G : Gain) (d : ℝ) :
    (G.toDb d < -89.9 ∧ fDb G rd d = ['-', 'i', 'n', 'f', ' ', 'd', 'B']) ∨
    (-89.9 ≤ G.toDb d ∧ Tells (fDb G rd d) ['d', 'B'] ∧ value (fDb G rd d) = tell rd 1 (if |G.toDb d| < 0.0001 then 0 else G.toDb d)) := by
  unfold fDb
  simp only
  split
  · rename_i h; exact .inl ⟨by norm_num at h ⊢; exact h, rfl⟩
  · rename_i h
    refine .inr ⟨by norm_num at h ⊢; exact h, ?_⟩
    exact ⟨(read_num _ _ _ _ _ _ unit_dB).1, value_tell _ _ _ _ _ _ unit_dB⟩

theorem snap_near {rd : ℝ → ℕ} (hr : Rounds rd) (x : ℝ) : |tell rd 1 (if |x| < 0.0001 then 0 else x) - x| ≤ 1 / 20 := by
  split
  · rename_i h
    rw [tell_exact hr 1 0 (by norm_num), zero_sub, abs_neg]
    norm_num at h ⊢; linarith
  · refine le_trans (tell_near hr 1 x) ?_; norm_num

theorem snap_mono {rd : ℝ → ℕ} (hr : Rounds rd) {x y : ℝ} (h : x < y) :
    tell rd 1 (if |x| < 0.0001 then 0 else x) ≤ tell rd 1 (if |y| < 0.0001 then 0 else y) := by
  have : (if |x| < 0.0001 then 0 else x) ≤ (if |y| < 0.0001 then 0 else y) := by
    split <;> split
    · exact le_refl _
    · rename_i a b
      have := abs_lt.1 a
      by_contra hc
      exact b (by rw [abs_of_neg (not_le.1 hc)]; linarith [this.1])
    · rename_i a b
      have := abs_lt.1 b
      by_contra hc
      exact a (by rw [abs_of_pos (not_le.1 hc)]; linarith [this.2])
    · exact h.le
  rcases this.eq_or_lt with e | l
  · rw [e]
  · exact tell_mono hr 1 l

end HexoDSP.Format.Lemmas
