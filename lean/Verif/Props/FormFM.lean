import Verif.Model.FormFM
/-!
# The formant oscillator (C92)
-/

set_option linter.unusedSectionVars false

namespace HexoDSP.FormFMProps
open HexoDSP.FormFM HexoDSP.Table

theorem dPit_pos (x : ℝ) : 0 < dPit x := by
  unfold dPit
  have := Real.rpow_pos_of_pos (by norm_num : (0 : ℝ) < 2) (max (-10) (min 10 (x * 10)))
  linarith

theorem dPit_ge (x : ℝ) : 1e-6 ≤ dPit x := by
  unfold dPit
  have h : (2 : ℝ) ^ (-10 : ℝ) ≤ (2 : ℝ) ^ (max (-10) (min 10 (x * 10))) :=
    Real.rpow_le_rpow_of_exponent_le (by norm_num) (le_max_left _ _)
  have h2 : (2 : ℝ) ^ (-10 : ℝ) = 1 / 1024 := by
    rw [show (-10 : ℝ) = ((-10 : ℤ) : ℝ) by norm_num, Real.rpow_intCast]
    norm_num
  rw [h2] at h
  norm_num
  linarith

theorem rfract_nonneg {x : ℝ} (h : 0 ≤ x) : rfract x = Int.fract x := by
  unfold rfract; rw [if_pos h]; rfl

theorem side_range (i : Input) : 0 < i.sideVal ∧ i.sideVal < 1 := by
  unfold Input.sideVal
  constructor
  · exact lt_of_lt_of_le (by norm_num) (le_max_right _ _)
  · refine max_lt (lt_of_le_of_lt (min_le_right _ _) (by norm_num)) (by norm_num)

theorem triangle_range {s p : ℝ} (hs : 0 < s ∧ s < 1) (hp : 0 ≤ p ∧ p ≤ 1) : 0 ≤ triangle s p ∧ triangle s p ≤ 1 := by
  unfold triangle
  have h1 : 0 < 1 - s := by linarith
  constructor
  · exact le_min (div_nonneg hp.1 hs.1.le) (div_nonneg (by linarith) h1.le)
  · rcases le_total p s with h | h
    · exact (min_le_left _ _).trans ((div_le_one hs.1).2 h)
    · exact (min_le_right _ _).trans ((div_le_one h1).2 (by linarith))

/-- The smooth step keeps the unit interval. -/
theorem smooth_range {b : ℝ} (h : 0 ≤ b ∧ b ≤ 1) : 0 ≤ b * b * (3 - 2 * b) ∧ b * b * (3 - 2 * b) ≤ 1 := by
  constructor
  · exact mul_nonneg (mul_nonneg h.1 h.1) (by linarith)
  · nlinarith [mul_nonneg (sq_nonneg (1 - b)) (by linarith : (0:ℝ) ≤ 1 + 2 * b)]

theorem carrier_range {s q p : ℝ} (hs : 0 < s ∧ s < 1) (hp : 0 ≤ p ∧ p ≤ 1) :
    min 1 q ≤ carrier s q p ∧ carrier s q p ≤ max 1 q := by
  obtain ⟨h1, h2⟩ := smooth_range (triangle_range hs hp)
  unfold carrier
  simp only
  generalize triangle s p * triangle s p * (3 - 2 * triangle s p) = t at h1 h2 ⊢
  rcases le_total q 1 with h | h
  · rw [min_eq_right h, max_eq_left h]
    constructor <;> nlinarith
  · rw [min_eq_left h, max_eq_right h]
    constructor <;> nlinarith

theorem modulator_le {m p : ℝ} (hm : 0 ≤ m) : |modulator m p| ≤ 1 := by
  unfold modulator
  simp only
  rw [rfract_nonneg hm]
  have h0 := Int.fract_nonneg m
  have h1 := (Int.fract_lt_one m).le
  have ha : |(if m < 1 then 0 else Real.cos (2 * Real.pi * p * (⌊m⌋ : ℝ)))| ≤ 1 := by
    split
    · simp
    · exact Real.abs_cos_le_one _
  have hb := Real.abs_cos_le_one (2 * Real.pi * p * ((⌊m⌋ : ℝ) + 1))
  generalize (if m < 1 then 0 else Real.cos (2 * Real.pi * p * (⌊m⌋ : ℝ))) = a at ha ⊢
  generalize Real.cos (2 * Real.pi * p * ((⌊m⌋ : ℝ) + 1)) = b at hb ⊢
  rw [abs_le] at ha hb ⊢
  constructor <;> nlinarith

theorem multiple_nonneg (i : Input) : 0 ≤ i.formant / max i.base 1e-6 :=
  div_nonneg (dPit_pos _).le (le_max_of_le_right (by norm_num))

theorem multiple_eq (i : Input) : i.formant / max i.base 1e-6 = i.formant / i.base := by
  rw [max_eq_left (show 1e-6 ≤ i.base from dPit_ge _)]

theorem phase_next {isr p : ℝ} (hi : 0 ≤ isr) (hp : 0 ≤ p ∧ p < 1) (i : Input) :
    0 ≤ (frame isr p i).2 ∧ (frame isr p i).2 < 1 := by
  have : 0 ≤ p + i.base * isr := add_nonneg hp.1 (mul_nonneg (dPit_pos _).le hi)
  simp only [frame]
  rw [rfract_nonneg this]
  exact ⟨Int.fract_nonneg _, Int.fract_lt_one _⟩

theorem run_length (isr : ℝ) (ins : List Input) : ∀ p, (run isr p ins).1.length = ins.length := by
  induction ins with
  | nil => intro p; rfl
  | cons i rest ih => intro p; simp only [run, List.length_cons, ih]

/-- The sample of frame `n` and the phase it is made from. -/
theorem run_get {isr : ℝ} (hi : 0 ≤ isr) (ins : List Input) : ∀ (p : ℝ), 0 ≤ p → p < 1 → ∀ (n : Nat) (i : Input), ins[n]? = some i →
    (run isr p ins).1[n]? = some (frame isr (Int.fract (p + isr * ((ins.take n).map Input.base).sum)) i).1 := by
  induction ins with
  | nil => intro p _ _ n i h; simp at h
  | cons j rest ih =>
    intro p h0 h1 n i h
    cases n with
    | zero =>
      have hj : j = i := by simpa using h
      subst hj
      simp only [run, List.getElem?_cons_zero, List.take_zero, List.map_nil, List.sum_nil, mul_zero, add_zero]
      rw [Int.fract_eq_self.2 ⟨h0, h1⟩]
    | succ n =>
      have hq := phase_next hi ⟨h0, h1⟩ j
      have h' : rest[n]? = some i := by simpa using h
      have := ih _ hq.1 hq.2 n i h'
      simp only [run, List.getElem?_cons_succ]
      rw [this]
      congr 3
      have hn : 0 ≤ p + j.base * isr := add_nonneg h0 (mul_nonneg (dPit_pos _).le hi)
      simp only [frame]
      rw [rfract_nonneg hn, List.take_succ_cons, List.map_cons, List.sum_cons]
      rw [Int.fract_eq_fract]
      refine ⟨-⌊p + j.base * isr⌋, ?_⟩
      have : Int.fract (p + j.base * isr) = p + j.base * isr - (⌊p + j.base * isr⌋ : ℝ) := rfl
      rw [this]
      push_cast
      ring

/-! ### The theorems -/

/-- **C92** Whatever the signals at the inputs are, a sample lies between `-1` and `1` unless the peak input is outside `[-1, 1]`, and then it is at
most as loud as that input: in frame `n` it is at most `max 1 |peak|`. -/
theorem bounded {srate : ℝ} (hs : 0 < srate) {ins : List Input} {n : Nat} {y : ℝ} {i : Input} (hi : ins[n]? = some i)
    (hy : (play srate ins)[n]? = some y) : |y| ≤ max 1 |i.peak| := by
  unfold play at hy
  rw [run_get (by positivity) ins 0 le_rfl one_pos n i hi] at hy
  have hy := (Option.some.inj hy).symm
  subst hy
  generalize hp : Int.fract (0 + 1 / srate * ((ins.take n).map Input.base).sum) = p
  have hp0 : 0 ≤ p ∧ p ≤ 1 := by rw [← hp]; exact ⟨Int.fract_nonneg _, (Int.fract_lt_one _).le⟩
  simp only [frame]
  rw [abs_mul]
  have hm := modulator_le (p := p) (multiple_nonneg i)
  obtain ⟨c1, c2⟩ := carrier_range (q := i.peak) (side_range i) hp0
  have hc : |carrier i.sideVal i.peak p| ≤ max 1 |i.peak| := by
    rw [abs_le]
    constructor
    · refine le_trans ?_ c1
      refine le_min ?_ ?_
      · have := le_max_left 1 |i.peak|; linarith
      · have := le_max_right 1 |i.peak|
        have := neg_abs_le i.peak
        linarith
    · exact c2.trans (max_le_max le_rfl (le_abs_self _))
  calc |carrier i.sideVal i.peak p| * |modulator _ p| ≤ max 1 |i.peak| * 1 :=
        mul_le_mul hc hm (abs_nonneg _) (le_trans zero_le_one (le_max_left _ _))
    _ = _ := mul_one _

/-- **C92** With the knob of the peak in its range the oscillator stays within `[-1, 1]`. -/
theorem unit_range {srate : ℝ} (hs : 0 < srate) {ins : List Input} (hk : ∀ i ∈ ins, 0 ≤ i.peak ∧ i.peak ≤ 1) :
    ∀ y ∈ play srate ins, -1 ≤ y ∧ y ≤ 1 := by
  intro y hy
  obtain ⟨n, hn⟩ := List.mem_iff_getElem?.1 hy
  have hlt : n < ins.length := by
    have := (List.getElem?_eq_some_iff.1 hn).1
    rwa [play, run_length] at this
  have hi : ins[n]? = some ins[n] := List.getElem?_eq_getElem hlt
  have hm : ins[n] ∈ ins := List.getElem_mem hlt
  generalize ins[n] = i at hi hm
  have h := bounded hs hi hn
  have hp := hk i hm
  rw [abs_of_nonneg hp.1, max_eq_left hp.2] at h
  exact abs_le.1 h

/-- **C92** The samples do not depend on how the frames are split into blocks. -/
theorem split (isr p : ℝ) (a b : List Input) :
    run isr p (a ++ b) = ((run isr p a).1 ++ (run isr (run isr p a).2 b).1, (run isr (run isr p a).2 b).2) := by
  induction a generalizing p with
  | nil => rfl
  | cons i a ih => simp only [List.cons_append, run, ih]

/-- **C92** When the formant lies at a whole multiple of the base frequency, the samples are a cosine at the formant frequency, from phase zero at the
first frame, with an envelope between the peak value and one. The base frequency may be anything constant. -/
theorem formant_tone {srate : ℝ} (hs : 0 < srate) {ins : List Input} {f : ℝ} (hf : ∀ i ∈ ins, i.base = f)
    {n : Nat} {i : Input} (hi : ins[n]? = some i) {k : Nat} (hk : 1 ≤ k) (hform : i.formant = k * f) :
    ∃ c, min 1 i.peak ≤ c ∧ c ≤ max 1 i.peak ∧
      (play srate ins)[n]? = some (c * Real.cos (2 * Real.pi * i.formant * (n / srate))) := by
  have hlt := (List.getElem?_eq_some_iff.1 hi).1
  have hsum : ((ins.take n).map Input.base).sum = n * f := by
    have : (ins.take n).map Input.base = List.replicate n f := by
      rw [List.eq_replicate_iff]
      constructor
      · rw [List.length_map, List.length_take]; omega
      · intro b hb
        obtain ⟨j, hj, rfl⟩ := List.mem_map.1 hb
        exact hf j (List.mem_of_mem_take hj)
    rw [this, List.sum_replicate, nsmul_eq_mul]
  have hbase : i.base = f := hf i (List.mem_of_getElem? hi)
  have hf0 : 0 < f := hbase ▸ dPit_pos _
  unfold play
  rw [run_get (by positivity) ins 0 le_rfl one_pos n i hi, hsum, zero_add]
  generalize hx : 1 / srate * (n * f) = x
  have hp0 : 0 ≤ Int.fract x ∧ Int.fract x ≤ 1 := ⟨Int.fract_nonneg _, (Int.fract_lt_one _).le⟩
  obtain ⟨c1, c2⟩ := carrier_range (q := i.peak) (side_range i) hp0
  refine ⟨carrier i.sideVal i.peak (Int.fract x), c1, c2, ?_⟩
  simp only [frame]
  rw [multiple_eq, hbase, hform]
  have hm : (k : ℝ) * f / f = k := by field_simp
  rw [hm]
  congr 2
  unfold modulator
  simp only
  have hfr : rfract (k : ℝ) = 0 := by
    rw [rfract_nonneg (Nat.cast_nonneg k), Int.fract_natCast]
  rw [hfr, if_neg (by have : (1 : ℝ) ≤ k := by exact_mod_cast hk
                      linarith), Int.floor_natCast]
  rw [sub_zero, one_mul, zero_mul, add_zero]
  have : 2 * Real.pi * (k * f) * (n / srate) = 2 * Real.pi * Int.fract x * ((k : ℤ) : ℝ) + ((k * ⌊x⌋ : ℤ) : ℝ) * (2 * Real.pi) := by
    have h1 : Int.fract x = x - ⌊x⌋ := rfl
    rw [h1]
    push_cast
    rw [← hx]
    field_simp
    ring
  rw [this, Real.cos_add_int_mul_two_pi]

/-- **C92** The base frequency is the pitch that is heard: with constant inputs the samples repeat whenever a whole number of periods of the base
frequency has passed. -/
theorem periodic {srate : ℝ} (hs : 0 < srate) (i : Input) {len m n : Nat} (hm : m < len) (hn : n < len) (z : ℤ)
    (h : ((m : ℝ) - n) * (i.base / srate) = z) :
    (play srate (List.replicate len i))[m]? = (play srate (List.replicate len i))[n]? := by
  have hm' : (List.replicate len i)[m]? = some i := by rw [List.getElem?_replicate, if_pos hm]
  have hn' : (List.replicate len i)[n]? = some i := by rw [List.getElem?_replicate, if_pos hn]
  unfold play
  rw [run_get (by positivity) _ 0 le_rfl one_pos m i hm', run_get (by positivity) _ 0 le_rfl one_pos n i hn']
  congr 3
  rw [Int.fract_eq_fract]
  refine ⟨z, ?_⟩
  rw [List.take_replicate, List.take_replicate, min_eq_left hm.le, min_eq_left hn.le, List.map_replicate, List.map_replicate,
    List.sum_replicate, List.sum_replicate, nsmul_eq_mul, nsmul_eq_mul, ← h]
  field_simp
  ring

/-- The modulator at a whole number. -/
theorem modulator_nat (k : Nat) (p : ℝ) : modulator k p = if k = 0 then 0 else Real.cos (2 * Real.pi * p * k) := by
  unfold modulator
  simp only
  rw [rfract_nonneg (Nat.cast_nonneg k), Int.fract_natCast, Int.floor_natCast, sub_zero, one_mul, zero_mul, add_zero]
  by_cases h : k = 0
  · subst h; simp
  · rw [if_neg h, if_neg]
    · simp
    · have : (1 : ℝ) ≤ k := by exact_mod_cast Nat.one_le_iff_ne_zero.2 h
      linarith

/-- Between two whole numbers the modulator is a straight line. -/
theorem modulator_line {x : ℝ} {k : Nat} (h0 : (k : ℝ) ≤ x) (h1 : x ≤ k + 1) (p : ℝ) :
    modulator x p = (1 - (x - k)) * modulator k p + (x - k) * modulator ((k + 1 : Nat) : ℝ) p := by
  rcases eq_or_lt_of_le h1 with h | h
  · have : x = ((k + 1 : Nat) : ℝ) := by push_cast; exact h
    rw [this]; push_cast; ring
  · have hf : ⌊x⌋ = (k : ℤ) := Int.floor_eq_iff.2 ⟨by exact_mod_cast h0, by exact_mod_cast h⟩
    rw [modulator_nat, modulator_nat, if_neg (Nat.succ_ne_zero k)]
    unfold modulator
    simp only
    rw [rfract_nonneg (le_trans (Nat.cast_nonneg k) h0), ← Int.self_sub_floor, hf]
    by_cases hk : k = 0
    · subst hk
      rw [if_pos rfl, if_pos (by simpa using h)]
      simp
    · rw [if_neg hk, if_neg]
      · push_cast; ring
      · have : (1 : ℝ) ≤ k := by exact_mod_cast Nat.one_le_iff_ne_zero.2 hk
        linarith

theorem modulator_near {x y : ℝ} {k : Nat} (h0 : (k : ℝ) ≤ x) (hxy : x ≤ y) (h1 : y ≤ k + 1) (p : ℝ) :
    |modulator y p - modulator x p| ≤ 2 * (y - x) := by
  rw [modulator_line h0 (hxy.trans h1) p, modulator_line (h0.trans hxy) h1 p]
  have ha := abs_le.1 (modulator_le (m := (k : ℝ)) (p := p) (Nat.cast_nonneg k))
  have hb := abs_le.1 (modulator_le (m := ((k + 1 : Nat) : ℝ)) (p := p) (Nat.cast_nonneg (k + 1)))
  generalize modulator (k : ℝ) p = a at ha ⊢
  generalize modulator ((k + 1 : Nat) : ℝ) p = b at hb ⊢
  have : (1 - (y - k)) * a + (y - k) * b - ((1 - (x - k)) * a + (x - k) * b) = (y - x) * (b - a) := by ring
  rw [this, abs_mul, abs_of_nonneg (by linarith)]
  have : |b - a| ≤ 2 := abs_le.2 ⟨by linarith, by linarith⟩
  nlinarith

theorem modulator_far {x y : ℝ} (hx : 0 ≤ x) (hxy : x ≤ y) (p : ℝ) :
    |modulator y p - modulator x p| ≤ 2 * (y - x) := by
  have hy := hx.trans hxy
  have fx := Nat.floor_le hx
  have fx' := Nat.lt_floor_add_one x
  have fy := Nat.floor_le hy
  have fy' := Nat.lt_floor_add_one y
  rcases eq_or_lt_of_le (Nat.floor_le_floor hxy) with h | h
  · exact modulator_near fx hxy (by rw [h]; exact fy'.le) p
  · have hle : (⌊x⌋₊ : ℝ) + 1 ≤ ⌊y⌋₊ := by exact_mod_cast h
    have h1 := modulator_near (k := ⌊x⌋₊) (x := x) (y := ((⌊x⌋₊ + 1 : Nat) : ℝ)) fx (by push_cast; exact fx'.le) (by push_cast; exact le_rfl) p
    have h2 := modulator_near (k := ⌊y⌋₊) (x := (⌊y⌋₊ : ℝ)) (y := y) le_rfl fy fy'.le p
    push_cast at h1
    rcases eq_or_lt_of_le hle with h3 | h3
    · have : |modulator y p - modulator x p| ≤ |modulator y p - modulator (⌊y⌋₊ : ℝ) p| + |modulator ((⌊x⌋₊ : ℝ) + 1) p - modulator x p| := by
        rw [← h3]; exact abs_sub_le _ _ _
      linarith
    · have hc : (⌊x⌋₊ : ℝ) + 1 + 1 ≤ ⌊y⌋₊ := by exact_mod_cast h3
      have ha := abs_le.1 (modulator_le (m := (⌊y⌋₊ : ℝ)) (p := p) (Nat.cast_nonneg _))
      have hb := abs_le.1 (modulator_le (m := ((⌊x⌋₊ : ℝ) + 1)) (p := p) (by positivity))
      rw [abs_le] at h1 h2 ⊢
      constructor <;> linarith

/-- **C92** Sweeping the formant frequency makes no jumps: at the same phase and with the same other inputs, two settings of the formant differ by at
most twice the loudest amplitude times their distance in multiples of the base frequency. -/
theorem sweep_smooth {isr p : ℝ} (hp : 0 ≤ p ∧ p < 1) (i : Input) (form form' : ℝ) :
    |(frame isr p { i with form := form' }).1 - (frame isr p { i with form := form }).1| ≤
      max 1 |i.peak| * (2 * |dPit form' / i.base - dPit form / i.base|) := by
  have hb : ∀ g : ℝ, ({ i with form := g } : Input).formant / max ({ i with form := g } : Input).base 1e-6 = dPit g / i.base := by
    intro g
    rw [multiple_eq]; rfl
  have h1 : (frame isr p { i with form := form' }).1 = carrier i.sideVal i.peak p * modulator (dPit form' / i.base) p := by
    rw [← hb form']; rfl
  have h2 : (frame isr p { i with form := form }).1 = carrier i.sideVal i.peak p * modulator (dPit form / i.base) p := by
    rw [← hb form]; rfl
  rw [h1, h2, ← mul_sub, abs_mul]
  obtain ⟨c1, c2⟩ := carrier_range (q := i.peak) (side_range i) ⟨hp.1, hp.2.le⟩
  have hc : |carrier i.sideVal i.peak p| ≤ max 1 |i.peak| := by
    rw [abs_le]
    constructor
    · refine le_trans ?_ c1
      refine le_min ?_ ?_
      · have := le_max_left 1 |i.peak|; linarith
      · have := le_max_right 1 |i.peak|
        have := neg_abs_le i.peak
        linarith
    · exact c2.trans (max_le_max le_rfl (le_abs_self _))
  refine mul_le_mul hc ?_ (abs_nonneg _) (le_trans zero_le_one (le_max_left _ _))
  have hx := div_nonneg (dPit_pos form).le (dPit_pos (i.freq + i.det)).le
  have hy := div_nonneg (dPit_pos form').le (dPit_pos (i.freq + i.det)).le
  change 0 ≤ dPit form / i.base at hx
  change 0 ≤ dPit form' / i.base at hy
  rcases le_total (dPit form / i.base) (dPit form' / i.base) with h | h
  · rw [abs_of_nonneg (sub_nonneg.2 h)]
    exact modulator_far hx h p
  · rw [abs_sub_comm, abs_sub_comm (dPit form' / i.base), abs_of_nonneg (sub_nonneg.2 h)]
    exact modulator_far hy h p

/-- **C92** The side input says where in the period the envelope has the value of the peak input; at the start of the period the envelope is one. -/
theorem envelope (i : Input) : carrier i.sideVal i.peak 0 = 1 ∧ carrier i.sideVal i.peak i.sideVal = i.peak := by
  obtain ⟨h1, h2⟩ := side_range i
  have h3 : 0 < 1 - i.sideVal := by linarith
  constructor
  · have : triangle i.sideVal 0 = 0 := by
      unfold triangle
      rw [zero_div, min_eq_left]
      exact div_nonneg (by norm_num) h3.le
    simp only [carrier, this]; ring
  · have : triangle i.sideVal i.sideVal = 1 := by
      unfold triangle
      rw [div_self h1.ne', div_self h3.ne', min_self]
    simp only [carrier, this]; ring

/-- **C92** Between these two points the envelope only goes one way: for a peak of at most one it falls until the side and rises after it. -/
theorem envelope_mono (i : Input) (hq : i.peak ≤ 1) {p p' : ℝ} (h0 : 0 ≤ p) (hpp : p ≤ p') (h1 : p' ≤ 1) :
    (p' ≤ i.sideVal → carrier i.sideVal i.peak p' ≤ carrier i.sideVal i.peak p) ∧
    (i.sideVal ≤ p → carrier i.sideVal i.peak p ≤ carrier i.sideVal i.peak p') := by
  have hs := side_range i
  have h3 : 0 < 1 - i.sideVal := by linarith [hs.2]
  have key : ∀ {a b : ℝ}, 0 ≤ a → a ≤ b → b ≤ 1 → 1 - (1 - i.peak) * (b * b * (3 - 2 * b)) ≤ 1 - (1 - i.peak) * (a * a * (3 - 2 * a)) := by
    intro a b ha hab hb
    have : a * a * (3 - 2 * a) ≤ b * b * (3 - 2 * b) := by
      have hd : b * b * (3 - 2 * b) - a * a * (3 - 2 * a) = (b - a) * (3 * (a + b) - 2 * (a * a + a * b + b * b)) := by ring
      have : 0 ≤ 3 * (a + b) - 2 * (a * a + a * b + b * b) := by nlinarith [mul_nonneg ha (sub_nonneg.2 hb)]
      nlinarith [mul_nonneg (sub_nonneg.2 hab) this]
    nlinarith [mul_le_mul_of_nonneg_left this (by linarith : (0:ℝ) ≤ 1 - i.peak)]
  have left : ∀ {q : ℝ}, q ≤ i.sideVal → triangle i.sideVal q = q / i.sideVal := by
    intro q hq
    unfold triangle
    rw [min_eq_left]
    exact ((div_le_one hs.1).2 hq).trans ((one_le_div h3).2 (by linarith))
  have right : ∀ {q : ℝ}, i.sideVal ≤ q → triangle i.sideVal q = (1 - q) / (1 - i.sideVal) := by
    intro q hq
    unfold triangle
    rw [min_eq_right]
    exact ((div_le_one h3).2 (by linarith)).trans ((one_le_div hs.1).2 hq)
  constructor
  · intro h
    simp only [carrier]
    rw [left h, left (hpp.trans h)]
    exact key (div_nonneg h0 hs.1.le) ((div_le_div_iff_of_pos_right hs.1).2 hpp) ((div_le_one hs.1).2 h)
  · intro h
    simp only [carrier]
    rw [right h, right (h.trans hpp)]
    exact key (div_nonneg (by linarith) h3.le) ((div_le_div_iff_of_pos_right h3).2 (by linarith)) ((div_le_one h3).2 (by linarith))

/-! ### A concrete patch: 440 Hz with the formant at 880 Hz -/

/-- `freq` at 440 Hz, the formant an octave higher, side and peak at their defaults. -/
noncomputable def exIn : Input := { freq := 0, det := 0, form := 1/10, side := 1/5, peak := 2/5 }

theorem ex_base : exIn.base = 440 := by
  simp only [exIn, Input.base, dPit]
  norm_num

theorem ex_formant : exIn.formant = 880 := by
  simp only [exIn, Input.formant, dPit]
  norm_num

example : ∀ y ∈ play 44100 (List.replicate 1000 exIn), -1 ≤ y ∧ y ≤ 1 :=
  unit_range (by norm_num) (fun i hi => by
    rw [List.eq_of_mem_replicate hi]; simp only [exIn]; norm_num)

example : ∃ c, 2/5 ≤ c ∧ c ≤ 1 ∧
    (play 44100 (List.replicate 1000 exIn))[25]? = some (c * Real.cos (2 * Real.pi * 880 * (25 / 44100))) := by
  obtain ⟨c, h1, h2, h3⟩ := formant_tone (srate := 44100) (by norm_num) (ins := List.replicate 1000 exIn) (f := 440)
    (fun i hi => by rw [List.eq_of_mem_replicate hi, ex_base]) (n := 25) (i := exIn) (by rw [List.getElem?_replicate]; rfl)
    (k := 2) (by norm_num) (by rw [ex_formant]; norm_num)
  have hp : exIn.peak = 2/5 := rfl
  rw [hp] at h1 h2
  rw [ex_formant] at h3
  refine ⟨c, ?_, ?_, by exact_mod_cast h3⟩
  · rw [min_eq_right (by norm_num)] at h1; exact h1
  · rw [max_eq_left (by norm_num)] at h2; exact h2

/-- At 44000 Hz a period of 440 Hz is a hundred frames. -/
example : (play 44000 (List.replicate 1000 exIn))[207]? = (play 44000 (List.replicate 1000 exIn))[7]? :=
  periodic (by norm_num) exIn (by norm_num) (by norm_num) 2 (by rw [ex_base]; norm_num)

end HexoDSP.FormFMProps
