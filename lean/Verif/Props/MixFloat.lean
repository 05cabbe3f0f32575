import Verif.Model.MixFloat
import Verif.Model.IoNodes
import Verif.Lemmas.FloatSeq
import Verif.Props.FormFMFloat
/-!
# Mixer, amplifier and output with `f32` numbers (C150)
-/

set_option linter.unusedSectionVars false

namespace HexoDSP.MixFloatProps
open HexoDSP HexoDSP.SinSpec HexoDSP.FloatLemmas HexoDSP.FormFMFloatProps HexoDSP.MixFloat

variable {rn : ℚ → ℚ}

theorem err (hr : Nearest rn) {x : ℚ} {k : ℤ} (h1 : -125 ≤ k) (h2 : k ≤ 127) {K : ℚ} (hK : K = (2 : ℚ) ^ k) (hx : |x| ≤ K) : |rn x - x| ≤ K / 2 ^ 25 := by
  subst hK
  have e := rn_err hr h1 h2 hx
  rwa [zpow_sub₀ (by norm_num)] at e

theorem nearest_neg (hr : Nearest rn) : Nearest (fun x => -rn (-x)) := fun x =>
  ⟨f32_neg (hr (-x)).1, fun y hy => by
    have := (hr (-x)).2 (-y) (f32_neg hy)
    rw [← abs_neg, ← abs_neg (y - x)]
    convert this using 2 <;> ring⟩

theorem le_prod {a b A B : ℚ} (ha : |a| ≤ A) (hb : |b| ≤ B) : |a * b| ≤ A * B := by
  rw [abs_mul]
  exact mul_le_mul ha hb (abs_nonneg _) ((abs_nonneg _).trans ha)

theorem le_sum {a b A B : ℚ} (ha : |a| ≤ A) (hb : |b| ≤ B) : |a + b| ≤ A + B := (abs_add_le a b).trans (add_le_add ha hb)

/-- **C150** The mixer plays the sum of its three signals, each times its volume, times the volume of the sum. With signals from -1 to 1, volumes up to `2^k` and a volume of the sum up to `2^l`, it is off by
at most 13/2^25 of `2^k * 2^l`: more than 120 dB below. -/
theorem mix_sum (hr : Nearest rn) {k l : ℤ} (k1 : -50 ≤ k) (k2 : k ≤ 50) (l1 : -50 ≤ l) (l2 : l ≤ 50) {i1 i2 i3 g1 g2 g3 og : ℚ}
    (a1 : |i1| ≤ 1) (a2 : |i2| ≤ 1) (a3 : |i3| ≤ 1) (b1 : |g1| ≤ (2 : ℚ) ^ k) (b2 : |g2| ≤ (2 : ℚ) ^ k) (b3 : |g3| ≤ (2 : ℚ) ^ k) (ho : |og| ≤ (2 : ℚ) ^ l) :
    |mix3 rn i1 i2 i3 g1 g2 g3 og - (i1 * g1 + i2 * g2 + i3 * g3) * og| ≤ 13 / 2 ^ 25 * ((2 : ℚ) ^ k * (2 : ℚ) ^ l) := by
  unfold mix3
  have K0 : (0 : ℚ) < (2 : ℚ) ^ k := zpow_pos (by norm_num) _
  have L0 : (0 : ℚ) < (2 : ℚ) ^ l := zpow_pos (by norm_num) _
  have c1 := le_prod a1 b1
  have c2 := le_prod a2 b2
  have c3 := le_prod a3 b3
  rw [one_mul] at c1 c2 c3
  have hF : F32 ((2 : ℚ) ^ k) := pow2_f32 (by omega) (by omega)
  have e1 := err hr (by omega) (by omega) rfl c1
  have e2 := err hr (by omega) (by omega) rfl c2
  have e3 := err hr (by omega) (by omega) rfl c3
  have p1 := rn_abs hr hF c1
  have p2 := rn_abs hr hF c2
  have p3 := rn_abs hr hF c3
  generalize rn (i1 * g1) = x1 at *
  generalize rn (i2 * g2) = x2 at *
  generalize rn (i3 * g3) = x3 at *
  have d : (2 : ℚ) ^ (k + 1) = 2 * (2 : ℚ) ^ k := by rw [zpow_add₀ (by norm_num)]; ring
  have d2 : (2 : ℚ) ^ (k + 2) = 4 * (2 : ℚ) ^ k := by rw [zpow_add₀ (by norm_num)]; norm_num; ring
  have d3 : (2 : ℚ) ^ (k + 2 + l) = 4 * (2 : ℚ) ^ k * (2 : ℚ) ^ l := by rw [zpow_add₀ (by norm_num), d2]
  have s := le_sum p1 p2
  rw [← two_mul, ← d] at s
  have f1 := err hr (by omega) (by omega) rfl s
  have q := rn_abs hr (pow2_f32 (by omega) (by omega)) s
  generalize rn (x1 + x2) = y at *
  have t : |y + x3| ≤ (2 : ℚ) ^ (k + 2) := (le_sum q p3).trans (by rw [d, d2]; linarith)
  have f2 := err hr (by omega) (by omega) rfl t
  have q2 := rn_abs hr (pow2_f32 (by omega) (by omega)) t
  generalize rn (y + x3) = z at *
  have u : |z * og| ≤ (2 : ℚ) ^ (k + 2 + l) := (le_prod q2 ho).trans (by rw [d2, d3])
  have f3 := err hr (by omega) (by omega) rfl u
  generalize rn (z * og) = w at *
  rw [d] at f1
  rw [d2] at f2
  rw [d3] at f3
  have v : |z - (i1 * g1 + i2 * g2 + i3 * g3)| ≤ 9 / 2 ^ 25 * (2 : ℚ) ^ k := by
    generalize (2 : ℚ) ^ k = K at *
    rw [abs_le] at *
    constructor <;> linarith
  have v2 := le_prod v ho
  have e : w - (i1 * g1 + i2 * g2 + i3 * g3) * og = (w - z * og) + (z - (i1 * g1 + i2 * g2 + i3 * g3)) * og := by ring
  rw [e]
  refine (le_sum f3 v2).trans (le_of_eq (by ring))

/-- **C150** Signals from -1 to 1 with volumes that add up to at most 1 do not make the mixer clip: what it plays is from -1 to 1, whatever was rounded. -/
theorem mix_full_scale (hr : Nearest rn) {i1 i2 i3 g1 g2 g3 og : ℚ} (a1 : |i1| ≤ 1) (a2 : |i2| ≤ 1) (a3 : |i3| ≤ 1) (F1 : F32 g1) (F2 : F32 g2) (F3 : F32 g3)
    (b1 : 0 ≤ g1) (b2 : 0 ≤ g2) (b3 : 0 ≤ g3) (hs : g1 + g2 + g3 ≤ 1) (o0 : 0 ≤ og) (o1 : og ≤ 1) :
    |mix3 rn i1 i2 i3 g1 g2 g3 og| ≤ 1 := by
  unfold mix3
  have c : ∀ {i g : ℚ}, |i| ≤ 1 → F32 g → 0 ≤ g → |rn (i * g)| ≤ g := fun {i g} h F p => by
    refine rn_abs hr F ((le_prod h (abs_of_nonneg p).le).trans (by rw [one_mul]))
  have p1 := c a1 F1 b1
  have p2 := c a2 F2 b2
  have p3 := c a3 F3 b3
  generalize rn (i1 * g1) = x1 at *
  generalize rn (i2 * g2) = x2 at *
  generalize rn (i3 * g3) = x3 at *
  have s := le_sum p1 p2
  have e := err hr (k := 0) (by norm_num) (by norm_num) (by norm_num) (s.trans (by linarith : g1 + g2 ≤ 1))
  generalize rn (x1 + x2) = y at *
  have t : |y + x3| ≤ 1 + 1 / 2 ^ 25 := by
    rw [abs_le] at *
    constructor <;> linarith
  have q : |rn (y + x3)| ≤ 1 := by
    obtain ⟨t1, t2⟩ := abs_le.1 t
    refine abs_le.2 ⟨?_, HexoDSP.FloatSeq.Lemmas.rn_le_one hr t2⟩
    have m := HexoDSP.FloatSeq.Lemmas.rn_le_one (nearest_neg hr) (z := -(y + x3)) (by linarith)
    rw [neg_neg] at m
    linarith
  generalize rn (y + x3) = z at *
  exact rn_abs hr one32 ((le_prod q (abs_le.2 ⟨by linarith, o1⟩)).trans (by norm_num))

/-- **C150** A single signal at full volume comes out of the mixer as it went in. -/
theorem mix_through (hr : Nearest rn) {i : ℚ} (h : F32 i) (g g' : ℚ) :
    mix3 rn i 0 0 1 g g' 1 = i ∧ mix3 rn 0 i 0 g 1 g' 1 = i ∧ mix3 rn 0 0 i g g' 1 1 = i := by
  have z := rn_fix hr f32_zero
  have f := rn_fix hr h
  unfold mix3
  simp only [zero_mul, mul_one, z, f, zero_add, add_zero, and_self]

/-- **C150** The amplifier plays its signal times `att` times `gain`, with a gain up to `2^k` up to `2^(k-24)`. -/
theorem amp_product (hr : Nearest rn) {k : ℤ} (k1 : -50 ≤ k) (k2 : k ≤ 50) {inp att gain : ℚ} (a : |inp| ≤ 1) (b0 : 0 ≤ att) (b1 : att ≤ 1) (c : |gain| ≤ (2 : ℚ) ^ k) (neg : Int) :
    |amp rn neg inp att gain - inp * att * gain| ≤ (2 : ℚ) ^ k / 2 ^ 24 := by
  unfold amp
  have K0 : (0 : ℚ) < (2 : ℚ) ^ k := zpow_pos (by norm_num) _
  have ha : (if neg > 0 then max att 0 else |att|) = att := by
    split
    · exact max_eq_left b0
    · exact abs_of_nonneg b0
  rw [ha]
  have p : |inp * att| ≤ 1 := (le_prod a (abs_le.2 ⟨by linarith, b1⟩)).trans (by norm_num)
  have e := err hr (k := 0) (by norm_num) (by norm_num) (by norm_num) p
  have q := rn_abs hr one32 p
  generalize rn (inp * att) = x at *
  have r := le_prod q c
  rw [one_mul] at r
  have f := err hr (by omega) (by omega) rfl r
  have g := le_prod e c
  have s : rn (x * gain) - inp * att * gain = (rn (x * gain) - x * gain) + (x - inp * att) * gain := by ring
  rw [s]
  refine (le_sum f g).trans (le_of_eq (by ring))

/-- **C150** With `att` from 0 to 1 and a gain of at most 1, nothing becomes louder, and the sign stays. -/
theorem amp_not_louder (hr : Nearest rn) {inp att gain : ℚ} (h : F32 inp) (b0 : 0 ≤ att) (b1 : att ≤ 1) (c0 : 0 ≤ gain) (c1 : gain ≤ 1) (neg : Int) :
    |amp rn neg inp att gain| ≤ |inp| ∧ 0 ≤ inp * amp rn neg inp att gain := by
  unfold amp
  have ha : (if neg > 0 then max att 0 else |att|) = att := by
    split
    · exact max_eq_left b0
    · exact abs_of_nonneg b0
  rw [ha]
  rcases le_total 0 inp with p | p
  · have x0 := rn_ge hr f32_zero (mul_nonneg p b0)
    have x1 := rn_le hr h (mul_le_of_le_one_right p b1)
    generalize rn (inp * att) = x at *
    have y0 := rn_ge hr f32_zero (mul_nonneg x0 c0)
    have y1 := rn_le hr h ((mul_le_of_le_one_right x0 c1).trans x1)
    exact ⟨by rw [abs_of_nonneg y0, abs_of_nonneg p]; exact y1, mul_nonneg p y0⟩
  · have x0 := rn_le hr f32_zero (mul_nonpos_of_nonpos_of_nonneg p b0)
    have x1 := rn_ge hr h (show inp ≤ inp * att by nlinarith)
    generalize rn (inp * att) = x at *
    have y0 := rn_le hr f32_zero (mul_nonpos_of_nonpos_of_nonneg x0 c0)
    have y1 := rn_ge hr h (show inp ≤ x * gain by nlinarith)
    exact ⟨by rw [abs_of_nonpos y0, abs_of_nonpos p]; linarith, mul_nonneg_of_nonpos_of_nonpos p y0⟩

/-- **C150** At 1 the amplifier changes nothing, at 0 it is silent; a negative `att` counts as 0 or as positive, as set. -/
theorem amp_ends (hr : Nearest rn) {inp : ℚ} (h : F32 inp) (neg : Int) (gain : ℚ) {att : ℚ} (n : att ≤ 0) :
    amp rn neg inp 1 1 = inp ∧ amp rn neg inp 0 gain = 0 ∧ (neg > 0 → amp rn neg inp att gain = 0) ∧ (neg ≤ 0 → amp rn neg inp att gain = amp rn neg inp (-att) gain) := by
  have z := rn_fix hr f32_zero
  have f := rn_fix hr h
  unfold amp
  refine ⟨by simp [f], by simp [z], fun hn => ?_, fun hn => ?_⟩
  · rw [if_pos hn, max_eq_right n]; simp [z]
  · rw [if_neg (not_lt.2 hn), if_neg (not_lt.2 hn), abs_neg]

/-- **C150** The output plays each channel, in mono the first one on both sides, times the volume: exactly at volume 1, and up to `2^(k-25)` at a volume up to `2^k`. -/
theorem out_channels (hr : Nearest rn) {k : ℤ} (k1 : -50 ≤ k) (k2 : k ≤ 50) {i1 i2 vol : ℚ} (F1 : F32 i1) (F2 : F32 i2) (a1 : |i1| ≤ 1) (a2 : |i2| ≤ 1) (c : |vol| ≤ (2 : ℚ) ^ k) (mono : Int) :
    out rn mono i1 i2 1 = (i1, if mono > 0 then i1 else i2) ∧
    |(out rn mono i1 i2 vol).1 - vol * i1| ≤ (2 : ℚ) ^ k / 2 ^ 25 ∧
    |(out rn mono i1 i2 vol).2 - vol * (if mono > 0 then i1 else i2)| ≤ (2 : ℚ) ^ k / 2 ^ 25 := by
  have f1 := rn_fix hr F1
  have f2 := rn_fix hr F2
  have p : ∀ {i : ℚ}, |i| ≤ 1 → |rn (vol * i) - vol * i| ≤ (2 : ℚ) ^ k / 2 ^ 25 := fun h =>
    err hr (by omega) (by omega) rfl ((le_prod c h).trans (by rw [mul_one]))
  unfold out
  split
  · simp only [one_mul, f1]
    exact ⟨trivial, p a1, p a1⟩
  · simp only [one_mul, f1, f2]
    exact ⟨trivial, p a1, p a2⟩

open HexoDSP.Table HexoDSP.IoNodes in
/-- **C150** With exact numbers these are the nodes of the engine that C91 is about: the mixer. -/
theorem same_mix3 (G : Gain) (c : In) {f : ℕ} (hf : f < c.nframes) {i1 i2 i3 g1 g2 g3 og : ℚ} (h0 : inAt c 0 f = i1) (h1 : inAt c 1 f = i2) (h2 : inAt c 2 f = i3)
    (h3 : Curve.denorm G .vol (inAt c 3 f) = g1) (h4 : Curve.denorm G .vol (inAt c 4 f) = g2) (h5 : Curve.denorm G .vol (inAt c 5 f) = g3)
    (h6 : Curve.denorm G .vol (inAt c 6 f) = og) :
    IoNodes.mix3 G c 0 f = (MixFloat.mix3 id i1 i2 i3 g1 g2 g3 og : ℝ) := by
  simp only [IoNodes.mix3, wr, if_true, if_pos hf, h0, h1, h2, h3, h4, h5, h6, MixFloat.mix3, id]
  push_cast
  rfl

open HexoDSP.Table HexoDSP.IoNodes in
/-- **C150** The amplifier. -/
theorem same_amp (G : Gain) (c : In) {f : ℕ} (hf : f < c.nframes) {inp att gain : ℚ} (h0 : inAt c 0 f = inp) (h1 : Curve.denorm G .gain (inAt c 1 f) = gain) (h2 : inAt c 2 f = att) :
    IoNodes.amp G c 0 f = (MixFloat.amp id (setAt c 0) inp att gain : ℝ) := by
  have e : ∀ x, Curve.denorm G .id x = x := fun _ => rfl
  simp only [IoNodes.amp, if_true, MixFloat.amp, id]
  split <;> simp [wr, if_pos hf, h0, h1, h2, e]

open HexoDSP.Table HexoDSP.IoNodes in
/-- **C150** The output. -/
theorem same_out {τ : Type} (G : Gain) (h : Host τ) (c : In) {f : ℕ} (hf : f < c.nframes) {i1 i2 vol : ℚ} (h0 : inAt c 0 f = i1) (h1 : inAt c 1 f = i2)
    (h2 : Curve.denorm G .vol (inAt c 2 f) = vol) :
    (IoNodes.out G h c).out 0 f = ((MixFloat.out id (setAt c 0) i1 i2 vol).1 : ℝ) ∧ (IoNodes.out G h c).out 1 f = ((MixFloat.out id (setAt c 0) i1 i2 vol).2 : ℝ) := by
  simp only [IoNodes.out, MixFloat.out, id]
  split <;> simp [Host.write, hf, h0, h1, h2]

-- a mix of three signals at a half, a quarter and a quarter
example : ∃ rn, Nearest rn ∧ F32 (1 / 2) ∧ F32 (1 / 4) ∧ (1 / 2 : ℚ) + 1 / 4 + 1 / 4 ≤ 1 ∧ |mix3 rn (9 / 10) (-1 / 3) 1 (1 / 2) (1 / 4) (1 / 4) 1| ≤ 1 := by
  obtain ⟨rn, hr⟩ := nearest_exists
  have h : F32 (1 / 2) := by
    have := pow2_f32 (k := -1) (by norm_num) (by norm_num)
    norm_num at this ⊢; exact this
  refine ⟨rn, hr, h, quarter32, by norm_num, mix_full_scale hr (by norm_num [abs_le]) (by norm_num [abs_le]) (by norm_num) h quarter32 quarter32 ?_ ?_ ?_ ?_ ?_ ?_⟩ <;> norm_num

-- volumes up to 18 dB are below 8
example : ∃ rn, Nearest rn ∧ |mix3 rn (1 / 3) 1 (-1) (79 / 10) 1 (1 / 10) 2 - (1 / 3 * (79 / 10) + 1 * 1 + -1 * (1 / 10)) * 2| ≤ 13 / 2 ^ 25 * ((2 : ℚ) ^ (3 : ℤ) * (2 : ℚ) ^ (1 : ℤ)) := by
  obtain ⟨rn, hr⟩ := nearest_exists
  refine ⟨rn, hr, mix_sum hr ?_ ?_ ?_ ?_ ?_ ?_ ?_ ?_ ?_ ?_ ?_⟩ <;> norm_num [abs_le]

end HexoDSP.MixFloatProps
