import Verif.Spec.BowStri
import Mathlib.Tactic.Linarith
import Mathlib.Tactic.Ring
import Mathlib.Tactic.Positivity
import Mathlib.Algebra.Order.AbsoluteValue.Basic
import Mathlib.Algebra.Order.Ring.Abs
/-! The bowed string. -/

namespace HexoDSP.BowStriProps
open HexoDSP.BowStri BowStriSpec

variable {D P B : Type}

theorem clamp_range {lo hi : ℚ} (h : lo ≤ hi) (x : ℚ) : lo ≤ clamp lo hi x ∧ clamp lo hi x ≤ hi := by
  unfold clamp
  split
  · exact ⟨le_refl _, h⟩
  · split
    · exact ⟨h, le_refl _⟩
    · exact ⟨by linarith, by linarith⟩

theorem clamp_mono {lo hi x y : ℚ} (h : lo ≤ hi) (hxy : x ≤ y) : clamp lo hi x ≤ clamp lo hi y := by
  unfold clamp
  split <;> split <;> (try split) <;> (try split) <;> linarith

theorem stick_range (dv force : ℚ) : 1/100 ≤ stick dv force ∧ stick dv force ≤ 98/100 := by
  unfold stick
  simp only
  split
  · exact ⟨by norm_num, le_refl _⟩
  · exact clamp_range (by norm_num) _

/-- **C105** (pitch) The two parts of the string together are one period of the asked frequency long (of 20 Hz, if it is lower), and each is at least a
hundredth of it, wherever the bow is. -/
theorem one_period {srate freq pos : ℚ} (hr : 0 < srate) :
    nutLen srate freq pos + bridgeLen srate freq pos = srate / max freq 20 ∧
    srate / max freq 20 / 100 ≤ nutLen srate freq pos ∧ srate / max freq 20 / 100 ≤ bridgeLen srate freq pos := by
  have hm : (0 : ℚ) < max freq 20 := lt_of_lt_of_le (by norm_num) (le_max_right _ _)
  have hl : 0 < srate / max freq 20 := div_pos hr hm
  have e : totalLen srate freq = srate / max freq 20 := by
    unfold totalLen
    simp only
    rw [if_neg (by linarith)]
  obtain ⟨h1, h2⟩ := clamp_range (lo := 1/100) (hi := 99/100) (by norm_num) ((pos + 1) / 2)
  unfold nutLen bridgeLen bowPosition
  rw [e]
  refine ⟨by ring, ?_, ?_⟩
  · nlinarith
  · nlinarith

/-- **C105** (memory) No part of the string is longer than a twentieth of a second. -/
theorem fits_the_delay {srate freq pos : ℚ} (hr : 0 < srate) : nutLen srate freq pos ≤ srate / 20 ∧ bridgeLen srate freq pos ≤ srate / 20 := by
  obtain ⟨h1, h2, h3⟩ := one_period (freq := freq) (pos := pos) hr
  have h4 : srate / max freq 20 ≤ srate / 20 := div_le_div_of_nonneg_left hr.le (by norm_num) (le_max_right _ _)
  have hm : (0 : ℚ) < max freq 20 := lt_of_lt_of_le (by norm_num) (le_max_right _ _)
  have hl : 0 < srate / max freq 20 := div_pos hr hm
  exact ⟨by linarith, by linarith⟩

/-- **C105** (bow position) Moving the bow towards the one end makes the one part longer and the other shorter. -/
theorem bow_position_mono {srate freq pos pos' : ℚ} (hr : 0 < srate) (h : pos ≤ pos') :
    nutLen srate freq pos' ≤ nutLen srate freq pos ∧ bridgeLen srate freq pos ≤ bridgeLen srate freq pos' := by
  have hm : (0 : ℚ) < max freq 20 := lt_of_lt_of_le (by norm_num) (le_max_right _ _)
  have hl : 0 < srate / max freq 20 := div_pos hr hm
  have e : totalLen srate freq = srate / max freq 20 := by
    unfold totalLen
    simp only
    rw [if_neg (by linarith)]
  have := clamp_mono (lo := 1/100) (hi := 99/100) (by norm_num) (show (pos + 1) / 2 ≤ (pos' + 1) / 2 by linarith)
  unfold nutLen bridgeLen bowPosition
  rw [e]
  exact ⟨mul_le_mul_of_nonneg_left (by linarith) hl.le, mul_le_mul_of_nonneg_left this hl.le⟩

/-- **C105** (correction) The correction of the pitch is 0 up to 110 Hz (signal -0.2), rises with the frequency and is never more than 0.0144 (less than
two semitones, of which 0.1 holds twelve). -/
theorem correction (x y : ℚ) (h : x ≤ y) : (y ≤ -1/5 → tuneCorrection y = 0) ∧ tuneCorrection x ≤ tuneCorrection y ∧ 0 ≤ tuneCorrection x ∧
    tuneCorrection y ≤ 144/10000 ∧ tuneCorrection y < 2 * (1/10/12) := by
  have h1 := clamp_mono (lo := -1/5) (hi := 1) (by norm_num) h
  have h2 := clamp_range (lo := -1/5) (hi := 1) (by norm_num) x
  have h3 := clamp_range (lo := -1/5) (hi := 1) (by norm_num) y
  unfold tuneCorrection
  refine ⟨fun hy => ?_, by linarith, by linarith, by linarith, by linarith⟩
  have : clamp (-1/5) 1 y = -1/5 := by
    unfold clamp
    split
    · rfl
    · split <;> linarith
  rw [this]; norm_num

/-! ### The string stays bounded -/

/-- The levels between which the string stays. -/
def lvlBridge (g v : ℚ) : ℚ := 49 * v / (1 - g)
def lvlNut (g v : ℚ) : ℚ := g * lvlBridge g v + 49 * v

theorem lvl (g v : ℚ) (hg1 : g < 1) (hv : 0 ≤ v) : 0 ≤ lvlBridge g v ∧ g * lvlBridge g v + 49 * v = lvlBridge g v := by
  have hd : 0 < 1 - g := by linarith
  refine ⟨div_nonneg (by linarith) hd.le, ?_⟩
  unfold lvlBridge
  rw [mul_div_assoc', div_add' _ _ _ hd.ne', div_left_inj' hd.ne']
  ring

theorem scatter {g v M N a b w c : ℚ} (hN : N = g * M + 49 * v) (hM : g * M + 49 * v = M) (hv : 0 ≤ v) (ha : |a| ≤ N) (hb : |b| ≤ g * M) (hw : |w| ≤ v)
    (c0 : 1/100 ≤ c) (c1 : c ≤ 98/100) : |a + c * (w - (a + b))| ≤ M ∧ |b + c * (w - (a + b))| ≤ N := by
  rw [abs_le] at ha hb hw
  obtain ⟨a0, a1⟩ := ha
  obtain ⟨b0, b1⟩ := hb
  obtain ⟨w0, w1⟩ := hw
  have k1 : 0 ≤ 1 - c := by linarith
  have k0 : 0 ≤ c := by linarith
  have e1 := mul_nonneg k1 (sub_nonneg.2 a1)
  have e2 := mul_nonneg k1 (sub_nonneg.2 a0)
  have e3 := mul_nonneg k0 (sub_nonneg.2 b1)
  have e4 := mul_nonneg k0 (sub_nonneg.2 b0)
  have e5 := mul_nonneg k0 (sub_nonneg.2 w1)
  have e6 := mul_nonneg k0 (sub_nonneg.2 w0)
  have f1 := mul_nonneg k1 (sub_nonneg.2 b1)
  have f2 := mul_nonneg k1 (sub_nonneg.2 b0)
  have f3 := mul_nonneg k0 (sub_nonneg.2 a1)
  have f4 := mul_nonneg k0 (sub_nonneg.2 a0)
  have g1 := mul_nonneg (sub_nonneg.2 c1) hv
  have g2 := mul_nonneg (sub_nonneg.2 c0) hv
  subst hN
  rw [abs_le, abs_le]
  refine ⟨⟨?_, ?_⟩, ?_, ?_⟩ <;> nlinarith

/-- The node is at rest up to the bow velocity `4 v`. -/
structure Calm (E : Ext D P B) (g v : ℚ) (dl : D → ℚ → Prop) (pl : P → ℚ → Prop) (bl : B → ℚ → Prop) (n : Node D P B) : Prop where
  nut : dl n.nut (lvlNut g v)
  bridge : dl n.bridge (lvlBridge g v)
  filter : pl n.filter (lvlBridge g v)
  body : bl n.body (g * lvlBridge g v)

variable {E : Ext D P B} {g h v : ℚ} {dl : D → ℚ → Prop} {pl : P → ℚ → Prop} {bl : B → ℚ → Prop}

theorem calm_tick (ht : Tame E g h dl pl bl) (hg1 : g < 1) (hv : 0 ≤ v) (n : Node D P B) (hn : Calm E g v dl pl bl n) (f : Frame)
    (hf : |f.vel| ≤ 4 * v) : Calm E g v dl pl bl (n.tick E f).1 ∧ |(n.tick E f).2| ≤ h * (g * lvlBridge g v) := by
  obtain ⟨l0, l1⟩ := lvl g v hg1 hv
  unfold Node.tick Node.string
  simp only
  generalize hfr : E.hertz f.freq (tuneCorrection f.freq + f.det) = fr
  have h1 := ht.read _ _ (nutLen n.srate fr f.pos) hn.nut
  have h2 := ht.read _ _ (bridgeLen n.srate fr f.pos) hn.bridge
  obtain ⟨h3, h4⟩ := ht.poleNext _ _ _ hn.filter h2
  have hw : |1/4 * f.vel| ≤ v := by
    rw [abs_mul, show |(1/4 : ℚ)| = 1/4 from by norm_num]
    linarith
  rw [← abs_neg] at h1 h4
  obtain ⟨h5, h6⟩ := ht.bodyNext _ _ _ hn.body h4
  obtain ⟨s0, s1⟩ := stick_range (1/4 * f.vel - (-E.read n.nut (nutLen n.srate fr f.pos) + -(E.poleNext n.filter (E.read n.bridge (bridgeLen n.srate fr f.pos))).2)) f.force
  obtain ⟨k1, k2⟩ := scatter (N := lvlNut g v) rfl l1 hv h1 h4 hw s0 s1
  exact ⟨⟨ht.feed _ _ _ hn.nut k2, ht.feed _ _ _ hn.bridge k1, h3, h5⟩, h6⟩

theorem calm_process (ht : Tame E g h dl pl bl) (hg1 : g < 1) (hv : 0 ≤ v) (fs : List Frame) : ∀ n : Node D P B, Calm E g v dl pl bl n →
    (∀ f ∈ fs, |f.vel| ≤ 4 * v) → Calm E g v dl pl bl (n.process E fs).1 ∧ ∀ y ∈ (n.process E fs).2, |y| ≤ h * (g * lvlBridge g v) := by
  induction fs with
  | nil => intro n hn _; exact ⟨hn, fun y hy => absurd hy (by simp [Node.process])⟩
  | cons f fs ih =>
    intro n hn hf
    obtain ⟨h1, h2⟩ := calm_tick ht hg1 hv n hn f (hf f (by simp))
    obtain ⟨h3, h4⟩ := ih _ h1 (fun f hf' => hf f (by simp [hf']))
    refine ⟨h3, fun y hy => ?_⟩
    simp only [Node.process, List.mem_cons] at hy
    rcases hy with rfl | hy
    · exact h2
    · exact h4 y hy

theorem pole_ok {r : ℚ} (h : 2600 ≤ r) : |3/4 - 1/5 * (22050 / r)| < (1 : ℚ) := by
  have hr : 0 < r := by linarith
  have h1 : 0 < 22050 / r := by positivity
  have h2 : 22050 / r ≤ 22050 / 2600 := div_le_div_of_nonneg_left (by norm_num) (by norm_num) h
  rw [abs_lt]
  constructor <;> linarith

theorem calm_rate (ht : Tame E g h dl pl bl) (hg1 : g < 1) (hv : 0 ≤ v) (n : Node D P B) (hn : Calm E g v dl pl bl n) {r : ℚ} (hr : 2600 ≤ r) :
    Calm E g v dl pl bl (n.rate E r) :=
  ⟨hn.nut, hn.bridge, ht.pole _ _ (pole_ok hr) (lvl g v hg1 hv).1, hn.body⟩

theorem calm_run (ht : Tame E g h dl pl bl) (hg0 : 0 ≤ g) (hg1 : g < 1) (hv : 0 ≤ v) (es : List Ev) : ∀ n : Node D P B, Calm E g v dl pl bl n →
    Gentle (4 * v) es → ∀ y ∈ (n.run E es).2, |y| ≤ h * (g * lvlBridge g v) := by
  obtain ⟨l0, l1⟩ := lvl g v hg1 hv
  induction es with
  | nil => intro n _ _ y hy; exact absurd hy (by simp [Node.run])
  | cons e es ih =>
    intro n hn hG
    cases e with
    | reset =>
      refine ih _ ⟨ht.delayReset _ _ ?_, ht.delayReset _ _ l0, ht.poleReset _ _ hn.filter, ht.bodyReset _ _ (mul_nonneg hg0 l0)⟩ hG
      exact add_nonneg (mul_nonneg hg0 l0) (by linarith)
    | rate r => exact ih _ (calm_rate ht hg1 hv n hn hG.1) hG.2
    | block fs =>
      obtain ⟨h1, h2⟩ := calm_process ht hg1 hv fs n hn hG.1
      intro y hy
      simp only [Node.run, List.mem_append] at hy
      rcases hy with hy | hy
      · exact h2 y hy
      · exact ih _ h1 hG.2 y hy

/-- **C105** (loudness) If the string filter loses a little (`g < 1`) and the delay lines do not overshoot, a new string bowed no faster than `V` never gets
louder than `(49/4) V g h / (1 - g)`, for all frequencies, forces, positions of the bow and histories. -/
theorem stays_bounded (ht : Tame E g h dl pl bl) (hg0 : 0 ≤ g) (hg1 : g < 1) {V : ℚ} (hV : 0 ≤ V) (es : List Ev) (hG : Gentle V es) :
    ∀ y ∈ ((Node.new E).run E es).2, |y| ≤ 49 / 4 * V * g * h / (1 - g) := by
  have hv : 0 ≤ V / 4 := by linarith
  obtain ⟨l0, l1⟩ := lvl g (V / 4) hg1 hv
  have hn : Calm E g (V / 4) dl pl bl (Node.new E) := by
    refine ⟨ht.delay _ ?_, ht.delay _ l0, ht.pole _ _ (pole_ok (by norm_num)) l0, ht.body _ (mul_nonneg hg0 l0)⟩
    exact add_nonneg (mul_nonneg hg0 l0) (by linarith)
  intro y hy
  have := calm_run ht hg0 hg1 hv es _ hn (by rw [mul_div_cancel₀ V (by norm_num : (4 : ℚ) ≠ 0)]; exact hG) y hy
  refine le_trans this (le_of_eq ?_)
  unfold lvlBridge
  rw [mul_div_assoc', mul_div_assoc']
  congr 1
  ring

/-- **C105** (silence) A new string that is not bowed is silent, whatever the other inputs do. -/
theorem silent_without_bow (ht : Tame E g h dl pl bl) (hg0 : 0 ≤ g) (hg1 : g < 1) (es : List Ev) (hG : Gentle 0 es) :
    ∀ y ∈ ((Node.new E).run E es).2, y = 0 := by
  intro y hy
  have := stays_bounded ht hg0 hg1 (le_refl 0) es hG y hy
  rw [mul_zero, zero_mul, zero_mul, zero_div] at this
  exact abs_nonpos_iff.1 this

/-! ### The assumptions are met -/

/-- Delay lines of one sample, a filter that only attenuates, a body that doubles. -/
def exE : Ext ℚ ℚ Unit := ⟨0, fun _ => 0, fun d _ => d, fun _ x => x, fun _ g => g, id, fun p x => (p, p * x), (), fun _ => (), fun _ x => ((), 2 * x), fun f o => 440 + f + o⟩

theorem exTame : Tame exE (9/10) 2 (fun d M => |d| ≤ M) (fun p _ => p = 9/10) (fun _ _ => True) where
  delay M h := by simpa [exE] using h
  delayReset d M h := by simpa [exE] using h
  read d M t h := h
  feed d M x _ h := h
  pole a M _ _ := rfl
  poleReset p M h := h
  poleNext p M x hp h := by
    refine ⟨hp, ?_⟩
    show |p * x| ≤ _
    rw [hp, abs_mul, show |(9/10 : ℚ)| = 9/10 from by norm_num]
    linarith
  body M _ := trivial
  bodyReset b M _ := trivial
  bodyNext b M x _ h := by
    refine ⟨trivial, ?_⟩
    show |2 * x| ≤ _
    rw [abs_mul, show |(2 : ℚ)| = 2 from by norm_num]
    linarith

def exEs : List Ev := [.rate 48000, .block [⟨0, 0, 1, 0, 0⟩, ⟨0, 0, 1/2, 0, 0⟩], .reset, .block [⟨0, 0, -1, 5, 1⟩]]

example : Gentle 1 exEs := ⟨by norm_num, by
  intro f hf
  simp at hf
  rcases hf with rfl | rfl <;> norm_num, by
  refine ⟨?_, trivial⟩
  intro f hf
  simp at hf
  rcases hf with rfl
  norm_num⟩

/-- The bow is heard. -/
example : ((Node.new exE).run exE exEs).2 = [0, -441/1000, 0] := by decide +kernel

end HexoDSP.BowStriProps
