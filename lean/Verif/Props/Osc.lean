import Verif.Spec.Osc
import Mathlib.Tactic.Linarith
import Mathlib.Tactic.Ring
/-! The oscillators BOsc and VOsc. -/

namespace HexoDSP.OscProps
open HexoDSP.Osc OscSpec

variable {S O : Type}

theorem fract_add (x y : ℚ) : Int.fract (Int.fract x + y) = Int.fract (x + y) := by
  have : Int.fract x + y = (x + y) - (⌊x⌋ : ℤ) := by rw [Int.fract]; ring
  rw [this, Int.fract_sub_intCast]

/-! ### The basic oscillator -/

theorem b_tick (E : Blep S) {phase : S → ℚ} {p0 : ℚ} (h : BTuned E phase p0) (w : Int) (n : BOsc S) (f : BFrame) :
    phase (n.tick E w f).1.osc = Int.fract (phase n.osc + f.freq * n.israte) ∧ (n.tick E w f).1.israte = n.israte := by
  unfold BOsc.tick
  refine ⟨?_, rfl⟩
  simp only
  split
  · exact h.sin _ _ _
  · exact h.tri _ _ _
  · exact h.saw _ _ _
  · exact h.pulseNoDc _ _ _ _
  · exact h.pulse _ _ _ _

theorem b_process (E : Blep S) {phase : S → ℚ} {p0 : ℚ} (h : BTuned E phase p0) (w : Int) (fs : List BFrame) : ∀ (n : BOsc S) (p rate : ℚ),
    n.israte = 1 / rate → Int.fract (phase n.osc) = Int.fract p →
    (n.process E w fs).1.israte = 1 / rate ∧ Int.fract (phase (n.process E w fs).1.osc) = Int.fract (p + (fs.map (fun f => f.freq / rate)).sum) := by
  induction fs with
  | nil => intro n p rate h1 h2; exact ⟨h1, by simpa [BOsc.process] using h2⟩
  | cons f fs ih =>
    intro n p rate h1 h2
    obtain ⟨h3, h4⟩ := b_tick E h w n f
    have := ih (n.tick E w f).1 (p + f.freq / rate) rate (by rw [h4, h1]) (by
      rw [h3, Int.fract_fract, ← fract_add, h2, fract_add, h1, mul_one_div])
    simp only [List.map_cons, List.sum_cons, BOsc.process]
    rw [← add_assoc]
    exact this

/-- **C104** (BOsc in tune) After every history — blocks of any lengths with any waveforms, resets, changes of the sample rate — the oscillator has turned
exactly as far as the frequency input over the sample rate says, added up over the frames. -/
theorem b_in_tune (E : Blep S) {phase : S → ℚ} {p0 : ℚ} (h : BTuned E phase p0) (es : List (Ev Int BFrame)) : ∀ (n : BOsc S) (p rate : ℚ),
    n.israte = 1 / rate → Int.fract (phase n.osc) = Int.fract p →
    Int.fract (phase (n.run E es).1.osc) = Int.fract (turns BFrame.freq p0 p rate es) := by
  induction es with
  | nil => intro n p rate _ h2; exact h2
  | cons e es ih =>
    intro n p rate h1 h2
    cases e with
    | reset => exact ih _ p0 rate h1 (by simp only [h.reset])
    | rate r => exact ih _ p r rfl h2
    | block w fs =>
      obtain ⟨h3, h4⟩ := b_process E h w fs n p rate h1 h2
      exact ih _ _ rate h3 h4

/-- **C104** (waveforms do not touch the pitch) Two histories that differ only in the waveforms leave the oscillator at the same phase. -/
theorem b_waveform_keeps_phase (E : Blep S) {phase : S → ℚ} {p0 : ℚ} (h : BTuned E phase p0) (g : Int → Int) (es : List (Ev Int BFrame)) (n : BOsc S) (rate : ℚ)
    (hr : n.israte = 1 / rate) :
    Int.fract (phase (n.run E (mapSettings g es)).1.osc) = Int.fract (phase (n.run E es).1.osc) := by
  rw [b_in_tune E h _ n (phase n.osc) rate hr rfl, b_in_tune E h _ n (phase n.osc) rate hr rfl]
  congr 1
  have : ∀ (es : List (Ev Int BFrame)) p rate, turns BFrame.freq p0 p rate (mapSettings g es) = turns BFrame.freq p0 p rate es := by
    intro es
    induction es with
    | nil => intro p rate; rfl
    | cons e es ih => intro p rate; cases e <;> exact ih _ _
  exact this es _ _

/-- **C104** (pulse width) The pulse width is heard with the pulse waveforms only. -/
theorem b_pulse_width (E : Blep S) (pw : BFrame → ℚ) (es : List (Ev Int BFrame)) (hw : ∀ w ∈ settings es, w = 0 ∨ w = 1 ∨ w = 2) : ∀ n : BOsc S,
    n.run E (mapInputs (fun f => { f with pw := pw f }) es) = n.run E es := by
  have hp : ∀ (w : Int), (w = 0 ∨ w = 1 ∨ w = 2) → ∀ (fs : List BFrame) (n : BOsc S),
      n.process E w (fs.map (fun f => { f with pw := pw f })) = n.process E w fs := by
    intro w hw fs
    induction fs with
    | nil => intro n; rfl
    | cons f fs ih =>
      intro n
      have : n.tick E w { f with pw := pw f } = n.tick E w f := by
        rcases hw with rfl | rfl | rfl <;> rfl
      simp only [List.map_cons, BOsc.process, this, ih]
  induction es with
  | nil => intro n; rfl
  | cons e es ih =>
    intro n
    cases e with
    | reset => exact ih (fun w h => hw w (by simpa [settings] using h)) _
    | rate r => exact ih (fun w h => hw w (by simpa [settings] using h)) _
    | block w fs =>
      have h1 := hw w (by simp [settings])
      have h2 := ih (fun w h => hw w (by simp [settings, h]))
      simp only [mapInputs, BOsc.run, hp w h1, h2]

/-! ### The V oscillator -/

theorem over_phase (E : Vps S O) {phase : S → ℚ} {p0 : ℚ} (h : VTuned E phase p0) (freq isr d v damt : ℚ) (dist : Nat) (k : Nat) : ∀ s,
    Int.fract (phase (overLoop E freq isr d v damt dist k s).1) = Int.fract (phase s + freq * isr * k) ∧
    (overLoop E freq isr d v damt dist k s).2.length = k := by
  induction k with
  | zero => intro s; simp [overLoop]
  | succ k ih =>
    intro s
    obtain ⟨h1, h2⟩ := ih (E.next s freq isr d v).1
    refine ⟨?_, by simp [overLoop, h2]⟩
    simp only [overLoop]
    rw [h1, h.next, fract_add]
    congr 1
    push_cast
    ring

theorem v_tick (E : Vps S O) {phase : S → ℚ} {p0 : ℚ} (h : VTuned E phase p0) (c : VSet) (n : VOsc S O) (f : VFrame) :
    Int.fract (phase (n.tick E c f).1.osc) = Int.fract (phase n.osc + f.freq * (n.israte * OVERSAMPLING)) ∧ (n.tick E c f).1.israte = n.israte := by
  unfold VOsc.tick
  simp only
  split
  · refine ⟨?_, rfl⟩
    simp only
    rw [(over_phase E h _ _ _ _ _ _ _ _).1, mul_assoc]
  · refine ⟨?_, rfl⟩
    simp only [h.next, Int.fract_fract]

theorem v_process (E : Vps S O) {phase : S → ℚ} {p0 : ℚ} (h : VTuned E phase p0) (c : VSet) (fs : List VFrame) : ∀ (n : VOsc S O) (p rate : ℚ),
    n.israte * OVERSAMPLING = 1 / rate → Int.fract (phase n.osc) = Int.fract p →
    (n.process E c fs).1.israte * OVERSAMPLING = 1 / rate ∧ Int.fract (phase (n.process E c fs).1.osc) = Int.fract (p + (fs.map (fun f => f.freq / rate)).sum) := by
  induction fs with
  | nil => intro n p rate h1 h2; exact ⟨h1, by simpa [VOsc.process] using h2⟩
  | cons f fs ih =>
    intro n p rate h1 h2
    obtain ⟨h3, h4⟩ := v_tick E h c n f
    have := ih (n.tick E c f).1 (p + f.freq / rate) rate (by rw [h4, h1]) (by
      rw [h3, ← fract_add, h2, fract_add, h1, mul_one_div])
    simp only [List.map_cons, List.sum_cons, VOsc.process]
    rw [← add_assoc]
    exact this

/-- Whether the sample rate of the host has been set, to `rate`. -/
def RateSet (n : VOsc S O) (rate : ℚ) : Prop := n.israte * OVERSAMPLING = 1 / rate

theorem v_run (E : Vps S O) {phase : S → ℚ} {p0 : ℚ} (h : VTuned E phase p0) (es : List (Ev VSet VFrame)) : ∀ (n : VOsc S O) (p rate : ℚ),
    RateSet n rate → Int.fract (phase n.osc) = Int.fract p →
    Int.fract (phase (n.run E es).1.osc) = Int.fract (turns VFrame.freq p0 p rate es) := by
  induction es with
  | nil => intro n p rate _ h2; exact h2
  | cons e es ih =>
    intro n p rate h1 h2
    cases e with
    | reset => exact ih _ p0 rate h1 (by simp only [h.reset])
    | rate r =>
      refine ih _ p r ?_ h2
      show 1 / (r * (OVERSAMPLING : ℚ)) * OVERSAMPLING = 1 / r
      have h4 : (OVERSAMPLING : ℚ) ≠ 0 := by norm_num [OVERSAMPLING]
      rw [one_div, mul_inv, mul_assoc, inv_mul_cancel₀ h4, mul_one, one_div]
    | block c fs =>
      obtain ⟨h3, h4⟩ := v_process E h c fs n p rate h1 h2
      exact ih _ _ rate h3 h4

/-- **C104** (VOsc in tune) Once the sample rate has been set, and after every further history — blocks of any lengths, with and without oversampling, with any
shapes and distortions — the oscillator has turned exactly as far as the frequency input over the sample rate says. -/
theorem v_in_tune (E : Vps S O) {phase : S → ℚ} {p0 : ℚ} (h : VTuned E phase p0) (n : VOsc S O) (rate : ℚ) (es : List (Ev VSet VFrame)) :
    Int.fract (phase (n.run E (.rate rate :: es)).1.osc) = Int.fract (turns VFrame.freq p0 (phase n.osc) rate es) := by
  simp only [VOsc.run]
  refine v_run E h es _ (phase n.osc) rate ?_ rfl
  show 1 / (rate * (OVERSAMPLING : ℚ)) * OVERSAMPLING = 1 / rate
  have h4 : (OVERSAMPLING : ℚ) ≠ 0 := by norm_num [OVERSAMPLING]
  rw [one_div, mul_inv, mul_assoc, inv_mul_cancel₀ h4, mul_one, one_div]

/-- **C104** (oversampling does not touch the pitch) Two histories that differ only in oversampling and distortion leave the oscillator at the same phase. -/
theorem v_settings_keep_phase (E : Vps S O) {phase : S → ℚ} {p0 : ℚ} (h : VTuned E phase p0) (g : VSet → VSet) (n : VOsc S O) (rate : ℚ)
    (es : List (Ev VSet VFrame)) :
    Int.fract (phase (n.run E (.rate rate :: mapSettings g es)).1.osc) = Int.fract (phase (n.run E (.rate rate :: es)).1.osc) := by
  rw [v_in_tune E h, v_in_tune E h]
  congr 1
  have : ∀ (es : List (Ev VSet VFrame)) p rate, turns VFrame.freq p0 p rate (mapSettings g es) = turns VFrame.freq p0 p rate es := by
    intro es
    induction es with
    | nil => intro p rate; rfl
    | cons e es ih => intro p rate; cases e <;> exact ih _ _
  exact this es _ _

/-- **C104** (why the sample rate must be set) A VOsc that never got a sample rate turns four times as fast as it should at 44.1 kHz. (The engine sets the
rate of every node it makes, `src/nodes/node_conf.rs:724`.) -/
theorem v_new_is_four_times_too_fast (E : Vps S O) {phase : S → ℚ} {p0 : ℚ} (h : VTuned E phase p0) (ph : ℚ) (c : VSet) (f : VFrame) :
    Int.fract (phase ((VOsc.new E ph).run E [.block c [f]]).1.osc) = Int.fract (phase (E.new ph) + 4 * (f.freq / 44100)) := by
  obtain ⟨h1, h2⟩ := v_tick E h c (VOsc.new E ph) f
  simp only [VOsc.run, VOsc.process]
  rw [h1]
  congr 1
  simp only [VOsc.new, OVERSAMPLING]
  push_cast
  ring

theorem clamp_nearest {lo hi : ℚ} (hl : lo ≤ hi) (x : ℚ) : IsNearest lo hi x (clamp lo hi x) := by
  unfold clamp IsNearest
  by_cases h1 : x < lo
  · rw [if_pos h1]
    exact ⟨⟨le_refl _, hl⟩, fun _ => rfl, fun h => by linarith, fun h => by linarith⟩
  · rw [if_neg h1]
    by_cases h2 : x > hi
    · rw [if_pos h2]
      exact ⟨⟨hl, le_refl _⟩, fun h => by linarith, fun _ => rfl, fun _ h => by linarith⟩
    · rw [if_neg h2]
      exact ⟨⟨by linarith, by linarith⟩, fun h => by linarith, fun h => by linarith, fun _ _ => rfl⟩

theorem clamp_of_nearest {lo hi x y : ℚ} (hl : lo ≤ hi) (h : IsNearest lo hi x y) : clamp lo hi y = clamp lo hi x := by
  have hx := clamp_nearest hl x
  have e : y = clamp lo hi x := by
    rcases le_total x lo with h0 | h0
    · rw [h.2.1 h0, hx.2.1 h0]
    · rcases le_total x hi with h1 | h1
      · rw [h.2.2.2 h0 h1, hx.2.2.2 h0 h1]
      · rw [h.2.2.1 h1, hx.2.2.1 h1]
  rw [(clamp_nearest hl y).2.2.2 h.1.1 h.1.2, e]

/-- **C104** (VOsc, limits) Bending points, scale and distortion amount out of range act like the end of the range next to them, in every history, with and
without oversampling. -/
theorem v_limits (E : Vps S O) (v d vs a : VFrame → ℚ) (hv : ∀ f, IsNearest 0 1 f.v (v f)) (hd : ∀ f, IsNearest 0 1 f.d (d f))
    (hs : ∀ f, IsNearest 0 20 f.vs (vs f)) (ha : ∀ f, IsNearest 0 1 f.damt (a f)) (es : List (Ev VSet VFrame)) : ∀ n : VOsc S O,
    n.run E (mapInputs (fun f => { f with v := v f, d := d f, vs := vs f, damt := a f }) es) = n.run E es := by
  have ht : ∀ c (f : VFrame) (n : VOsc S O), n.tick E c { f with v := v f, d := d f, vs := vs f, damt := a f } = n.tick E c f := by
    intro c f n
    simp only [VOsc.tick, clamp_of_nearest (by norm_num) (hv f), clamp_of_nearest (by norm_num) (hd f), clamp_of_nearest (by norm_num) (hs f),
      clamp_of_nearest (by norm_num) (ha f)]
  have hp : ∀ c (fs : List VFrame) (n : VOsc S O),
      n.process E c (fs.map (fun f => { f with v := v f, d := d f, vs := vs f, damt := a f })) = n.process E c fs := by
    intro c fs
    induction fs with
    | nil => intro n; rfl
    | cons f fs ih => intro n; simp only [List.map_cons, VOsc.process, ht, ih]
  induction es with
  | nil => intro n; rfl
  | cons e es ih =>
    intro n
    cases e with
    | reset => exact ih _
    | rate r => exact ih _
    | block c fs => simp only [mapInputs, VOsc.run, hp, ih]

/-- **C104** (VOsc, safe arguments) If limiting keeps the vertical bending point within its bounds for a horizontal one from 0 to 1, the
oscillator is only ever asked for such shapes and the distortion for amounts from 0 to 1: replacing what they do elsewhere is not heard. -/
theorem v_safe_arguments (E E' : Vps S O) (hl : E.limitV = E'.limitV) (hdn : E.down = E'.down) (hre : E.reset = E'.reset)
    (hor : E.overReset = E'.overReset) (hora : E.overRate = E'.overRate)
    (hn : ∀ s f r d w, 0 ≤ d → d ≤ 1 → 0 ≤ w → w ≤ 21 → E.next s f r d (E.limitV d w) = E'.next s f r d (E.limitV d w))
    (hd : ∀ x a k, 0 ≤ a → a ≤ 1 → k < 256 → E.distort x a k = E'.distort x a k) (es : List (Ev VSet VFrame)) : ∀ n : VOsc S O, n.run E es = n.run E' es := by
  have ht : ∀ c (f : VFrame) (n : VOsc S O), n.tick E c f = n.tick E' c f := by
    intro c f n
    obtain ⟨⟨v0, v1⟩, -⟩ := clamp_nearest (lo := 0) (hi := 1) (by norm_num) f.v
    obtain ⟨⟨d0, d1⟩, -⟩ := clamp_nearest (lo := 0) (hi := 1) (by norm_num) f.d
    obtain ⟨⟨s0, s1⟩, -⟩ := clamp_nearest (lo := 0) (hi := 20) (by norm_num) f.vs
    obtain ⟨⟨a0, a1⟩, -⟩ := clamp_nearest (lo := 0) (hi := 1) (by norm_num) f.damt
    have hk : (c.dist % 256).toNat < 256 := by omega
    have hov : ∀ k s, overLoop E f.freq n.israte (clamp 0 1 f.d) (E.limitV (clamp 0 1 f.d) (clamp 0 1 f.v + clamp 0 20 f.vs)) (clamp 0 1 f.damt) (c.dist % 256).toNat k s =
        overLoop E' f.freq n.israte (clamp 0 1 f.d) (E.limitV (clamp 0 1 f.d) (clamp 0 1 f.v + clamp 0 20 f.vs)) (clamp 0 1 f.damt) (c.dist % 256).toNat k s := by
      intro k
      induction k with
      | zero => intro s; rfl
      | succ k ih =>
        intro s
        simp only [overLoop]
        rw [hn _ _ _ _ _ d0 d1 (by linarith) (by linarith), hd _ _ _ a0 a1 hk, ih]
    simp only [VOsc.tick]
    rw [hov, hn _ _ _ _ _ d0 d1 (by linarith) (by linarith), hd _ _ _ a0 a1 hk, hdn, hl]
  have hp : ∀ c (fs : List VFrame) (n : VOsc S O), n.process E c fs = n.process E' c fs := by
    intro c fs
    induction fs with
    | nil => intro n; rfl
    | cons f fs ih => intro n; simp only [VOsc.process, ht, ih]
  induction es with
  | nil => intro n; rfl
  | cons e es ih =>
    intro n
    cases e with
    | reset => simp only [VOsc.run, hre, hor]; exact ih _
    | rate r => simp only [VOsc.run, hora]; exact ih _
    | block c fs => simp only [VOsc.run, hp, ih]

/-! ### The assumptions are met -/

def exB : Blep ℚ := ⟨fun p => p, fun _ => 1/2, fun s f r => (Int.fract (s + f * r), s), fun s f r => (Int.fract (s + f * r), 1 - s),
  fun s f r => (Int.fract (s + f * r), 2 * s), fun s f r w => (Int.fract (s + f * r), if s < w then 1 else 0),
  fun s f r w => (Int.fract (s + f * r), if s < w then 1 - w else - w)⟩

example : BTuned exB id (1/2) := ⟨fun _ _ _ => rfl, fun _ _ _ => rfl, fun _ _ _ => rfl, fun _ _ _ _ => rfl, fun _ _ _ _ => rfl, fun _ => rfl⟩

example : ((BOsc.new exB (1/4)).run exB [.rate 100, .block 0 [⟨30, 0⟩, ⟨30, 0⟩], .block 2 [⟨10, 0⟩], .reset, .block 3 [⟨1, 3/4⟩]]).2 =
    [1/4, 11/20, 17/10, 1] := by decide +kernel

def exV : Vps ℚ ℚ := ⟨fun p => p, fun _ => 1/2, fun _ v => v, fun s f r _ _ => (Int.fract (s + f * r), s), fun s _ _ => s, 0, fun o _ => o, fun _ => 0,
  fun o l => (o, l.sum / 4)⟩

example : VTuned exV id (1/2) := ⟨fun _ _ _ _ _ => rfl, fun _ => rfl⟩

example : ((VOsc.new exV (1/4)).run exV [.rate 100, .block ⟨0, 0⟩ [⟨20, 0, 0, 0, 0⟩], .block ⟨1, 0⟩ [⟨20, 0, 0, 0, 0⟩], .block ⟨0, 0⟩ [⟨20, 0, 0, 0, 0⟩]]).2 =
    [1/4, 21/40, 13/20] := by decide +kernel

end HexoDSP.OscProps
