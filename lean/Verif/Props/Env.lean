import Verif.Spec.Env
import Mathlib.Tactic.Linarith
import Mathlib.Tactic.Ring
import Mathlib.Tactic.Positivity
/-! The envelopes Ad and Adsr. -/

namespace HexoDSP.EnvProps
open HexoDSP.Env EnvSpec

variable {S : Type}

theorem clamp_nearest (x : ℚ) : IsNearest x (clamp 0 1 x) := by
  unfold clamp IsNearest
  by_cases h1 : x < 0
  · rw [if_pos h1]
    exact ⟨⟨le_refl _, by norm_num⟩, fun _ => rfl, fun h => by linarith, fun h => by linarith⟩
  · rw [if_neg h1]
    by_cases h2 : x > 1
    · rw [if_pos h2]
      exact ⟨⟨by norm_num, le_refl _⟩, fun h => by linarith, fun _ => rfl, fun _ h => by linarith⟩
    · rw [if_neg h2]
      exact ⟨⟨by linarith, by linarith⟩, fun h => by linarith, fun h => by linarith, fun _ _ => rfl⟩

theorem nearest_eq {x y : ℚ} (h : IsNearest x y) : y = clamp 0 1 x := by
  have h' := clamp_nearest x
  rcases le_total x 0 with h0 | h0
  · rw [h.2.1 h0, h'.2.1 h0]
  · rcases le_total x 1 with h1 | h1
    · rw [h.2.2.2 h0 h1, h'.2.2.2 h0 h1]
    · rw [h.2.2.1 h1, h'.2.2.1 h1]

theorem clamp_in {y : ℚ} (h0 : 0 ≤ y) (h1 : y ≤ 1) : clamp 0 1 y = y := (clamp_nearest y).2.2.2 h0 h1

theorem clamp_of_nearest {x y : ℚ} (h : IsNearest x y) : clamp 0 1 y = clamp 0 1 x := by
  rw [clamp_in h.1.1 h.1.2, nearest_eq h]

theorem mult_factor (m : Int) : Factor m (multOf m) := by
  refine ⟨?_, ?_, ?_⟩ <;> rintro rfl <;> rfl

/-! ### Attack and decay -/

theorem adProcess_scale (E : AdExt S) (m : Int) (c : ℚ) (fs : List AdFrame) : ∀ s,
    (adProcess E m s (fs.map (fun f => { f with inp := c * f.inp }))).1 = (adProcess E m s fs).1 ∧
    (adProcess E m s (fs.map (fun f => { f with inp := c * f.inp }))).2 = (adProcess E m s fs).2.map (fun o => (c * o.1, o.2)) := by
  induction fs with
  | nil => intro s; exact ⟨rfl, rfl⟩
  | cons f fs ih =>
    intro s
    simp only [List.map_cons, adProcess]
    have e : adTick E (multOf m) s { f with inp := c * f.inp } =
        ((adTick E (multOf m) s f).1, c * (adTick E (multOf m) s f).2.1, (adTick E (multOf m) s f).2.2) := by
      simp only [adTick, mul_assoc]
    rw [e]
    obtain ⟨h1, h2⟩ := ih (adTick E (multOf m) s f).1
    exact ⟨h1, by rw [h2]⟩

/-- **C102** (Ad is an amplifier) An input `c` times as loud gives an output `c` times as loud and the same end triggers, in every history. -/
theorem ad_scales (E : AdExt S) (c : ℚ) (es : List (Ev AdFrame)) : ∀ s,
    adRun E s (mapFrames (fun f => { f with inp := c * f.inp }) es) = (adRun E s es).map (fun o => (c * o.1, o.2)) := by
  induction es with
  | nil => intro s; rfl
  | cons e es ih =>
    intro s
    cases e with
    | reset => exact ih _
    | rate r => exact ih _
    | block m fs =>
      obtain ⟨h1, h2⟩ := adProcess_scale E m c fs s
      simp only [mapFrames, adRun, h1, h2, List.map_append]
      rw [ih]

theorem adProcess_env (E : AdExt S) (m : Int) (fs : List AdFrame) : ∀ s,
    (adProcess E m s (fs.map (fun f => { f with inp := 1 }))).1 = (adProcess E m s fs).1 ∧
    (adProcess E m s fs).2 = List.zipWith (fun (f : AdFrame) (o : ℚ × ℚ) => (f.inp * o.1, o.2)) fs (adProcess E m s (fs.map (fun f => { f with inp := 1 }))).2 ∧
    (adProcess E m s (fs.map (fun f => { f with inp := 1 }))).2.length = fs.length := by
  induction fs with
  | nil => intro s; exact ⟨rfl, rfl, rfl⟩
  | cons f fs ih =>
    intro s
    simp only [List.map_cons, adProcess]
    have e : (adTick E (multOf m) s { f with inp := 1 }).1 = (adTick E (multOf m) s f).1 := rfl
    rw [e]
    obtain ⟨h1, h2, h3⟩ := ih (adTick E (multOf m) s f).1
    refine ⟨h1, ?_, by simp [h3]⟩
    rw [List.zipWith_cons_cons, ← h2]
    simp only [adTick, one_mul]

/-- **C102** (Ad times the envelope) What an Ad plays is its input, frame by frame, times the envelope: what it plays for the constant input 1. In
particular envelope and end trigger do not depend on the input. -/
theorem ad_is_input_times_envelope (E : AdExt S) (es : List (Ev AdFrame)) : ∀ s,
    adRun E s es = List.zipWith (fun (f : AdFrame) (o : ℚ × ℚ) => (f.inp * o.1, o.2)) (allFrames es) (adRun E s (mapFrames (fun f => { f with inp := 1 }) es)) := by
  induction es with
  | nil => intro s; rfl
  | cons e es ih =>
    intro s
    cases e with
    | reset => exact ih _
    | rate r => exact ih _
    | block m fs =>
      obtain ⟨h1, h2, h3⟩ := adProcess_env E m fs s
      simp only [mapFrames, adRun, allFrames, h1]
      rw [List.zipWith_append (h := h3.symm), ← h2, ← ih]

/-- **C102** (Ad, knobs) In each frame the envelope gets the times multiplied by the factor of the knob, and the shapes brought to the range from 0 to 1; the
shape of the decay is turned round. -/
theorem ad_knobs (E : AdExt S) (m : Int) (s : S) (f : AdFrame) : ∃ k a d, Factor m k ∧ IsNearest f.ashp a ∧ IsNearest f.dshp d ∧
    adTick E (multOf m) s f = ((E.tick s f.trig (k * f.atk) a (k * f.dcy) (1 - d)).1,
      f.inp * (E.tick s f.trig (k * f.atk) a (k * f.dcy) (1 - d)).2.1, (E.tick s f.trig (k * f.atk) a (k * f.dcy) (1 - d)).2.2) :=
  ⟨multOf m, clamp 0 1 f.ashp, clamp 0 1 f.dshp, mult_factor m, clamp_nearest _, clamp_nearest _, rfl⟩

/-- If two ways of setting the knobs do the same in every frame, they do the same in every history. -/
theorem adProcess_congr (E : AdExt S) (m m' : Int) (g : AdFrame → AdFrame)
    (h : ∀ s f, adTick E (multOf m') s (g f) = adTick E (multOf m) s f) (fs : List AdFrame) : ∀ s,
    adProcess E m' s (fs.map g) = adProcess E m s fs := by
  induction fs with
  | nil => intro s; rfl
  | cons f fs ih =>
    intro s
    simp only [List.map_cons, adProcess, h]
    rw [ih]

/-- **C102** (Ad, shapes) A shape out of range acts like the end of the range it is nearest to, in every history. -/
theorem ad_shapes (E : AdExt S) (a d : AdFrame → ℚ) (ha : ∀ f, IsNearest f.ashp (a f)) (hd : ∀ f, IsNearest f.dshp (d f)) (es : List (Ev AdFrame)) : ∀ s,
    adRun E s (mapFrames (fun f => { f with ashp := a f, dshp := d f }) es) = adRun E s es := by
  induction es with
  | nil => intro s; rfl
  | cons e es ih =>
    intro s
    cases e with
    | reset => exact ih _
    | rate r => exact ih _
    | block m fs =>
      simp only [mapFrames, adRun]
      rw [adProcess_congr E m m, ih]
      intro s f
      simp only [adTick, clamp_of_nearest (ha f), clamp_of_nearest (hd f)]

/-- **C102** (Ad, factor) The second and third setting of the knob are the first one with times 10 and 100 times as long: a block at factor `k` plays, and
leaves the envelope, as one without factor and with `k`-fold times. -/
theorem ad_factor (E : AdExt S) (m : Int) (k : ℚ) (hm : m = 1 ∧ k = 10 ∨ m = 2 ∧ k = 100) (fs : List AdFrame) (s : S) :
    adProcess E m s fs = adProcess E 0 s (fs.map (fun f => { f with atk := k * f.atk, dcy := k * f.dcy })) := by
  rw [adProcess_congr E m 0]
  intro s f
  rcases hm with ⟨rfl, rfl⟩ | ⟨rfl, rfl⟩ <;> simp [adTick, multOf]

/-! ### The graph of Ad -/

/-- **C102** (graph) The picture of an Ad stays between 0 and 1. -/
theorem ad_graph_range {curve : ℚ → ℚ → ℚ} (hc : Curve curve) {atk dcy ashp dshp x xn : ℚ} (hx : 0 ≤ x) :
    0 ≤ adGraph curve atk dcy ashp dshp x xn ∧ adGraph curve atk dcy ashp dshp x xn ≤ 1 := by
  have key : ∀ d s, 0 ≤ d → d ≤ 1 → 0 ≤ curve d s ∧ curve d s ≤ 1 := by
    intro d s h0 h1
    exact ⟨by rw [← hc.zero s]; exact hc.mono 0 d s (le_refl _) h0 h1, by rw [← hc.one s]; exact hc.mono d 1 s h0 h1 (le_refl _)⟩
  unfold adGraph
  simp only
  split
  · split
    · exact ⟨by norm_num, le_refl _⟩
    · split
      · exact ⟨le_refl _, by norm_num⟩
      · rename_i h1 h2 h3
        have ha : 0 < atk * (1/2) := by linarith
        have e : (1 : ℚ) - (atk * (1/2) - x) / (atk * (1/2)) = x / (atk * (1/2)) := by
          rw [sub_div, div_self ha.ne']; ring
        rw [e]
        exact key _ _ (div_nonneg hx ha.le) ((div_le_one ha).2 h1)
  · split
    · split
      · exact ⟨le_refl _, by norm_num⟩
      · rename_i h1 h2 h3
        have hd : 0 < dcy * (1/2) := by linarith
        refine key _ _ (div_nonneg (by linarith) hd.le) ((div_le_one hd).2 (by linarith))
    · exact ⟨le_refl _, by norm_num⟩

/-- **C102** (graph) However coarse the points are: if the first point is not after the end of the attack and the last one is, the picture reaches the
peak. -/
theorem ad_graph_peak (curve : ℚ → ℚ → ℚ) {atk dcy ashp dshp : ℚ} (x : Nat → ℚ) (n : Nat) (h0 : x 0 ≤ atk * (1/2)) (hn : atk * (1/2) < x n) :
    ∃ k < n, adGraph curve atk dcy ashp dshp (x k) (x (k + 1)) = 1 := by
  induction n with
  | zero => linarith
  | succ n ih =>
    by_cases h : atk * (1/2) < x n
    · obtain ⟨k, hk, he⟩ := ih h
      exact ⟨k, by omega, he⟩
    · refine ⟨n, by omega, ?_⟩
      unfold adGraph
      simp only
      rw [if_pos (by linarith), if_pos hn]

/-- **C102** (graph) The attack rises: of two points of the attack the later one is not drawn lower. -/
theorem ad_graph_rises {curve : ℚ → ℚ → ℚ} (hc : Curve curve) {atk dcy ashp dshp x xn y yn : ℚ} (hx : 0 ≤ x) (hxy : x ≤ y) (hy : y ≤ atk * (1/2))
    (hnext : xn ≤ y) : adGraph curve atk dcy ashp dshp x xn ≤ adGraph curve atk dcy ashp dshp y yn := by
  have hr := (ad_graph_range hc (atk := atk) (dcy := dcy) (ashp := ashp) (dshp := dshp) (xn := xn) hx).2
  have hr' := (ad_graph_range hc (atk := atk) (dcy := dcy) (ashp := ashp) (dshp := dshp) (xn := yn) (le_trans hx hxy)).1
  unfold adGraph at hr hr' ⊢
  simp only at hr hr' ⊢
  rw [if_pos (show x ≤ atk * (1/2) by linarith), if_neg (show ¬ xn > atk * (1/2) by linarith)] at hr ⊢
  rw [if_pos hy] at hr' ⊢
  by_cases h1 : yn > atk * (1/2)
  · rw [if_pos h1]; exact hr
  · rw [if_neg h1] at hr' ⊢
    by_cases h2 : atk * (1/2) < 1/10000
    · rw [if_pos h2, if_pos h2]
    · rw [if_neg h2, if_neg h2]
      have ha : 0 < atk * (1/2) := by linarith
      have e : ∀ z : ℚ, (1 : ℚ) - (atk * (1/2) - z) / (atk * (1/2)) = z / (atk * (1/2)) := by
        intro z; rw [sub_div, div_self ha.ne']; ring
      rw [e, e]
      exact hc.mono _ _ _ (div_nonneg hx ha.le) (div_le_div_of_nonneg_right hxy ha.le) ((div_le_one ha).2 hy)

/-- **C102** (graph) The decay falls, and after it the picture is at 0. -/
theorem ad_graph_falls {curve : ℚ → ℚ → ℚ} (hc : Curve curve) {atk dcy ashp dshp x xn y yn : ℚ} (hx0 : 0 ≤ x) (hx : atk * (1/2) < x) (hxy : x ≤ y) :
    adGraph curve atk dcy ashp dshp y yn ≤ adGraph curve atk dcy ashp dshp x xn ∧
      (atk * (1/2) + dcy * (1/2) ≤ y → adGraph curve atk dcy ashp dshp y yn = 0) := by
  have hr := (ad_graph_range hc (atk := atk) (dcy := dcy) (ashp := ashp) (dshp := dshp) (xn := xn) hx0).1
  unfold adGraph at hr ⊢
  simp only at hr ⊢
  rw [if_neg (show ¬ x ≤ atk * (1/2) by linarith)] at hr ⊢
  rw [if_neg (show ¬ y ≤ atk * (1/2) by linarith)]
  by_cases h1 : y - atk * (1/2) ≤ dcy * (1/2)
  · have h2 : x - atk * (1/2) ≤ dcy * (1/2) := by linarith
    rw [if_pos h1, if_pos h2]
    by_cases h3 : dcy * (1/2) < 1/10000
    · rw [if_pos h3, if_pos h3]; exact ⟨le_refl _, fun _ => rfl⟩
    · rw [if_neg h3, if_neg h3]
      have hd : 0 < dcy * (1/2) := by linarith
      refine ⟨hc.mono _ _ _ (div_nonneg (by linarith) hd.le) (div_le_div_of_nonneg_right (by linarith) hd.le) ((div_le_one hd).2 (by linarith)), ?_⟩
      intro he
      have : dcy * (1/2) - (y - atk * (1/2)) = 0 := by linarith
      rw [this, zero_div]
      exact hc.zero _
  · rw [if_neg h1]
    exact ⟨hr, fun _ => rfl⟩

/-! ### Attack, decay, sustain and release -/

theorem adsrProcess_scale (E : AdsrExt S) (m : Int) (c : ℚ) (fs : List AdsrFrame) : ∀ s,
    (adsrProcess E m s (fs.map (fun f => { f with inp := c * f.inp }))).1 = (adsrProcess E m s fs).1 ∧
    (adsrProcess E m s (fs.map (fun f => { f with inp := c * f.inp }))).2 = (adsrProcess E m s fs).2.map (fun o => (c * o.1, o.2)) := by
  induction fs with
  | nil => intro s; exact ⟨rfl, rfl⟩
  | cons f fs ih =>
    intro s
    simp only [List.map_cons, adsrProcess]
    have e : adsrTick E (multOf m) s { f with inp := c * f.inp } =
        ((adsrTick E (multOf m) s f).1, c * (adsrTick E (multOf m) s f).2.1, (adsrTick E (multOf m) s f).2.2) := by
      simp only [adsrTick, mul_assoc]
      rfl
    rw [e]
    obtain ⟨h1, h2⟩ := ih (adsrTick E (multOf m) s f).1
    exact ⟨h1, by rw [h2]⟩

/-- **C102** (Adsr is an amplifier) An input `c` times as loud gives an output `c` times as loud and the same end triggers, in every history. -/
theorem adsr_scales (E : AdsrExt S) (c : ℚ) (es : List (Ev AdsrFrame)) : ∀ s,
    adsrRun E s (mapFrames (fun f => { f with inp := c * f.inp }) es) = (adsrRun E s es).map (fun o => (c * o.1, o.2)) := by
  induction es with
  | nil => intro s; rfl
  | cons e es ih =>
    intro s
    cases e with
    | reset => exact ih _
    | rate r => exact ih _
    | block m fs =>
      obtain ⟨h1, h2⟩ := adsrProcess_scale E m c fs s
      simp only [mapFrames, adsrRun, h1, h2, List.map_append]
      rw [ih]

theorem adsrProcess_env (E : AdsrExt S) (m : Int) (fs : List AdsrFrame) : ∀ s,
    (adsrProcess E m s (fs.map (fun f => { f with inp := 1 }))).1 = (adsrProcess E m s fs).1 ∧
    (adsrProcess E m s fs).2 = List.zipWith (fun (f : AdsrFrame) (o : ℚ × ℚ) => (f.inp * o.1, o.2)) fs (adsrProcess E m s (fs.map (fun f => { f with inp := 1 }))).2 ∧
    (adsrProcess E m s (fs.map (fun f => { f with inp := 1 }))).2.length = fs.length := by
  induction fs with
  | nil => intro s; exact ⟨rfl, rfl, rfl⟩
  | cons f fs ih =>
    intro s
    simp only [List.map_cons, adsrProcess]
    have e : (adsrTick E (multOf m) s { f with inp := 1 }).1 = (adsrTick E (multOf m) s f).1 := rfl
    rw [e]
    obtain ⟨h1, h2, h3⟩ := ih (adsrTick E (multOf m) s f).1
    refine ⟨h1, ?_, by simp [h3]⟩
    rw [List.zipWith_cons_cons, ← h2]
    simp only [adsrTick, one_mul]
    rfl

/-- **C102** (Adsr times the envelope) What an Adsr plays is its input, frame by frame, times the envelope: what it plays for the constant input 1. -/
theorem adsr_is_input_times_envelope (E : AdsrExt S) (es : List (Ev AdsrFrame)) : ∀ s,
    adsrRun E s es = List.zipWith (fun (f : AdsrFrame) (o : ℚ × ℚ) => (f.inp * o.1, o.2)) (allFrames es) (adsrRun E s (mapFrames (fun f => { f with inp := 1 }) es)) := by
  induction es with
  | nil => intro s; rfl
  | cons e es ih =>
    intro s
    cases e with
    | reset => exact ih _
    | rate r => exact ih _
    | block m fs =>
      obtain ⟨h1, h2, h3⟩ := adsrProcess_env E m fs s
      simp only [mapFrames, adsrRun, allFrames, h1]
      rw [List.zipWith_append (h := h3.symm), ← h2, ← ih]

/-- **C102** (Adsr, knobs) In each frame the envelope gets the times multiplied by the factor of the knob, and sustain and shapes brought to the range from 0
to 1. -/
theorem adsr_knobs (m : Int) (f : AdsrFrame) : Factor m (multOf m) ∧ (adsrParams (multOf m) f).atkMs = multOf m * f.atk ∧
    (adsrParams (multOf m) f).dcyMs = multOf m * f.dcy ∧ (adsrParams (multOf m) f).relMs = multOf m * f.rel ∧
    IsNearest f.sus (adsrParams (multOf m) f).sus ∧ IsNearest f.ashp (adsrParams (multOf m) f).ashp ∧
    IsNearest f.dshp (1 - (adsrParams (multOf m) f).dshp) ∧ IsNearest f.rshp (1 - (adsrParams (multOf m) f).rshp) := by
  refine ⟨mult_factor m, rfl, rfl, rfl, clamp_nearest _, clamp_nearest _, ?_, ?_⟩
  · have : (1 : ℚ) - (adsrParams (multOf m) f).dshp = clamp 0 1 f.dshp := by simp [adsrParams]
    rw [this]; exact clamp_nearest _
  · have : (1 : ℚ) - (adsrParams (multOf m) f).rshp = clamp 0 1 f.rshp := by simp [adsrParams]
    rw [this]; exact clamp_nearest _

theorem adsrProcess_congr (E : AdsrExt S) (m m' : Int) (g : AdsrFrame → AdsrFrame)
    (h : ∀ s f, adsrTick E (multOf m') s (g f) = adsrTick E (multOf m) s f) (fs : List AdsrFrame) : ∀ s,
    adsrProcess E m' s (fs.map g) = adsrProcess E m s fs := by
  induction fs with
  | nil => intro s; rfl
  | cons f fs ih =>
    intro s
    simp only [List.map_cons, adsrProcess, h]
    rw [ih]

/-- **C102** (Adsr, shapes and sustain) A shape or sustain level out of range acts like the end of the range it is nearest to, in every history. -/
theorem adsr_shapes (E : AdsrExt S) (a d r u : AdsrFrame → ℚ) (ha : ∀ f, IsNearest f.ashp (a f)) (hd : ∀ f, IsNearest f.dshp (d f))
    (hr : ∀ f, IsNearest f.rshp (r f)) (hu : ∀ f, IsNearest f.sus (u f)) (es : List (Ev AdsrFrame)) : ∀ s,
    adsrRun E s (mapFrames (fun f => { f with ashp := a f, dshp := d f, rshp := r f, sus := u f }) es) = adsrRun E s es := by
  induction es with
  | nil => intro s; rfl
  | cons e es ih =>
    intro s
    cases e with
    | reset => exact ih _
    | rate r => exact ih _
    | block m fs =>
      simp only [mapFrames, adsrRun]
      rw [adsrProcess_congr E m m, ih]
      intro s f
      simp only [adsrTick, adsrParams, clamp_of_nearest (ha f), clamp_of_nearest (hd f), clamp_of_nearest (hr f), clamp_of_nearest (hu f)]

/-- **C102** (Adsr, factor) A block at factor 10 or 100 plays, and leaves the envelope, as one without factor and with times 10 or 100 times as long. -/
theorem adsr_factor (E : AdsrExt S) (m : Int) (k : ℚ) (hm : m = 1 ∧ k = 10 ∨ m = 2 ∧ k = 100) (fs : List AdsrFrame) (s : S) :
    adsrProcess E m s fs = adsrProcess E 0 s (fs.map (fun f => { f with atk := k * f.atk, dcy := k * f.dcy, rel := k * f.rel })) := by
  rw [adsrProcess_congr E m 0]
  intro s f
  rcases hm with ⟨rfl, rfl⟩ | ⟨rfl, rfl⟩ <;> simp [adsrTick, adsrParams, multOf]

/-- **C102** (graph) If the reset of the envelope makes it forget what it did, a picture of an Adsr shows the values of the knobs at its beginning, whatever
was drawn before with the same graph function. -/
theorem adsr_graph_repeats (E : AdsrExt S) (sq : ℚ → ℚ) (hreset : ∀ s s', E.reset s = E.reset s') (g g' : Graph S) (gd : GraphData) (xs : List ℚ) :
    (g.draw E sq gd xs).2 = (g'.draw E sq gd xs).2 := by
  unfold Graph.draw Graph.init
  simp only [hreset g.env g'.env]

/-- **C102** (graph) A picture of an Adsr shows what a freshly reset envelope plays with the gate held in the first seven tenths of the width. The envelope
may not change the parameters it is given. -/
theorem adsr_graph_plays (E : AdsrExt S) (sq : ℚ → ℚ) (htick : ∀ s g p, (E.tick s g p).2.1 = p) (g : Graph S) (gd : GraphData) (xs : List ℚ) :
    (g.draw E sq gd xs).2 = envelope E (g.init E sq gd).1.params (E.reset g.env) (xs.map (fun x => if x ≤ 7/10 then 1 else 0)) := by
  unfold Graph.draw
  have key : ∀ (xs : List ℚ) (g : Graph S), (g.points E xs).2 = envelope E g.params g.env (xs.map (fun x => if x ≤ 7/10 then 1 else 0)) := by
    intro xs
    induction xs with
    | nil => exact fun g => rfl
    | cons x xs ih =>
      intro g
      have e : (if x > 7/10 then (0 : ℚ) else 1) = if x ≤ 7/10 then 1 else 0 := by
        by_cases h : x ≤ 7/10
        · rw [if_neg (not_lt.2 h), if_pos h]
        · rw [if_pos (not_le.1 h), if_neg h]
      simp only [Graph.points, Graph.point, List.map_cons, envelope, ih, htick, e]
  exact key xs _

/-- **C102** (reset) If the reset of the envelope makes it forget what it did, an Ad plays after a reset the same whatever happened before. -/
theorem ad_reset_forgets (E : AdExt S) (hreset : ∀ s s', E.reset s = E.reset s') (s s' : S) (es : List (Ev AdFrame)) :
    adRun E s (.reset :: es) = adRun E s' (.reset :: es) := by
  simp only [adRun, hreset s s']

/-- **C102** (reset) The same for an Adsr. -/
theorem adsr_reset_forgets (E : AdsrExt S) (hreset : ∀ s s', E.reset s = E.reset s') (s s' : S) (es : List (Ev AdsrFrame)) :
    adsrRun E s (.reset :: es) = adsrRun E s' (.reset :: es) := by
  simp only [adsrRun, hreset s s']

/-! ### The hypotheses are met -/

def exAd : AdExt ℚ := ⟨0, fun s _ => s, fun _ => 0, fun s t a _ _ _ => let s := if t > 1/2 then 0 else s + 1 / a; (s, s, if s ≥ 1 then 1 else 0)⟩

def exAdEs : List (Ev AdFrame) := [.block 1 [⟨2, 1, 1/5, 1, 0, 0⟩, ⟨2, 0, 1/5, 1, 0, 0⟩], .block 0 [⟨-1, 0, 1, 1, 3, -1⟩], .reset]

example : adRun exAd 0 exAdEs = [(0, 0), (1, 0), (-3/2, 1)] := by decide +kernel

/-- The straight line is a curve. -/
example : Curve (fun x _ => x) := ⟨fun _ => rfl, fun _ => rfl, fun _ _ _ _ h _ => h⟩

example : adGraph (fun x _ => x) 1 1 0 0 (1/4) (2/4) = 1/2 ∧ adGraph (fun x _ => x) 1 1 0 0 (1/4) (3/4) = 1 ∧ adGraph (fun x _ => x) 1 1 0 0 (3/4) 1 = 1/2 := by
  decide +kernel

def exAdsr : AdsrExt ℚ := ⟨0, fun s _ => s, fun _ => 0, fun s g p => let s := if g > 1/2 then s + 1 / p.atkMs else p.sus; (s, p, s, 0)⟩

example : (∀ s s', exAdsr.reset s = exAdsr.reset s') ∧
    adsrRun exAdsr 0 [.block 2 [⟨1, 1, 1/100, 0, 0, 0, 0, 0, 0⟩, ⟨3, 1, 1/50, 0, 0, 0, 0, 0, 0⟩, ⟨1, 0, 0, 0, 7, 0, 0, 0, 0⟩]] = [(1, 0), (9/2, 0), (1, 0)] :=
  ⟨fun _ _ => rfl, by decide +kernel⟩

end HexoDSP.EnvProps
