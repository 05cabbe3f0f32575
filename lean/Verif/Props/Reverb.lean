import Verif.Spec.Reverb
import Mathlib.Tactic.Linarith
/-! TsLFO, Comb, AllP and PVerb. -/

namespace HexoDSP.ReverbProps
open HexoDSP.Reverb ReverbSpec

variable {S T : Type}

/-! ### The LFO -/

theorem clamp_nearest {lo hi : ℚ} (hl : lo ≤ hi) (x : ℚ) : IsNearest lo hi x (clamp lo hi x) := by
  unfold clamp IsNearest
  by_cases h1 : x < lo
  · rw [if_pos h1]
    exact ⟨⟨le_refl _, hl⟩, fun _ => rfl, fun h => by linarith, fun h => by linarith⟩
  · rw [if_neg h1]
    by_cases h2 : x > hi
    · rw [if_pos h2]
      exact ⟨⟨hl, le_refl _⟩, fun h => by linarith, fun _ => rfl, fun _ h => by linarith⟩
    · rw [if_neg h2]
      exact ⟨⟨by linarith, by linarith⟩, fun h => by linarith, fun h => by linarith, fun _ _ => rfl⟩

theorem clamp_of_nearest {lo hi x y : ℚ} (hl : lo ≤ hi) (h : IsNearest lo hi x y) : clamp lo hi y = clamp lo hi x := by
  have hx := clamp_nearest hl x
  have e : y = clamp lo hi x := by
    rcases le_total x lo with h0 | h0
    · rw [h.2.1 h0, hx.2.1 h0]
    · rcases le_total x hi with h1 | h1
      · rw [h.2.2.2 h0 h1, hx.2.2.2 h0 h1]
      · rw [h.2.2.1 h1, hx.2.2.1 h1]
  rw [(clamp_nearest hl y).2.2.2 h.1.1 h.1.2, e]

/-- **C107** (LFO, range) The LFO stays between 0 and 1 in every history. -/
theorem lfo_range (E : Lfo S T) {rateOf : S → ℚ} (h : Forgets E rateOf) (es : List (Ev LFrame)) : ∀ n : TsLFO S T,
    ∀ y ∈ (n.run E es).2, 0 ≤ y ∧ y ≤ 1 := by
  have hp : ∀ (fs : List LFrame) (n : TsLFO S T), ∀ y ∈ (n.process E fs).2, 0 ≤ y ∧ y ≤ 1 := by
    intro fs
    induction fs with
    | nil => intro n y hy; exact absurd hy (by simp [TsLFO.process])
    | cons f fs ih =>
      intro n y hy
      simp only [TsLFO.process, List.mem_cons] at hy
      rcases hy with rfl | hy
      · exact h.next _
      · exact ih _ y hy
  induction es with
  | nil => intro n y hy; exact absurd hy (by simp [TsLFO.run])
  | cons e es ih =>
    intro n y hy
    cases e with
    | reset => exact ih _ y hy
    | rate r => exact ih _ y hy
    | block fs =>
      simp only [TsLFO.run, List.mem_append] at hy
      rcases hy with hy | hy
      · exact hp fs n y hy
      · exact ih _ y hy

/-- **C107** (LFO, trigger) From a frame with a trigger on, the LFO plays the same whatever it played before: two nodes at the same sample rate whose
trigger inputs see this trigger in the same state agree from then on, in all further histories. -/
theorem lfo_trigger_starts_over (E : Lfo S T) {rateOf : S → ℚ} (h : Forgets E rateOf) (n n' : TsLFO S T) (hr : rateOf n.lfo = rateOf n'.lfo)
    (ht : n.trig = n'.trig) (f : LFrame) (hf : (E.check n.trig f.trig).2 = true) (fs : List LFrame) (es : List (Ev LFrame)) :
    (n.run E (.block (f :: fs) :: es)).2 = (n'.run E (.block (f :: fs) :: es)).2 := by
  have : n.tick E f = n'.tick E f := by
    unfold TsLFO.tick
    simp only
    rw [← ht, hf, if_pos rfl, if_pos rfl, h.reset _ _ hr]
  simp only [TsLFO.run, TsLFO.process, this]

/-- **C107** (LFO, reset) The same after a reset, if the trigger input forgets too. -/
theorem lfo_reset_starts_over (E : Lfo S T) {rateOf : S → ℚ} (h : Forgets E rateOf) (htr : ∀ t t', E.trigReset t = E.trigReset t') (n n' : TsLFO S T)
    (hr : rateOf n.lfo = rateOf n'.lfo) (es : List (Ev LFrame)) : (n.run E (.reset :: es)).2 = (n'.run E (.reset :: es)).2 := by
  simp only [TsLFO.run]
  rw [h.reset _ _ hr, htr n.trig n'.trig]

/-- **C107** (LFO, period) A period below 0.1 ms acts like 0.1 ms and one above five minutes like five minutes; the LFO never gets a frequency that is not
positive. -/
theorem lfo_period (E : Lfo S T) (t : LFrame → ℚ) (ht : ∀ f, IsNearest (1/10) 300000 f.time (t f)) (es : List (Ev LFrame)) : ∀ n : TsLFO S T,
    n.run E (mapInputs (fun f => { f with time := t f }) es) = n.run E es := by
  have hp : ∀ (fs : List LFrame) (n : TsLFO S T), n.process E (fs.map (fun f => { f with time := t f })) = n.process E fs := by
    intro fs
    induction fs with
    | nil => intro n; rfl
    | cons f fs ih =>
      intro n
      have : n.tick E { f with time := t f } = n.tick E f := by
        simp only [TsLFO.tick, clamp_of_nearest (by norm_num) (ht f)]
      simp only [List.map_cons, TsLFO.process, this, ih]
  induction es with
  | nil => intro n; rfl
  | cons e es ih =>
    intro n
    cases e with
    | reset => exact ih _
    | rate r => exact ih _
    | block fs => simp only [mapInputs, TsLFO.run, hp, ih]

/-- **C107** (LFO, frequency) What the LFO does at frequencies outside of 1/300 to 10000 Hz is never heard. -/
theorem lfo_frequency (E E' : Lfo S T) (h1 : E.rate = E'.rate) (h2 : E.reset = E'.reset) (h3 : E.next = E'.next) (h4 : E.trigReset = E'.trigReset)
    (h5 : E.check = E'.check) (hs : ∀ s f r, 1/300 ≤ f → f ≤ 10000 → E.set s f r = E'.set s f r) (es : List (Ev LFrame)) : ∀ n : TsLFO S T,
    n.run E es = n.run E' es := by
  have hf : ∀ x : ℚ, 1/300 ≤ 1000 / clamp (1/10) 300000 x ∧ 1000 / clamp (1/10) 300000 x ≤ 10000 := by
    intro x
    obtain ⟨⟨a, b⟩, -⟩ := clamp_nearest (lo := 1/10) (hi := 300000) (by norm_num) x
    have hc : 0 < clamp (1/10) 300000 x := by linarith
    constructor
    · rw [le_div_iff₀ hc]; linarith
    · rw [div_le_iff₀ hc]; linarith
  have ht : ∀ (f : LFrame) (n : TsLFO S T), n.tick E f = n.tick E' f := by
    intro f n
    unfold TsLFO.tick
    simp only
    rw [h5, h2, h3, hs _ _ _ (hf f.time).1 (hf f.time).2]
  have hp : ∀ (fs : List LFrame) (n : TsLFO S T), n.process E fs = n.process E' fs := by
    intro fs
    induction fs with
    | nil => intro n; rfl
    | cons f fs ih => intro n; simp only [TsLFO.process, ht, ih]
  induction es with
  | nil => intro n; rfl
  | cons e es ih =>
    intro n
    cases e with
    | reset => simp only [TsLFO.run, h2, h4]; exact ih _
    | rate r => simp only [TsLFO.run, h1]; exact ih _
    | block fs => simp only [TsLFO.run, hp, ih]

/-! ### Comb and allpass -/

/-- **C107** (comb and allpass, silence) A new Comb or AllP is silent as long as its input is 0, whatever times, factors and modes do. -/
theorem comb_silent (E : Line S) {empty : S → Prop} (h : LineSilent E empty) (es : List (Ev CFrame)) (hz : ∀ f ∈ frames es, f.inp = 0) :
    ∀ y ∈ (combRun E E.new es).2, y = 0 := by
  have hp : ∀ (fs : List CFrame) (s : S), empty s → (∀ f ∈ fs, f.inp = 0) → empty (combProcess E s fs).1 ∧ ∀ y ∈ (combProcess E s fs).2, y = 0 := by
    intro fs
    induction fs with
    | nil => intro s hs _; exact ⟨hs, fun y hy => absurd hy (by simp [combProcess])⟩
    | cons f fs ih =>
      intro s hs hz
      have h1 : empty (combTick E s f).1 ∧ (combTick E s f).2 = 0 := by
        unfold combTick
        rw [hz f (by simp)]
        split
        · exact h.feedback _ _ _ hs
        · exact h.feedforward _ _ _ hs
      obtain ⟨h2, h3⟩ := ih _ h1.1 (fun f hf => hz f (by simp [hf]))
      refine ⟨h2, fun y hy => ?_⟩
      simp only [combProcess, List.mem_cons] at hy
      rcases hy with rfl | hy
      · exact h1.2
      · exact h3 y hy
  have hrun : ∀ (es : List (Ev CFrame)) (s : S), empty s → (∀ f ∈ frames es, f.inp = 0) → ∀ y ∈ (combRun E s es).2, y = 0 := by
    intro es
    induction es with
    | nil => intro s _ _ y hy; exact absurd hy (by simp [combRun])
    | cons e es ih =>
      intro s hs hz y hy
      cases e with
      | reset => exact ih _ (h.reset s) hz y hy
      | rate r => exact ih _ (h.rate s r hs) hz y hy
      | block fs =>
        obtain ⟨h1, h2⟩ := hp fs s hs (fun f hf => hz f (by simp [frames, hf]))
        simp only [combRun, List.mem_append] at hy
        rcases hy with hy | hy
        · exact h2 y hy
        · exact ih _ h1 (fun f hf => hz f (by simp [frames, hf])) y hy
  exact hrun es _ h.new hz

/-- **C107** (comb and allpass, reset) After a reset that forgets, a Comb or AllP plays the same whatever it played before. -/
theorem comb_reset_starts_over (E : Line S) (hr : ∀ s s', E.reset s = E.reset s') (s s' : S) (es : List (Ev CFrame)) :
    combRun E s (.reset :: es) = combRun E s' (.reset :: es) := by
  simp only [combRun]
  rw [hr s s']

/-! ### The plate reverb -/

theorem verb_congr (E : Verb S) (g : VFrame → VFrame) (h : ∀ s f, verbTick E s (g f) = verbTick E s f) (es : List (Ev VFrame)) : ∀ s,
    verbRun E s (mapInputs g es) = verbRun E s es := by
  have hp : ∀ (fs : List VFrame) s, verbProcess E s (fs.map g) = verbProcess E s fs := by
    intro fs
    induction fs with
    | nil => intro s; rfl
    | cons f fs ih => intro s; simp only [List.map_cons, verbProcess, h, ih]
  induction es with
  | nil => intro s; rfl
  | cons e es ih =>
    intro s
    cases e with
    | reset => exact ih _
    | rate r => exact ih _
    | block fs => simp only [mapInputs, verbRun, hp, ih]

/-- **C107** (PVerb, mono) With one input connected, the reverb plays as with both connected to the same signal; the knob of the free input is not heard. -/
theorem verb_mono (E : Verb S) (es : List (Ev VFrame)) (s : S) :
    verbRun E s (mapInputs (fun f =>
      if f.conL ∧ ¬ f.conR then { f with conR := true, inR := f.inL }
      else if f.conR ∧ ¬ f.conL then { f with conL := true, inL := f.inR }
      else f) es) = verbRun E s es := by
  apply verb_congr
  intro s f
  unfold verbTick
  obtain ⟨cl, cr, l, r, p, m⟩ := f
  cases cl <;> cases cr <;> rfl

theorem feed_stereo (f : VFrame) : f.feed = stereo f := by
  obtain ⟨cl, cr, l, r, p, m⟩ := f
  cases cl <;> cases cr <;> rfl

/-- **C107** (PVerb, dry) With the mix at 0 the reverb plays its inputs unchanged, in every history. -/
theorem verb_dry (E : Verb S) (h : Crossfade E) (es : List (Ev VFrame)) (hm : ∀ f ∈ frames es, f.mix = 0) : ∀ s,
    (verbRun E s es).2 = (frames es).map stereo := by
  have hp : ∀ (fs : List VFrame), (∀ f ∈ fs, f.mix = 0) → ∀ s, (verbProcess E s fs).2 = fs.map stereo := by
    intro fs
    induction fs with
    | nil => intro _ s; rfl
    | cons f fs ih =>
      intro hm s
      simp only [verbProcess, List.map_cons]
      rw [ih (fun f hf => hm f (by simp [hf]))]
      simp only [verbTick, hm f (by simp), h.dry, feed_stereo]
  induction es with
  | nil => intro s; rfl
  | cons e es ih =>
    intro s
    cases e with
    | reset => exact ih hm _
    | rate r => exact ih hm _
    | block fs =>
      simp only [verbRun, frames, List.map_append]
      rw [hp fs (fun f hf => hm f (by simp [frames, hf])), ih (fun f hf => hm f (by simp [frames, hf]))]

theorem tail_block (E : Verb S) (fs : List VFrame) (es : List (Ev VFrame)) : ∀ s, (∀ f ∈ fs, f.mix = 1) → Crossfade E →
    tail E s (.block fs :: es) = (verbProcess E s fs).2 ++ tail E (verbProcess E s fs).1 es := by
  induction fs with
  | nil => intro s _ _; simp [tail, verbProcess]
  | cons f fs ih =>
    intro s hm h
    rw [tail, ih _ (fun f hf => hm f (by simp [hf])) h]
    simp only [verbProcess, verbTick, hm f (by simp), h.wet, feed_stereo, List.cons_append]

/-- **C107** (PVerb, wet) With the mix at 1 only the reverb is heard. -/
theorem verb_wet (E : Verb S) (h : Crossfade E) (es : List (Ev VFrame)) (hm : ∀ f ∈ frames es, f.mix = 1) : ∀ s,
    (verbRun E s es).2 = tail E s es := by
  induction es with
  | nil => intro s; simp [verbRun, tail]
  | cons e es ih =>
    intro s
    cases e with
    | reset => rw [tail]; exact ih hm _
    | rate r => rw [tail]; exact ih hm _
    | block fs =>
      rw [tail_block E fs es s (fun f hf => hm f (by simp [frames, hf])) h]
      simp only [verbRun]
      rw [ih (fun f hf => hm f (by simp [frames, hf]))]

/-- **C107** (PVerb, silence) A new reverb is silent as long as its inputs are 0. -/
theorem verb_silent (E : Verb S) {empty : S → Prop} (h : VerbSilent E empty) (es : List (Ev VFrame)) (hz : ∀ f ∈ frames es, f.inL = 0 ∧ f.inR = 0) :
    ∀ y ∈ (verbRun E E.new es).2, y = (0, 0) := by
  have hp : ∀ (fs : List VFrame) (s : S), empty s → (∀ f ∈ fs, f.inL = 0 ∧ f.inR = 0) →
      empty (verbProcess E s fs).1 ∧ ∀ y ∈ (verbProcess E s fs).2, y = (0, 0) := by
    intro fs
    induction fs with
    | nil => intro s hs _; exact ⟨hs, fun y hy => absurd hy (by simp [verbProcess])⟩
    | cons f fs ih =>
      intro s hs hz
      obtain ⟨z1, z2⟩ := hz f (by simp)
      have hf : f.feed = (0, 0) := by
        rw [feed_stereo]; simp [stereo, z1, z2]
      obtain ⟨k1, k2⟩ := h.process s f.params hs
      have h1 : empty (verbTick E s f).1 ∧ (verbTick E s f).2 = (0, 0) := by
        unfold verbTick
        simp only [hf, k2, h.crossfade]
        exact ⟨k1, trivial⟩
      obtain ⟨h2, h3⟩ := ih _ h1.1 (fun f hf => hz f (by simp [hf]))
      refine ⟨h2, fun y hy => ?_⟩
      simp only [verbProcess, List.mem_cons] at hy
      rcases hy with rfl | hy
      · exact h1.2
      · exact h3 y hy
  have hrun : ∀ (es : List (Ev VFrame)) (s : S), empty s → (∀ f ∈ frames es, f.inL = 0 ∧ f.inR = 0) → ∀ y ∈ (verbRun E s es).2, y = (0, 0) := by
    intro es
    induction es with
    | nil => intro s _ _ y hy; exact absurd hy (by simp [verbRun])
    | cons e es ih =>
      intro s hs hz y hy
      cases e with
      | reset => exact ih _ (h.reset s) hz y hy
      | rate r => exact ih _ (h.rate s r hs) hz y hy
      | block fs =>
        obtain ⟨h1, h2⟩ := hp fs s hs (fun f hf => hz f (by simp [frames, hf]))
        simp only [verbRun, List.mem_append] at hy
        rcases hy with hy | hy
        · exact h2 y hy
        · exact ih _ h1 (fun f hf => hz f (by simp [frames, hf])) y hy
  exact hrun es _ h.new hz

/-! ### The assumptions are met -/

/-- An LFO that counts to its period and starts again; the state is position, rate and frequency. -/
def exL : Lfo (ℚ × ℚ × ℚ) ℚ := ⟨(0, 100, 0), fun s r => (s.1, r, s.2.2), fun s => (0, s.2.1, 0), fun s f _ => (s.1, s.2.1, f),
  fun s => let p := s.1 + s.2.2 / s.2.1; (if p < 1 ∧ 0 ≤ p then (p, s.2) else (0, s.2), if s.1 < 1 ∧ 0 ≤ s.1 then s.1 else 0), 0, fun _ => 0,
  fun t x => (x, decide (t ≤ 1/2 ∧ 1/2 < x))⟩

example : Forgets exL (fun s => s.2.1) where
  reset s s' h := by simp only [exL, h]
  next s := by
    show 0 ≤ (if s.1 < 1 ∧ 0 ≤ s.1 then s.1 else 0) ∧ (if s.1 < 1 ∧ 0 ≤ s.1 then s.1 else 0) ≤ 1
    split
    · rename_i h; exact ⟨h.2, h.1.le⟩
    · exact ⟨le_refl _, by norm_num⟩

example : ((TsLFO.new exL).run exL [.block [⟨100, 0, 0⟩, ⟨100, 0, 0⟩, ⟨100, 1, 0⟩, ⟨100, 1, 0⟩]]).2 = [0, 1/10, 0, 1/10] := by decide +kernel

/-- A line of one sample. -/
def exC : Line ℚ := ⟨0, fun s _ => s, fun _ => 0, fun s _ g x => (x + g * s, x + g * s), fun s _ g x => (x, x + g * s)⟩

example : LineSilent exC (fun s => s = 0) :=
  ⟨rfl, fun _ _ h => h, fun _ => rfl, fun s t g h => by subst h; simp [exC], fun s t g h => by subst h; simp [exC]⟩

example : (combRun exC 0 [.block [⟨0, 0, 1/2, 1⟩, ⟨0, 0, 1/2, 0⟩, ⟨0, 0, 1/2, 0⟩], .block [⟨1, 0, 1, 0⟩, ⟨1, 0, 1, 0⟩]]).2 = [1, 1/2, 1/4, 1/4, 0] := by decide +kernel

def exV : Verb (ℚ × ℚ) := ⟨(0, 0), fun s _ => s, fun _ => (0, 0), fun s p l r => ((l + p.dcy * s.1, r + p.dcy * s.2), s.1, s.2), fun a b m => a + m * (b - a)⟩

example : Crossfade exV := ⟨fun a b => by simp [exV], fun a b => by simp [exV]⟩

example : VerbSilent exV (fun s => s = (0, 0)) :=
  ⟨rfl, fun _ _ h => h, fun _ => rfl, fun s p h => by subst h; simp [exV], fun m => by simp [exV]⟩

def exP : Params := ⟨0, 0, 1/2, 0, 0, 0, 0, 0, 0, 0, 0, 0⟩

example : (verbRun exV (0, 0) [.block [⟨true, false, 1, 7, exP, 0⟩, ⟨true, false, 0, 7, exP, 1⟩], .block [⟨false, true, 5, 2, exP, 0⟩]]).2 =
    [(1, 1), (1, 1), (2, 2)] := by decide +kernel

end HexoDSP.ReverbProps
