import Verif.Spec.ResetParts
import Verif.Lemmas.Reset
import Mathlib.Tactic.Linarith
/-!
# A reset node plays like a new one

C121. `Machine.Forgets` (`Spec/Reset.lean`) is the English sentence. What is required of the parts from the crate `synfx_dsp` is in `Spec/ResetParts.lean`.
-/

set_option linter.unusedSectionVars false

namespace HexoDSP.ResetProps
open HexoDSP HexoDSP.Reset

/-! ### Noise, sine, formant oscillator, simple filter -/

theorem noise_loop_seed {S : Type} (R : Noise.Rng S) (mode : Int) (fs : List Noise.Frame) : ∀ n : Noise.Node S, (Noise.loop R mode n fs).1.seed = n.seed := by
  induction fs with
  | nil => intro n; rfl
  | cons f fs ih =>
    intro n
    simp only [Noise.loop, ih, Noise.tick]
    split <;> rfl

/-- **C121** Noise: the random numbers start again. -/
theorem noise_forgets {S : Type} (R : Noise.Rng S) (inst : Nat) : (noise R inst).Forgets := by
  refine forgets_eq _ (fun n _ => n.seed = inst) rfl ?_ (fun s o h => h) (fun s o r h => h) ?_
  · intro s o b s' w h e
    simp only [noise, Noise.Node.process] at e
    split at e
    · cases e
    · cases e
      rw [noise_loop_seed]; exact h
  · intro s o h
    simp only [noise, Noise.Node.reset, Machine.tell, Noise.Node.new]
    cases o <;> (cases s; cases h; rfl)

/-- **C121** The sine oscillator: back at the phase it was made with. -/
theorem sin_forgets (rn : ℚ → ℚ) (fuel : Nat) (sine : ℚ → ℚ) (ph : ℚ) : (sin rn fuel sine ph).Forgets := by
  refine forgets_eq _ (fun n o => n.init = ph ∧ n.srate = o.getD 44100) ⟨rfl, rfl⟩ ?_ (fun s o h => h) (fun s o r h => ⟨h.1, rfl⟩) ?_
  · intro s o b s' w h e
    simp only [sin, Option.map_eq_some_iff] at e
    obtain ⟨r, _, e⟩ := e
    cases e
    exact h
  · intro s o h
    obtain ⟨a, b, c⟩ := s
    obtain ⟨rfl, rfl⟩ := h
    cases o <;> rfl

/-- **C121** The formant oscillator. -/
theorem formfm_forgets : formfm.Forgets := by
  refine forgets_eq _ (fun n o => n.isr = 1 / (o.getD 44100 : ℚ)) (by simp [formfm]) ?_ (fun s o h => h) (fun s o r h => rfl) ?_
  · intro s o b s' w h e
    cases e
    exact h
  · intro s o h
    obtain ⟨a, b⟩ := s
    simp only at h
    subst h
    cases o <;> simp [formfm, Machine.tell]

/-- **C121** The simple filter: all memory cells, and the type it last used. -/
theorem sfilter_forgets (E : SFilter.Ext) : (sfilter E).Forgets := by
  refine forgets_eq _ (fun n o => n.2 = 1 / o.getD 44100) rfl ?_ (fun s o h => h) (fun s o r h => rfl) ?_
  · intro s o b s' w h e
    cases e
    exact h
  · intro s o h
    obtain ⟨a, b⟩ := s
    simp only at h
    subst h
    cases o <;> rfl

/-! ### Delay and oscillators -/

theorem delay_knows {B C : Type} {E : Delay.Ext B C} {knows : B → Option ℚ → Prop} (hE : DelayParts E knows) (mode : Int) (o : Option ℚ)
    (fs : List Delay.Frame) : ∀ n : Delay.Node B C, knows n.buffer o → knows (n.process E mode fs).1.buffer o := by
  induction fs with
  | nil => intro n h; exact h
  | cons f fs ih =>
    intro n h
    refine ih _ ?_
    simp only [Delay.tick]
    split <;> exact hE.feed _ _ _ h

/-- **C121** The delay. -/
theorem delay_forgets {B C : Type} {E : Delay.Ext B C} {knows : B → Option ℚ → Prop} (hE : DelayParts E knows) : (delay E).Forgets := by
  refine forgets_eq _ (fun n o => knows n.buffer o) hE.line.start ?_ ?_ (fun s o r h => hE.line.told _ _ r h) ?_
  · intro s o b s' w h e
    have : s' = (s.process E b.1 b.2).1 := by simp only [delay, Option.some.injEq] at e; rw [e]
    rw [this]
    exact delay_knows hE _ _ _ _ h
  · intro s o h
    exact hE.line.again _ _ h
  · intro s o h
    simp only [delay, Delay.Node.reset, Machine.tell, hE.clock, hE.line.renew _ _ h, Delay.Node.new, Delay.Node.setSampleRate]
    cases o <;> rfl

theorem bosc_made {S : Type} {E : Osc.Blep S} {made : S → ℚ → Prop} (hE : BlepParts E made) (ph : ℚ) (w : Int)
    (fs : List Osc.BFrame) : ∀ n : Osc.BOsc S, made n.osc ph → made (n.process E w fs).1.osc ph ∧ (n.process E w fs).1.israte = n.israte := by
  induction fs with
  | nil => intro n h; exact ⟨h, rfl⟩
  | cons f fs ih =>
    intro n h
    have h1 : made (n.tick E w f).1.osc ph := by
      simp only [Osc.BOsc.tick]
      split
      · exact hE.sin _ _ _ _ h
      · exact hE.tri _ _ _ _ h
      · exact hE.saw _ _ _ _ h
      · exact hE.pulseNoDc _ _ _ _ _ h
      · exact hE.pulse _ _ _ _ _ h
    exact ih _ h1

/-- **C121** The basic oscillator. -/
theorem bosc_forgets {S : Type} {E : Osc.Blep S} {made : S → ℚ → Prop} (hE : BlepParts E made) (ph : ℚ) : (bosc E ph).Forgets := by
  refine forgets_eq _ (fun n o => made n.osc ph ∧ n.israte = 1 / o.getD 44100) ⟨hE.new ph, rfl⟩ ?_ ?_ (fun s o r h => ⟨h.1, rfl⟩) ?_
  · intro s o b s' w h e
    have : s' = (s.process E b.1 b.2).1 := by simp only [bosc, Option.some.injEq] at e; rw [e]
    rw [this]
    have := bosc_made hE ph b.1 b.2 s h.1
    exact ⟨this.1, this.2.trans h.2⟩
  · intro s o h
    refine ⟨?_, h.2⟩
    show made (E.reset s.osc) ph
    rw [hE.reset _ _ h.1]
    exact hE.new ph
  · intro s o h
    obtain ⟨a, b⟩ := s
    obtain ⟨h1, h2⟩ := h
    simp only at h1 h2
    subst h2
    simp only [bosc, hE.reset _ _ h1, Machine.tell, Osc.BOsc.new]
    cases o <;> rfl

theorem over_made {S O : Type} {E : Osc.Vps S O} {made : S → ℚ → Prop} {knows : O → Option ℚ → Prop} (hE : VpsParts E made knows) (ph : ℚ)
    (freq israte d v damt : ℚ) (dist : Nat) : ∀ (k : Nat) (s : S), made s ph → made (Osc.overLoop E freq israte d v damt dist k s).1 ph
  | 0, _, h => h
  | k + 1, _, h => over_made hE ph freq israte d v damt dist k _ (hE.next _ _ _ _ _ _ h)

theorem vosc_made {S O : Type} {E : Osc.Vps S O} {made : S → ℚ → Prop} {knows : O → Option ℚ → Prop} (hE : VpsParts E made knows) (ph : ℚ)
    (o : Option ℚ) (c : Osc.VSet) (fs : List Osc.VFrame) : ∀ n : Osc.VOsc S O, made n.osc ph → knows n.over o →
      made (n.process E c fs).1.osc ph ∧ knows (n.process E c fs).1.over o ∧ (n.process E c fs).1.israte = n.israte := by
  induction fs with
  | nil => intro n h h'; exact ⟨h, h', rfl⟩
  | cons f fs ih =>
    intro n h h'
    have h1 : made (n.tick E c f).1.osc ph ∧ knows (n.tick E c f).1.over o ∧ (n.tick E c f).1.israte = n.israte := by
      simp only [Osc.VOsc.tick]
      split
      · exact ⟨over_made hE ph _ _ _ _ _ _ _ _ h, hE.down _ _ _ h', rfl⟩
      · exact ⟨hE.next _ _ _ _ _ _ h, h', rfl⟩
    have := ih _ h1.1 h1.2.1
    exact ⟨this.1, this.2.1, this.2.2.trans h1.2.2⟩

/-- **C121** The second oscillator with its oversampling. -/
theorem vosc_forgets {S O : Type} {E : Osc.Vps S O} {made : S → ℚ → Prop} {knows : O → Option ℚ → Prop} (hE : VpsParts E made knows) (ph : ℚ) :
    (vosc E ph).Forgets := by
  refine forgets_eq _ (fun n o => made n.osc ph ∧ knows n.over o ∧ n.israte = match o with
    | none => 1 / 44100
    | some r => 1 / (r * Osc.OVERSAMPLING)) ⟨hE.new ph, hE.over.start, rfl⟩ ?_ ?_ (fun s o r h => ⟨h.1, hE.over.told _ _ _ h.2.1, rfl⟩) ?_
  · intro s o b s' w h e
    have : s' = (s.process E b.1 b.2).1 := by simp only [vosc, Option.some.injEq] at e; rw [e]
    rw [this]
    have := vosc_made hE ph o b.1 b.2 s h.1 h.2.1
    exact ⟨this.1, this.2.1, this.2.2.trans h.2.2⟩
  · intro s o h
    refine ⟨?_, hE.over.again _ _ h.2.1, h.2.2⟩
    show made (E.reset s.osc) ph
    rw [hE.reset _ _ h.1]
    exact hE.new ph
  · intro s o h
    obtain ⟨a, b, c⟩ := s
    obtain ⟨h1, h2, h3⟩ := h
    simp only at h1 h2 h3
    subst h3
    simp only [vosc, hE.reset _ _ h1, hE.over.renew _ _ h2, Machine.tell, Osc.VOsc.new]
    cases o <;> rfl

/-! ### LFO, string, quantizers -/

theorem lfo_tick {S T : Type} {E : Reverb.Lfo S T} {knows : S → Option ℚ → Prop} (hE : LfoParts E knows) (f : Reverb.LFrame) (a b : Reverb.TsLFO S T)
    (h : SameLfo E a.lfo b.lfo) (ht : a.trig = b.trig) : a.tick E f = b.tick E f := by
  simp only [Reverb.TsLFO.tick, ht]
  cases (E.check b.trig f.trig).2
  · simp only [Bool.false_eq_true, if_false, h _ _]
  · simp only [if_true, hE.resets _ _ h _ _]

theorem lfo_process {S T : Type} {E : Reverb.Lfo S T} {knows : S → Option ℚ → Prop} (hE : LfoParts E knows) :
    ∀ (fs : List Reverb.LFrame) (a b : Reverb.TsLFO S T), SameLfo E a.lfo b.lfo → a.trig = b.trig →
      (a.process E fs).2 = (b.process E fs).2 ∧ SameLfo E (a.process E fs).1.lfo (b.process E fs).1.lfo ∧ (a.process E fs).1.trig = (b.process E fs).1.trig
  | [], _, _, h, ht => ⟨rfl, h, ht⟩
  | f :: fs, a, b, h, ht => by
    simp only [Reverb.TsLFO.process, lfo_tick hE f a b h ht]
    exact ⟨trivial, fun _ _ => rfl, trivial⟩

theorem lfo_knows {S T : Type} {E : Reverb.Lfo S T} {knows : S → Option ℚ → Prop} (hE : LfoParts E knows) (o : Option ℚ) :
    ∀ (fs : List Reverb.LFrame) (a : Reverb.TsLFO S T), knows a.lfo o → knows (a.process E fs).1.lfo o
  | [], _, h => h
  | f :: fs, a, h => by
    refine lfo_knows hE o fs _ ?_
    simp only [Reverb.TsLFO.tick]
    refine hE.next _ _ (hE.set _ _ _ _ ?_)
    split
    · exact hE.reset _ _ h
    · exact h

/-- **C121** The LFO. -/
theorem tslfo_forgets {S T : Type} {E : Reverb.Lfo S T} {knows : S → Option ℚ → Prop} (hE : LfoParts E knows) : (tslfo E).Forgets := by
  refine forgets_of _ (fun n o => knows n.lfo o) (fun a b => SameLfo E a.lfo b.lfo ∧ a.trig = b.trig) hE.new ?_
    (fun s o h => hE.reset _ _ h) (fun s o r h => hE.rate _ _ _ h) ?_ ?_ ?_ (fun s t r h => ⟨hE.rates _ _ _ h.1, h.2⟩)
  · intro s o b s' w h e
    have : s' = (s.process E b).1 := by simp only [tslfo, Option.some.injEq] at e; rw [e]
    rw [this]
    exact lfo_knows hE o b s h
  · intro s o h
    have := hE.renew _ _ h
    refine ⟨?_, ?_⟩
    · cases o <;> exact this
    · cases o <;> exact hE.trig _
  · intro s t b h
    have := lfo_process hE b s t h.1 h.2
    exact ⟨this.1, this.2⟩
  · intro s t h
    exact ⟨hE.resets _ _ h.1, (hE.trig _).trans (hE.trig _).symm⟩

/-- What a string knows: its sample rate, and the filter made for it. -/
def Tuned {D P B : Type} (is : P → ℚ → ℚ → Prop) (n : BowStri.Node D P B) (r : ℚ) : Prop :=
  n.srate = r ∧ is n.filter (3/4 - 1/5 * (22050 / r)) (9/10)

theorem string_tuned {D P B : Type} {E : BowStri.Ext D P B} {is : P → ℚ → ℚ → Prop} (hE : StringParts E is) (r : ℚ) :
    ∀ (fs : List BowStri.Frame) (n : BowStri.Node D P B), Tuned is n r → Tuned is (n.process E fs).1 r
  | [], _, h => h
  | f :: fs, n, h => by
    refine string_tuned hE r fs _ ?_
    exact ⟨h.1, hE.next _ _ _ _ h.2⟩

/-- **C121** The bowed string. -/
theorem bowstri_forgets {D P B : Type} {E : BowStri.Ext D P B} {is : P → ℚ → ℚ → Prop} (hE : StringParts E is) : (bowstri E).Forgets := by
  refine forgets_eq _ (fun n o => Tuned is n (o.getD 44100)) ⟨rfl, hE.pole _ _⟩ ?_ ?_ (fun s o r h => ⟨rfl, hE.pole _ _⟩) ?_
  · intro s o b s' w h e
    have : s' = (s.process E b).1 := by simp only [bowstri, Option.some.injEq] at e; rw [e]
    rw [this]
    exact string_tuned hE _ b s h
  · intro s o h
    refine ⟨h.1, ?_⟩
    simp only [bowstri, BowStri.Node.reset, hE.reset _ _ _ h.2]
    exact hE.pole _ _
  · intro s o h
    obtain ⟨h1, h2⟩ := h
    obtain ⟨a, b, c, d, e⟩ := s
    simp only at h1 h2
    subst h1
    simp only [bowstri, BowStri.Node.reset, hE.reset _ _ _ h2, hE.delay, hE.body]
    cases o <;> rfl

theorem quant_loop {K Q C : Type} {E : Quant.Ext K Q C} {keys : Q → K → Prop} {knows : C → Option ℚ → Prop} (hE : QuantParts E keys knows) (k : K) :
    ∀ (fs : List Quant.Frame) (a b : Quant.Node Q C), keys a.quant k → keys b.quant k → a.change = b.change →
      (Quant.loop E a fs).2 = (Quant.loop E b fs).2 ∧ (Quant.loop E a fs).1.change = (Quant.loop E b fs).1.change
  | [], _, _, _, _, h => ⟨rfl, h⟩
  | f :: fs, a, b, ha, hb, h => by
    have e := hE.same _ _ k f.inp ha hb
    have := quant_loop hE k fs ⟨(E.toPitch a.quant f.inp).1, (E.changeNext a.change (E.toPitch a.quant f.inp).2).1⟩
      ⟨(E.toPitch b.quant f.inp).1, (E.changeNext b.change (E.toPitch b.quant f.inp).2).1⟩ (hE.keep _ _ _ ha) (hE.keep _ _ _ hb) (by simp only [h, e])
    simp only [Quant.loop]
    refine ⟨?_, this.2⟩
    rw [this.1, h, e]

theorem quant_knows {K Q C : Type} {E : Quant.Ext K Q C} {keys : Q → K → Prop} {knows : C → Option ℚ → Prop} (hE : QuantParts E keys knows) (o : Option ℚ) :
    ∀ (fs : List Quant.Frame) (a : Quant.Node Q C), knows a.change o → knows (Quant.loop E a fs).1.change o
  | [], _, h => h
  | _ :: fs, _, h => quant_knows hE o fs _ (hE.next _ _ _ h)

/-- **C121** The quantizers: the keys need not be forgotten, every block sets them. -/
theorem quant_forgets {K Q C : Type} {E : Quant.Ext K Q C} {keys : Q → K → Prop} {knows : C → Option ℚ → Prop} (hE : QuantParts E keys knows) :
    (quant E).Forgets := by
  refine forgets_of _ (fun n o => knows n.change o) (fun a b => a.change = b.change) hE.change.start ?_
    (fun s o h => hE.change.again _ _ h) (fun s o r h => hE.change.told _ _ _ h) ?_ ?_ ?_ ?_
  · intro s o b s' w h e
    have : s' = (s.process E b.1 b.2).1 := by simp only [quant, Option.some.injEq] at e; rw [e]
    rw [this]
    exact quant_knows hE o b.2 _ h
  · intro s o h
    show E.changeReset s.change = _
    rw [hE.change.renew _ _ h]
    cases o <;> rfl
  · intro s t b h
    exact quant_loop hE b.1 b.2 _ _ (hE.set _ _) (hE.set _ _) h
  · intro s t h
    simp only [quant, h]
  · intro s t r h
    simp only [quant, h]

/-! ### The biquad filter: all but the coefficients -/

theorem through_coefs {C M X : Type} (E : BiqFilt.Ext C M X) : ∀ (k : Nat) (cs : List (C × M)) (x : X) (r : X × List (C × M)),
    BiqFilt.through E k cs x = some r → r.2.map Prod.fst = cs.map Prod.fst
  | 0, cs, x, r, h => by cases h; rfl
  | k + 1, [], x, r, h => by cases h
  | k + 1, c :: cs, x, r, h => by
    simp only [BiqFilt.through, Option.map_eq_some_iff] at h
    obtain ⟨q, hq, e⟩ := h
    cases e
    simp only [List.map_cons, through_coefs E k cs _ q hq]

theorem loop_coefs {C M X : Type} (E : BiqFilt.Ext C M X) (k : Nat) : ∀ (xs : List X) (cs : List (C × M)) (r : List X × List (C × M)),
    BiqFilt.loop E k cs xs = some r → r.2.map Prod.fst = cs.map Prod.fst
  | [], cs, r, h => by cases h; rfl
  | x :: xs, cs, r, h => by
    simp only [BiqFilt.loop] at h
    cases e : BiqFilt.through E k cs x with
    | none => rw [e] at h; cases h
    | some q =>
      rw [e] at h
      simp only [Option.map_eq_some_iff] at h
      obtain ⟨p, hp, e2⟩ := h
      cases e2
      exact (loop_coefs E k xs _ p hp).trans (through_coefs E k cs x q e)

/-- The coefficients for a set of parameters. -/
def coefs {C M X : Type} (E : BiqFilt.Ext C M X) (srate : ℚ) (ftype : Nat) (freq q : ℚ) : C :=
  if ftype = 1 then E.resonator srate freq q else E.butter srate freq

/-- What a biquad filter knows: the sample rate, and unless it is to compute them anew the coefficients for the parameters it remembers. -/
def Biq {C M X : Type} (E : BiqFilt.Ext C M X) (n : BiqFilt.Node C M) (o : Option ℚ) : Prop :=
  n.srate = o.getD (1 / 44100) ∧ n.cascade.length = 4 ∧
    (n.otype ≠ 99 → n.cascade.map Prod.fst = List.replicate 4 (coefs E n.srate n.otype n.ofreq n.oq))

theorem list4 {α : Type} {l : List α} (h : l.length = 4) : ∃ a b c d, l = [a, b, c, d] := by
  match l, h with
  | [a, b, c, d], _ => exact ⟨a, b, c, d, rfl⟩

theorem biq_update {C M X : Type} (E : BiqFilt.Ext C M X) (n : BiqFilt.Node C M) (o : Option ℚ) (b : BiqFilt.Block X) (h : Biq E n o) :
    Biq E (n.update E b) o := by
  simp only [BiqFilt.Node.update]
  split
  · refine ⟨h.1, by simpa using h.2.1, fun _ => ?_⟩
    obtain ⟨p, q, r, s, e⟩ := list4 h.2.1
    simp only [e, coefs]
    rfl
  · exact h

/-- The parameters of a block are those the filter computed its coefficients for. -/
def Same {C M X : Type} (s : BiqFilt.Node C M) (b : BiqFilt.Block X) : Prop :=
  s.otype ≠ 99 ∧ BiqFilt.asU8 b.ftype = s.otype ∧ BiqFilt.clampFreq b.freq = s.ofreq ∧ b.q = s.oq ∧ b.gain = s.ogain

/-- The parameters of a block are further than the tolerance from those the filter computed its coefficients for. -/
def Moved {C M X : Type} (s : BiqFilt.Node C M) (b : BiqFilt.Block X) : Prop :=
  BiqFilt.asU8 b.ftype ≠ s.otype ∨ |BiqFilt.clampFreq b.freq - s.ofreq| > 1/10000 ∨ |b.q - s.oq| > 1/10000 ∨ |b.gain - s.ogain| > 1/10000

theorem clampFreq_nonneg (x : ℚ) : 0 ≤ BiqFilt.clampFreq x := by
  simp only [BiqFilt.clampFreq]
  split
  · exact le_refl _
  · split
    · norm_num
    · exact le_of_not_gt ‹_›

/-- **C121** The biquad filter plays after a reset like a new one if the parameters of the next block have not changed at all, or have changed by more than 1/10000.
What is missing: a change within the tolerance, see `biqfilt_remembers`. -/
theorem biqfilt_forgets_partial {C M X : Type} (E : BiqFilt.Ext C M X) (past : List (Ev (BiqFilt.Block X))) (s : BiqFilt.Node C M) (heard : List (List X))
    (hp : (biqfilt E).run (biqfilt E).new past = some (s, heard)) (b : BiqFilt.Block X) (hb : Same s b ∨ Moved s b) (future : List (Ev (BiqFilt.Block X))) :
    (biqfilt E).plays s (.reset :: .block b :: future) = (biqfilt E).plays ((biqfilt E).tell (lastRate none past)) (.block b :: future) := by
  have hI : Biq E s (lastRate none past) := by
    refine run_keeps (biqfilt E) (Biq E) ?_ ?_ ?_ past _ none s heard ⟨rfl, rfl, fun h => absurd rfl h⟩ hp
    · intro s o b s' w h e
      simp only [biqfilt, BiqFilt.Node.process, Option.map_eq_some_iff] at e
      obtain ⟨r, ⟨q, hq, e1⟩, e2⟩ := e
      have hu := biq_update E s o b h
      have hl := loop_coefs E _ _ _ q hq
      cases e1
      cases e2
      refine ⟨hu.1, ?_, fun h => hl.trans (hu.2.2 h)⟩
      have := congrArg List.length hl
      rw [List.length_map, List.length_map] at this
      exact this.trans hu.2.1
    · intro s o h
      refine ⟨h.1, ?_, fun h9 => ?_⟩
      · simpa [biqfilt] using h.2.1
      · simp only [biqfilt, List.map_map]
        exact h.2.2 h9
    · intro s o r h
      exact ⟨rfl, by simpa [biqfilt, BiqFilt.Node.setSampleRate] using h.2.1, fun h9 => absurd rfl h9⟩
  generalize lastRate none past = o at hI
  have hfresh : ((biqfilt E).tell o).srate = o.getD (1 / 44100) ∧ ((biqfilt E).tell o).cascade = List.replicate 4 (E.c0, E.m0) ∧
      ((biqfilt E).tell o).ofreq = -2 := by
    cases o <;> exact ⟨rfl, rfl, rfl⟩
  have key : ((biqfilt E).reset s).update E b = ((biqfilt E).tell o).update E b := by
    have hnew : ((biqfilt E).tell o).update E b =
        ⟨List.replicate 4 (coefs E (o.getD (1 / 44100)) (BiqFilt.asU8 b.ftype) (BiqFilt.clampFreq b.freq) b.q, E.m0),
          o.getD (1 / 44100), BiqFilt.clampFreq b.freq, b.q, b.gain, BiqFilt.asU8 b.ftype⟩ := by
      simp only [BiqFilt.Node.update]
      rw [if_pos, hfresh.1, hfresh.2.1]
      · rfl
      · refine Or.inr (Or.inl ?_)
        rw [hfresh.2.2]
        have := clampFreq_nonneg b.freq
        rw [abs_of_nonneg (by linarith)]
        linarith
    rw [hnew]
    obtain ⟨p, q, r, u, e⟩ := list4 hI.2.1
    rcases hb with h | h
    · obtain ⟨h9, ht, hf, hq, hg⟩ := h
      have hc := hI.2.2 h9
      have hs := hI.1
      simp only [BiqFilt.Node.update]
      rw [if_neg]
      · obtain ⟨ca, sr, of, oq, og, ot⟩ := s
        simp only at e hc hs h9 ht hf hq hg
        subst e hs ht hf hq hg
        simp only [List.map_cons, List.map_nil, List.replicate, List.cons.injEq, and_true] at hc
        simp only [biqfilt, List.map_cons, List.map_nil, hc.1, hc.2.1, hc.2.2.1, hc.2.2.2]
        rfl
      · simp only [biqfilt, ht, hf, hq, hg, ne_eq, not_true_eq_false, sub_self, abs_zero]
        norm_num
    · have hs := hI.1
      simp only [BiqFilt.Node.update]
      rw [if_pos (show BiqFilt.asU8 b.ftype ≠ ((biqfilt E).reset s).otype ∨ |BiqFilt.clampFreq b.freq - ((biqfilt E).reset s).ofreq| > 1/10000 ∨
        |b.q - ((biqfilt E).reset s).oq| > 1/10000 ∨ |b.gain - ((biqfilt E).reset s).ogain| > 1/10000 from h)]
      simp only [biqfilt, e, hs, List.map_cons, List.map_nil]
      rfl
  simp only [Machine.plays, Machine.run]
  have hblock : (biqfilt E).block ((biqfilt E).reset s) b = (biqfilt E).block ((biqfilt E).tell o) b := by
    show ((((biqfilt E).reset s).process E b).map _) = ((((biqfilt E).tell o).process E b).map _)
    simp only [BiqFilt.Node.process, key]
  rw [hblock]

/-! ### The nodes that remember -/

/-- A history that tells a reset node from a new one; `f` is what one looks at. -/
theorem not_forgets {S B O X : Type} {m : Machine S B O} (f : O → X) (past future : List (Ev B)) (h : (m.run m.new past).isSome = true)
    (hne : (m.run m.new past).bind (fun p => (m.plays p.1 (.reset :: future)).map (List.map f)) ≠
      (m.plays (m.tell (lastRate none past)) future).map (List.map f)) : ¬ m.Forgets := by
  intro hf
  cases e : m.run m.new past with
  | none => rw [e] at h; cases h
  | some p =>
    rw [e] at hne
    refine hne ?_
    show (m.plays p.1 (.reset :: future)).map (List.map f) = _
    rw [hf past p.1 p.2 e future]

/-- A biquad filter that multiplies by its frequency. -/
def exBiq : BiqFilt.Ext ℚ Unit ℚ := ⟨fun _ f _ => f, fun _ f => f, fun c _ x => (c * x, ()), 1, ()⟩

/-- A block of the biquad filter. -/
def biqBlock (freq : ℚ) : BiqFilt.Block ℚ := ⟨0, 0, freq, 0, 0, [1]⟩

/-- **C121** The biquad filter does not forget: a frequency within 1/10000 of the last one is not taken after a reset, a new filter takes it. -/
theorem biqfilt_remembers : ¬ (biqfilt exBiq).Forgets :=
  not_forgets id [.block (biqBlock 1000)]
    [.block (biqBlock (1000 + 1/20000))] (by decide +kernel) (by decide +kernel)

/-- Filters that multiply by the number of their mode and add what they played before. -/
def exVadim : FVaFilt.Ext ℚ ℚ ℚ ℚ ℚ ℚ ℚ Unit Unit where
  skCoefs p := p.freq
  skTick c _ m x := (c * x + m, c * x + m)
  svfCoefs p := p.res
  svfTick c _ m x := (c * x + m, c * x + m)
  mix
    | .LP6 => 1
    | _ => 4
  ladTick c _ m x := (c * x + m, c * x + m)
  dc _ x := (x, ())
  half _ x := (x, ())
  twice x := x
  zero := 0
  sk0 := (0, 0)
  svf0 := (0, 0)
  lad0 := (1, 0)
  dc0 := ()
  half0 := ()
  params0 := ⟨0, 0, 0, .LP6, .LP⟩

/-- **C121** The vadim filters do not forget: the mode of the ladder filter that was set while another filter played is not taken after a reset, a new node
takes it. -/
theorem fvafilt_remembers : ¬ (fvafilt exVadim).Forgets :=
  not_forgets id [.block (⟨1, 0, 3⟩, [⟨1, 440, 1/2, 1⟩])]
    [.block (⟨0, 0, 3⟩, [⟨1, 440, 1/2, 1⟩])] (by decide +kernel) (by decide +kernel)

/-- The trigger inputs of the examples: a signal above a half. -/
def exCheck (u : Unit) (x : ℚ) : Bool × Unit := (decide (x > 1/2), u)

/-- A frame of the multiplexer; input `k + 1` brings `k`. -/
def muxFrame (up : ℚ) : Mux.Frame := ⟨0, 0, up, 0, fun k => k⟩

/-- **C121** The multiplexer does not forget: it stays at the input it was at. -/
theorem mux9_remembers : ¬ (mux9 () exCheck).Forgets :=
  not_forgets id [.block (8, 0, [muxFrame 1])]
    [.block (8, 0, [muxFrame 0])] (by decide +kernel) (by decide +kernel)

/-- A slew limiter that does not limit. -/
def exSlew (u : Unit) (x : ℚ) (_ : ℚ) : ℚ × Unit := (x, u)

/-- A block of the controller node with a controller event, and one without. -/
def ccBlock (evs : List (Midi.Timed ℚ)) : Midi.CCSettings × Midi.CCBlock ℚ := (⟨0, 1, 2, 3⟩, ⟨1, evs, fun _ => 0⟩)

/-- **C121** The node for MIDI controllers does not forget their values. -/
theorem midicc_remembers : ¬ (midicc () exSlew).Forgets :=
  not_forgets id [.block (ccBlock [⟨0, .cc 0 1 1⟩])]
    [.block (ccBlock [])] (by decide +kernel) (by decide +kernel)

/-- A block of the node for MIDI notes. -/
def noteBlock (evs : List (Midi.Timed ℚ)) : Int × Midi.NoteBlock ℚ := (0, ⟨1, evs, fun _ => 0⟩)

/-- **C121** The node for MIDI notes does not forget: after the reset the note still sounds. -/
theorem midip_remembers : ¬ midip.Forgets :=
  not_forgets (List.map Midi.MidiPOut.gate) [.block (noteBlock [⟨0, .noteOn 0 69 1⟩])]
    [.block (noteBlock [])] (by decide +kernel) (by decide +kernel)

/-- A sample of five values, played once. -/
def exKnobs : Sampl.Knobs := ⟨some [44100, 1, 1, 1, 1, 1], 1, 0, 0⟩

/-- **C121** The sample player does not forget: it goes on playing. -/
theorem sampl_remembers : ¬ (sampl (fun _ _ _ => 1) true 1).Forgets :=
  not_forgets id [.block (exKnobs, [⟨true, 1, 0, 1⟩])]
    [.block (exKnobs, [⟨false, 1, 0, 1⟩])] (by decide +kernel) (by decide +kernel)

/-- Parts of the random walk: the slew limiter does not limit, the generator counts. -/
def exWalk : RndWk.Ext ℚ Unit Nat := ⟨0, fun s => s, fun _ t _ => (t, t), (), fun u x => (decide (x > 1/2), u), fun k => ((k : ℚ) / 10, k + 1)⟩

/-- A triggered frame with full range and step. -/
def exStep : RndWk.Frame := ⟨1, 1/2, 1/2, 0, 1, 0⟩

/-- **C121** The random walk does not forget: the random numbers go on. -/
theorem rndwk_remembers : ¬ (rndwk exWalk (fun s _ => s) (fun _ => 0) (fun _ => ()) 1).Forgets :=
  not_forgets id [.block [exStep]]
    [.block [exStep]] (by decide +kernel) (by decide +kernel)

/-- A trigger output of the test node. -/
def exPulse : TestNode.Ext Bool := ⟨false, fun _ => true, fun p => (if p then 1 else 0, false), fun _ => false, fun p _ => p⟩

/-- A block of the test node with its trigger setting on. -/
def exArg : TestNode.Arg := ⟨1, .setting 0, .setting 1, 0, 0⟩

/-- **C121** The test node does not forget that its trigger setting was on, and does not fire. -/
theorem test_remembers : ¬ (test exPulse).Forgets :=
  not_forgets (List.map TestNode.Out.tsig) [.block exArg]
    [.block exArg] (by decide +kernel) (by decide +kernel)

/-- A slew limiter that goes half way. -/
def exHalf : ExtParam.Slew ℚ := ⟨0, fun s t _ => ((s + t) / 2, (s + t) / 2)⟩

/-- A host that answers `x` to everything. -/
def exHost (x : ℚ) : ExtParam.Host := ⟨fun _ => x, fun _ _ => none⟩

/-- **C121** The node for the parameters of the host does not forget where its slew limiters are. -/
theorem ext_remembers : ¬ (ext exHalf 0).Forgets :=
  not_forgets (List.map (fun f : Fin 3 → ℚ => f 0)) [.block (some (exHost 1), [], [⟨0, fun _ => 1⟩])]
    [.block (some (exHost 0), [], [⟨0, fun _ => 1⟩])] (by decide +kernel) (by decide +kernel)

/-! ### The tracker sequencer -/

section tseq
open HexoDSP.Tracker HexoDSP.TSeqNode
variable {C T R : Type}

theorem sendFrom_backend : ∀ (cols : List Nat) (w : World) (r : Bool × World), w.sendFrom cols = some r → r.2.backend = w.backend
  | [], w, r, h => by cases h; rfl
  | col :: cols, w, r, h => by
    simp only [World.sendFrom] at h
    split at h
    · split at h
      · cases h
      · cases h; rfl
    · exact sendFrom_backend cols w r h

/-- Neither a call that makes a new backend nor a new node. -/
def Ordinary : TSeqNode.Ev R → Prop
  | .op .getBackend => False
  | .newNode _ => False
  | _ => True

theorem step_none (e : Ext C T R) (checked : Bool) (s s' : World × Node C T R) (ev : TSeqNode.Ev R) (ho : Ordinary ev) (hn : s.1.backend = none)
    (h : step e checked s ev = some s') : s'.1.backend = none := by
  cases ev with
  | newNode seed => exact ho.elim
  | block cmode frames =>
    simp only [step, process, hn, Option.map_some] at h
    cases h
    exact hn
  | op o =>
    simp only [step, Option.map_eq_some_iff] at h
    obtain ⟨w, hw, e⟩ := h
    cases e
    cases o <;> simp only [World.step] at hw
    case getBackend => exact ho.elim
    case changeValue r c o =>
      rw [Option.map_eq_some_iff] at hw
      obtain ⟨p, _, e⟩ := hw
      cases e; exact hn
    case load repr =>
      rw [Option.map_eq_some_iff] at hw
      obtain ⟨p, _, e⟩ := hw
      cases e; exact hn
    case send =>
      rw [Option.map_eq_some_iff] at hw
      obtain ⟨p, hp, e⟩ := hw
      cases e
      exact (sendFrom_backend _ _ _ hp).trans hn
    case poll =>
      simp only [World.checkUpdates, hn] at hw
      cases hw; exact hn
    all_goals (cases hw; exact hn)

/-- **C121** The tracker sequencer does not start again: after a reset it writes nothing at all, in no block, whatever is done with the tracker, until a new
node is made. -/
theorem tseq_reset_silences (e : Ext C T R) (checked : Bool) (clockReset : C → C) (trigReset : T → T) (s : World × Node C T R) :
    ∀ (evs : List (TSeqNode.Ev R)) (s' : World × Node C T R), (∀ ev ∈ evs, Ordinary ev) → run e checked (tseqReset clockReset trigReset s) evs = some s' →
      ∀ (cmode : Int) (frames : List (ℚ × ℚ)), process e s'.1 s'.2 cmode frames = some (Outs.none, s'.1, s'.2) := by
  have main : ∀ (evs : List (TSeqNode.Ev R)) (t s' : World × Node C T R), t.1.backend = none → (∀ ev ∈ evs, Ordinary ev) → run e checked t evs = some s' →
      s'.1.backend = none := by
    intro evs
    induction evs with
    | nil => intro t s' hn _ h; cases h; exact hn
    | cons ev evs ih =>
      intro t s' hn ho h
      simp only [run] at h
      cases e1 : step e checked t ev with
      | none => rw [e1] at h; cases h
      | some q =>
        rw [e1] at h
        exact ih q s' (step_none e checked t q ev (ho ev (List.mem_cons_self ..)) hn e1) (fun x hx => ho x (List.mem_cons_of_mem _ hx)) h
  intro evs s' ho h cmode frames
  simp only [process, main evs (tseqReset clockReset trigReset s) s' rfl ho h]

end tseq

/-! ### The requirements can be met -/

/-- Parts that store the sample rate and what they are fed: a delay line of the values fed last, a clock that counts. -/
def exDelay : Delay.Ext (Option ℚ × List ℚ) Nat where
  newBuf := (none, [])
  resetBuf b := (b.1, [])
  rateBuf b r := (some r, b.2)
  feed b x := (b.1, x :: b.2)
  readAt b n := b.2.getD n 0
  readCubic b t := b.2.getD (t * b.1.getD 44100).floor.toNat 0
  newClock := 0
  resetClock _ := 0
  tickClock c x := if x > 1/2 then (0, c) else (c + 1, c)
  crossfade a b m := a * (1 - m) + b * m

theorem exDelay_parts : DelayParts exDelay (fun b o => b.1 = o) :=
  ⟨⟨rfl, fun _ _ _ _ => rfl, fun p o h => by cases h; obtain ⟨a, b⟩ := p; cases a <;> rfl, fun _ _ h => h⟩, fun _ _ _ h => h, fun _ => rfl⟩

/-- After a frame with 5 and a reset the delay plays silence, as a new one. -/
example : (delay exDelay).Forgets ∧
    (delay exDelay).plays (delay exDelay).new [.rate 10, .block (0, [⟨5, 0, 0, 0, 1⟩]), .reset, .block (0, [⟨7, 0, 0, 0, 1⟩, ⟨0, 0, 0, 0, 1⟩])] =
      some [[0], [0, 7]] ∧
    (delay exDelay).plays (delay exDelay).new [.rate 10, .block (0, [⟨5, 0, 0, 0, 1⟩]), .block (0, [⟨7, 0, 0, 0, 1⟩, ⟨0, 0, 0, 0, 1⟩])] =
      some [[0], [5, 7]] :=
  ⟨delay_forgets exDelay_parts, by decide +kernel, by decide +kernel⟩

/-- An oscillator: the phase it was made with and the phase it is at. -/
def exBlep : Osc.Blep (ℚ × ℚ) where
  new ph := (ph, ph)
  reset s := (s.1, s.1)
  sin s f i := ((s.1, s.2 + f * i), s.2)
  tri s f i := ((s.1, s.2 + f * i), s.2)
  saw s f i := ((s.1, s.2 + f * i), s.2)
  pulseNoDc s f i _ := ((s.1, s.2 + f * i), s.2)
  pulse s f i _ := ((s.1, s.2 + f * i), s.2)

theorem exBlep_parts : BlepParts exBlep (fun s ph => s.1 = ph) :=
  ⟨fun _ => rfl, fun s ph h => by cases h; rfl, fun _ _ _ _ h => h, fun _ _ _ _ h => h, fun _ _ _ _ h => h, fun _ _ _ _ _ h => h, fun _ _ _ _ _ h => h⟩

example : (bosc exBlep (1/3)).Forgets ∧
    (bosc exBlep (1/3)).plays (bosc exBlep (1/3)).new [.rate 10, .block (2, [⟨1, 0⟩, ⟨1, 0⟩]), .reset, .block (2, [⟨1, 0⟩])] =
      some [[1/3, 1/3 + 1/10], [1/3]] :=
  ⟨bosc_forgets exBlep_parts _, by decide +kernel⟩

/-- The second oscillator, with an oversampling that takes the last value. -/
def exVps : Osc.Vps (ℚ × ℚ) (Option ℚ × List ℚ) where
  new ph := (ph, ph)
  reset s := (s.1, s.1)
  limitV _ v := v
  next s f i _ _ := ((s.1, s.2 + f * i), s.2)
  distort x _ _ := x
  overNew := (none, [])
  overRate o r := (some r, o.2)
  overReset o := (o.1, [])
  down o l := ((o.1, l), l.getLastD 0)

theorem exVps_parts : VpsParts exVps (fun s ph => s.1 = ph) (fun p o => p.1 = o) :=
  ⟨fun _ => rfl, fun s ph h => by cases h; rfl, fun _ _ _ _ _ _ h => h,
    ⟨rfl, fun _ _ _ _ => rfl, fun p o h => by cases h; obtain ⟨a, b⟩ := p; cases a <;> rfl, fun _ _ h => h⟩, fun _ _ _ h => h⟩

example : (vosc exVps (1/3)).Forgets := vosc_forgets exVps_parts _

/-- An LFO: sample rate, phase, and the frequency and shape that a reset does not touch. -/
def exLfo : Reverb.Lfo (Option ℚ × ℚ × ℚ × ℚ) Unit where
  new := (none, 0, 0, 0)
  rate s r := (some r, s.2)
  reset s := (s.1, 0, s.2.2)
  set s f v := (s.1, s.2.1, f, v)
  next s := ((s.1, s.2.1 + s.2.2.1, s.2.2), s.2.1)
  trigNew := ()
  trigReset _ := ()
  check t x := (t, decide (x > 1/2))

theorem exLfo_parts : LfoParts exLfo (fun s o => s.1 = o) := by
  refine ⟨rfl, fun _ _ _ _ => rfl, fun _ _ _ _ h => h, fun _ _ h => h, fun _ _ h => h, ?_, ?_, ?_, fun _ => rfl⟩
  · intro s o h f v
    cases h
    obtain ⟨a, b⟩ := s
    cases a <;> rfl
  · intro a b h f v
    have := congrArg Prod.fst (h f v)
    simp only [exLfo] at this ⊢
    rw [this]
  · intro a b r h f v
    have := congrArg (fun x => x.2.1) (h f v)
    simp only [exLfo] at this ⊢
    rw [this]

example : (tslfo exLfo).Forgets ∧
    (tslfo exLfo).plays (tslfo exLfo).new [.block [⟨1000, 0, 0⟩, ⟨1000, 0, 0⟩], .reset, .block [⟨1000, 0, 0⟩]] = some [[0, 1], [0]] :=
  ⟨tslfo_forgets exLfo_parts, by decide +kernel⟩

/-- A string whose filter stores its two numbers and the last value. -/
def exString : BowStri.Ext (List ℚ) (ℚ × ℚ × ℚ) ℚ where
  delay := []
  delayReset _ := []
  read d s := d.getD s.floor.toNat 0
  feed d x := x :: d
  pole p g := (p, g, 0)
  poleReset f := (f.1, f.2.1, 0)
  poleNext f x := ((f.1, f.2.1, x), x * f.2.1 + f.2.2 * f.1)
  body := 0
  bodyReset _ := 0
  bodyNext b x := (x, b + x)
  hertz f o := f + o

theorem exString_parts : StringParts exString (fun f p g => f.1 = p ∧ f.2.1 = g) :=
  ⟨fun _ => rfl, fun _ => rfl, fun _ _ => ⟨rfl, rfl⟩, fun _ _ _ _ h => h, fun f p g h => by obtain ⟨rfl, rfl⟩ := h; rfl⟩

example : (bowstri exString).Forgets := bowstri_forgets exString_parts

/-- A quantizer that adds its keys and counts what it did; a change trigger that remembers the last pitch. -/
def exQuant : Quant.Ext ℚ (ℚ × Nat) (Option ℚ × ℚ) where
  quant := (0, 0)
  setKeys q k := (k, q.2)
  toPitch q x := ((q.1, q.2 + 1), x + q.1)
  lastKeyPitch _ := 0
  change := (none, 0)
  changeRate c r := (some r, c.2)
  changeReset c := (c.1, 0)
  changeNext c x := ((c.1, x), if x = c.2 then 0 else 1)

theorem exQuant_parts : QuantParts exQuant (fun q k => q.1 = k) (fun c o => c.1 = o) :=
  ⟨fun _ _ => rfl, fun _ _ _ h => h, fun q q' k x h h' => by cases h; simp only [exQuant] at h' ⊢; rw [h'],
    ⟨rfl, fun _ _ _ _ => rfl, fun p o h => by cases h; obtain ⟨a, b⟩ := p; cases a <;> rfl, fun _ _ h => h⟩, fun _ _ _ h => h⟩

example : (quant exQuant).Forgets ∧
    (quant exQuant).plays (quant exQuant).new [.block (1, [⟨1, 0⟩, ⟨1, 0⟩]), .reset, .block (1, [⟨1, 0⟩])] = some [[(2, 1), (2, 0)], [(2, 1)]] :=
  ⟨quant_forgets exQuant_parts, by decide +kernel⟩

/-- A noise and a sine example: after the reset both start again. -/
example : (noise ⟨fun x => x, fun s => (s + 1, (s % 10 : Nat))⟩ 0).plays (noise ⟨fun x => x, fun s => (s + 1, (s % 10 : Nat))⟩ 0).new
    [.block (1, [⟨1, 0⟩, ⟨1, 0⟩]), .reset, .block (1, [⟨1, 0⟩])] = some [([4, 5], 5), ([4], 4)] := by decide +kernel

example : (sin id 10 id (1/3)).plays (sin id 10 id (1/3)).new [.rate 10, .block [(1, 0), (1, 0)], .reset, .block [(1, 0)]] =
    some [[1/3, 1/3 + 1/10], [1/3]] := by decide +kernel

/-- A biquad filter that has played, is reset, and plays the same block: the hypotheses of `biqfilt_forgets_partial` are met. -/
example : ∃ s heard, (biqfilt exBiq).run (biqfilt exBiq).new [.rate 10, .block (biqBlock 1000)] = some (s, heard) ∧
    Same s (biqBlock 1000) ∧ Moved s (biqBlock 500) := by
  refine ⟨⟨[(1000, ()), (1000, ()), (1000, ()), (1000, ())], 10, 1000, 0, 0, 0⟩, [[1000]], ?_, ?_, ?_⟩
  · have h : BiqFilt.Node.process exBiq ((biqfilt exBiq).rate (biqfilt exBiq).new 10) (biqBlock 1000) =
      some ([1000], ⟨[(1000, ()), (1000, ()), (1000, ()), (1000, ())], 10, 1000, 0, 0, 0⟩) := by
      simp only [BiqFilt.Node.process, BiqFilt.Node.update]
      rw [if_pos (by decide +kernel)]
      simp [biqfilt, BiqFilt.Node.setSampleRate, BiqFilt.Node.new, exBiq, biqBlock, BiqFilt.asU8, BiqFilt.clampFreq, BiqFilt.loop, BiqFilt.through]
      norm_num
    simp only [Machine.run]
    rw [show (biqfilt exBiq).block ((biqfilt exBiq).rate (biqfilt exBiq).new 10) (biqBlock 1000) =
      (BiqFilt.Node.process exBiq ((biqfilt exBiq).rate (biqfilt exBiq).new 10) (biqBlock 1000)).map (fun r => (r.2, r.1)) from rfl, h]
    rfl
  · unfold Same; decide +kernel
  · unfold Moved; decide +kernel

/-- A tracker that is edited and played after the reset. -/
example : ∀ ev ∈ ([.op (.setCell 0 0 5), .op .send, .block 0 [(0, 0)]] : List (TSeqNode.Ev Nat)), Ordinary ev := by
  intro ev h
  simp only [List.mem_cons, List.not_mem_nil, or_false] at h
  rcases h with rfl | rfl | rfl <;> trivial

end HexoDSP.ResetProps
