import Verif.Spec.Delay
import Mathlib.Tactic.Linarith
import Mathlib.Tactic.Ring
import Mathlib.Tactic.FieldSimp
import Mathlib.Algebra.Order.Ring.Abs
import Mathlib.Algebra.Order.Archimedean.Basic
import Mathlib.Data.Rat.Floor
/-! The delay node. -/

namespace HexoDSP.DelayProps
open HexoDSP.Delay DelaySpec

variable {B C : Type}

theorem clamp_range (x : ℚ) : 0 ≤ clamp 0 1 x ∧ clamp 0 1 x ≤ 1 := by
  unfold clamp
  split
  · exact ⟨le_refl _, by norm_num⟩
  · split
    · exact ⟨by norm_num, le_refl _⟩
    · exact ⟨by linarith, by linarith⟩

theorem clamp_low {x : ℚ} (h : x ≤ 0) : clamp 0 1 x = 0 := by
  unfold clamp
  split
  · rfl
  · rw [if_neg (by linarith)]; linarith

theorem clamp_high {x : ℚ} (h : 1 ≤ x) : clamp 0 1 x = 1 := by
  unfold clamp
  rw [if_neg (by linarith)]
  split
  · rfl
  · linarith

theorem process_dry {E : Ext B C} (hE : Mixer E) (mode : Int) (fs : List Frame) : ∀ n : Node B C, (∀ f ∈ fs, f.mix ≤ 0) →
    (n.process E mode fs).2 = fs.map (fun f => f.inp) := by
  induction fs with
  | nil => intro n _; rfl
  | cons f fs ih =>
    intro n h
    simp only [Node.process, List.map_cons]
    rw [ih _ (fun x hx => h x (by simp [hx]))]
    congr 1
    unfold tick
    rw [clamp_low (h f (by simp))]
    split <;> exact hE.dry _ _

theorem run_dry {E : Ext B C} (hE : Mixer E) (es : List Ev) : ∀ n : Node B C, (∀ f ∈ allFrames es, f.mix ≤ 0) →
    run E n es = (allFrames es).map (fun f => f.inp) := by
  induction es with
  | nil => intro n _; rfl
  | cons e es ih =>
    intro n h
    have h1 : ∀ f ∈ allFrames es, f.mix ≤ 0 := fun f hf => h f (by simp only [allFrames, List.map_cons, List.flatten_cons]; exact List.mem_append_right _ hf)
    simp only [run]
    rw [ih _ h1]
    cases e with
    | reset => rfl
    | rate r => rfl
    | block mode fs =>
      have h2 : ∀ f ∈ fs, f.mix ≤ 0 := fun f hf => h f (by simp only [allFrames, List.map_cons, List.flatten_cons]; exact List.mem_append_left _ hf)
      simp only [Node.step, process_dry hE mode fs n h2, allFrames, List.map_cons, List.flatten_cons, frames, List.map_append]

/-- **C100** (dry) With the mix at 0 or below the delay plays its input unchanged, in every frame of every history. -/
theorem dry_is_the_input {E : Ext B C} (hE : Mixer E) (es : List Ev) (h : ∀ f ∈ allFrames es, f.mix ≤ 0) :
    run E (Node.new E) es = (allFrames es).map (fun f => f.inp) := run_dry hE es _ h

theorem process_wet {E : Ext B C} (hE : Mixer E) (fs : List Frame) : ∀ n : Node B C, (∀ f ∈ fs, 1 ≤ f.mix ∧ f.fb = 0) →
    (n.process E 0 fs).2 = fs.mapIdx (fun j f => E.readCubic ((fs.take j).foldl (fun b f => E.feed b f.inp) n.buffer) f.time) ∧
      (n.process E 0 fs).1.buffer = fs.foldl (fun b f => E.feed b f.inp) n.buffer := by
  induction fs with
  | nil => intro n _; exact ⟨rfl, rfl⟩
  | cons f fs ih =>
    intro n h
    obtain ⟨h1, h2⟩ := h f (by simp)
    have ht : tick E 0 n f = ({ n with buffer := E.feed n.buffer f.inp }, E.readCubic n.buffer f.time) := by
      unfold tick
      simp only [if_true, clamp_high h1, hE.wet, h2, mul_zero, add_zero]
    simp only [Node.process, ht]
    obtain ⟨h3, h4⟩ := ih { n with buffer := E.feed n.buffer f.inp } (fun x hx => h x (by simp [hx]))
    refine ⟨?_, by rw [h4]; rfl⟩
    rw [h3, List.mapIdx_cons]
    rfl

theorem run_wet {E : Ext B C} (hE : Mixer E) (es : List Ev) : ∀ n : Node B C, (∀ f ∈ allFrames es, 1 ≤ f.mix ∧ f.fb = 0) →
    (∀ m fs, Ev.block m fs ∈ es → m = 0) → run E n es = delayed E n.buffer es := by
  induction es with
  | nil => intro n _ _; rfl
  | cons e es ih =>
    intro n h hm
    have h1 : ∀ f ∈ allFrames es, 1 ≤ f.mix ∧ f.fb = 0 := fun f hf => h f (by simp only [allFrames, List.map_cons, List.flatten_cons]; exact List.mem_append_right _ hf)
    have hm1 : ∀ m fs, Ev.block m fs ∈ es → m = 0 := fun m fs hx => hm m fs (by simp [hx])
    simp only [run]
    rw [ih _ h1 hm1]
    cases e with
    | reset => rfl
    | rate r => rfl
    | block mode fs =>
      have h2 : ∀ f ∈ fs, 1 ≤ f.mix ∧ f.fb = 0 := fun f hf => h f (by simp only [allFrames, List.map_cons, List.flatten_cons]; exact List.mem_append_left _ hf)
      have h0 := hm mode fs (by simp)
      subst h0
      obtain ⟨h3, h4⟩ := process_wet hE fs n h2
      simp only [Node.step, delayed, h3, h4]

/-- **C100** (delayed) With the mix at 1, no feedback and in time mode the delay plays the input of earlier frames, delayed by the time asked for. -/
theorem wet_is_the_delayed_input {E : Ext B C} (hE : Mixer E) (es : List Ev) (h : ∀ f ∈ allFrames es, 1 ≤ f.mix ∧ f.fb = 0)
    (hm : ∀ m fs, Ev.block m fs ∈ es → m = 0) : run E (Node.new E) es = delayed E E.newBuf es := run_wet hE es _ h hm

theorem process_clocked {E : Ext B C} (hE : Mixer E) {mode : Int} (hm : mode ≠ 0) (fs : List Frame) : ∀ n : Node B C, (∀ f ∈ fs, 1 ≤ f.mix ∧ f.fb = 0) →
    (n.process E mode fs).2 = fs.mapIdx (fun j f => E.readAt ((fs.take j).foldl (fun b f => E.feed b f.inp) n.buffer)
      (E.tickClock ((fs.take j).foldl (fun c f => (E.tickClock c f.trig).1) n.clock) f.trig).2) ∧
      (n.process E mode fs).1 = ⟨fs.foldl (fun b f => E.feed b f.inp) n.buffer, fs.foldl (fun c f => (E.tickClock c f.trig).1) n.clock⟩ := by
  induction fs with
  | nil => intro n _; exact ⟨rfl, rfl⟩
  | cons f fs ih =>
    intro n h
    obtain ⟨h1, h2⟩ := h f (by simp)
    have ht : tick E mode n f = (⟨E.feed n.buffer f.inp, (E.tickClock n.clock f.trig).1⟩, E.readAt n.buffer (E.tickClock n.clock f.trig).2) := by
      unfold tick
      simp only [hm, if_false, clamp_high h1, hE.wet, h2, mul_zero, add_zero]
    simp only [Node.process, ht]
    obtain ⟨h3, h4⟩ := ih ⟨E.feed n.buffer f.inp, (E.tickClock n.clock f.trig).1⟩ (fun x hx => h x (by simp [hx]))
    refine ⟨?_, by rw [h4]; rfl⟩
    rw [h3, List.mapIdx_cons]
    rfl

theorem run_clocked {E : Ext B C} (hE : Mixer E) (es : List Ev) : ∀ n : Node B C, (∀ f ∈ allFrames es, 1 ≤ f.mix ∧ f.fb = 0) →
    (∀ m fs, Ev.block m fs ∈ es → m ≠ 0) → run E n es = clocked E n.buffer n.clock es := by
  induction es with
  | nil => intro n _ _; rfl
  | cons e es ih =>
    intro n h hm
    have h1 : ∀ f ∈ allFrames es, 1 ≤ f.mix ∧ f.fb = 0 := fun f hf => h f (by simp only [allFrames, List.map_cons, List.flatten_cons]; exact List.mem_append_right _ hf)
    have hm1 : ∀ m fs, Ev.block m fs ∈ es → m ≠ 0 := fun m fs hx => hm m fs (by simp [hx])
    simp only [run]
    rw [ih _ h1 hm1]
    cases e with
    | reset => rfl
    | rate r => rfl
    | block mode fs =>
      have h2 : ∀ f ∈ fs, 1 ≤ f.mix ∧ f.fb = 0 := fun f hf => h f (by simp only [allFrames, List.map_cons, List.flatten_cons]; exact List.mem_append_left _ hf)
      obtain ⟨h3, h4⟩ := process_clocked hE (hm mode fs (by simp)) fs n h2
      simp only [Node.step, clocked, h3, h4]

/-- **C100** (clocked) With the mix at 1, no feedback and in a mode other than time the delay plays the input of as many frames ago as the clock tells, which
has seen the trigger of every frame up to this one. -/
theorem wet_follows_the_clock {E : Ext B C} (hE : Mixer E) (es : List Ev) (h : ∀ f ∈ allFrames es, 1 ≤ f.mix ∧ f.fb = 0)
    (hm : ∀ m fs, Ev.block m fs ∈ es → m ≠ 0) : run E (Node.new E) es = clocked E E.newBuf E.newClock es := run_clocked hE es _ h hm

/-- **C100** (later) With the mix at 1 the input of a frame is not heard in that frame, whatever feedback and mode are. -/
theorem wet_comes_later {E : Ext B C} (hE : Mixer E) (mode : Int) (n : Node B C) (f : Frame) (x : ℚ) (h : 1 ≤ f.mix) :
    (tick E mode n { f with inp := x }).2 = (tick E mode n f).2 := by
  unfold tick
  simp only [clamp_high h, hE.wet]
  split <;> rfl

/-! ### Bounds -/

theorem tick_bound {E : Ext B C} {g : ℚ} {Within : ℚ → B → Prop} (hE : Mixer E) (hL : Line E g Within)
    {M q L : ℚ} (hL1 : M + g * L * q ≤ L) (mode : Int) {n : Node B C} (hn : Within L n.buffer)
    {f : Frame} (hi : |f.inp| ≤ M) (hf : |f.fb| ≤ q) :
    Within L (tick E mode n f).1.buffer ∧ |(tick E mode n f).2| ≤ max M (g * L) := by
  have key : ∀ out, |out| ≤ g * L → |f.inp + out * f.fb| ≤ L := by
    intro out ho
    have h1 : |out * f.fb| ≤ g * L * q := by
      rw [abs_mul]
      exact mul_le_mul ho hf (abs_nonneg _) (le_trans (abs_nonneg _) ho)
    have h2 := abs_add_le f.inp (out * f.fb)
    linarith
  have key2 : ∀ out, |out| ≤ g * L → |E.crossfade f.inp out (clamp 0 1 f.mix)| ≤ max M (g * L) := by
    intro out ho
    obtain ⟨c1, c2⟩ := clamp_range f.mix
    exact le_trans (hE.between _ _ _ c1 c2) (max_le_max hi ho)
  unfold tick
  simp only
  split
  · have ho := hL.readCubic L n.buffer f.time hn
    exact ⟨hL.feed _ _ _ hn (key _ ho), key2 _ ho⟩
  · have ho := hL.readAt L n.buffer (E.tickClock n.clock f.trig).2 hn
    exact ⟨hL.feed _ _ _ hn (key _ ho), key2 _ ho⟩

theorem process_bound {E : Ext B C} {g : ℚ} {Within : ℚ → B → Prop} (hE : Mixer E) (hL : Line E g Within)
    {M q L : ℚ} (hL1 : M + g * L * q ≤ L) (mode : Int) (fs : List Frame) : ∀ {n : Node B C}, Within L n.buffer →
    (∀ f ∈ fs, |f.inp| ≤ M ∧ |f.fb| ≤ q) →
    Within L (n.process E mode fs).1.buffer ∧ ∀ x ∈ (n.process E mode fs).2, |x| ≤ max M (g * L) := by
  induction fs with
  | nil => intro n hn _; exact ⟨hn, fun x hx => by cases hx⟩
  | cons f fs ih =>
    intro n hn h
    obtain ⟨h1, h2⟩ := h f (by simp)
    obtain ⟨b1, b2⟩ := tick_bound hE hL hL1 mode hn h1 h2
    obtain ⟨b3, b4⟩ := ih (n := (tick E mode n f).1) b1 (fun x hx => h x (by simp [hx]))
    simp only [Node.process]
    refine ⟨b3, fun x hx => ?_⟩
    rcases List.mem_cons.1 hx with h | h
    · rw [h]; exact b2
    · exact b4 x h

theorem run_bound {E : Ext B C} {g : ℚ} {Within : ℚ → B → Prop} (hE : Mixer E) (hL : Line E g Within)
    {M q L : ℚ} (hL0 : 0 ≤ L) (hL1 : M + g * L * q ≤ L) (es : List Ev) : ∀ {n : Node B C}, Within L n.buffer →
    (∀ f ∈ allFrames es, |f.inp| ≤ M ∧ |f.fb| ≤ q) → ∀ x ∈ run E n es, |x| ≤ max M (g * L) := by
  induction es with
  | nil => intro n _ _ x hx; cases hx
  | cons e es ih =>
    intro n hn h
    have h1 : ∀ f ∈ allFrames es, |f.inp| ≤ M ∧ |f.fb| ≤ q := fun f hf => h f (by simp only [allFrames, List.map_cons, List.flatten_cons]; exact List.mem_append_right _ hf)
    simp only [run]
    intro x hx
    cases e with
    | reset => exact ih (n := n.reset E) (hL.reset L _ hL0) h1 x hx
    | rate r => exact ih (n := n.setSampleRate E r) (hL.rate L _ r hn) h1 x hx
    | block mode fs =>
      have h2 : ∀ f ∈ fs, |f.inp| ≤ M ∧ |f.fb| ≤ q := fun f hf => h f (by simp only [allFrames, List.map_cons, List.flatten_cons]; exact List.mem_append_left _ hf)
      obtain ⟨b1, b2⟩ := process_bound hE hL hL1 mode fs hn h2
      rcases List.mem_append.1 hx with h | h
      · exact b2 x h
      · exact ih b1 h1 x h

/-- **C100** (bounded, partial) As long as the feedback times what the line may amplify stays below 1, the output never gets louder than the input divided
by what is missing to 1, in both modes, for all times, triggers and mixes, however they are modulated. The English property asks this for every setting of
the feedback knob, which is false (`full_feedback_grows`). -/
theorem stays_bounded_partial {E : Ext B C} {g : ℚ} {Within : ℚ → B → Prop} (hE : Mixer E) (hL : Line E g Within) (hg : 1 ≤ g)
    {M q : ℚ} (hM : 0 ≤ M) (hq : 0 ≤ q) (hgq : g * q < 1) (es : List Ev)
    (h : ∀ f ∈ allFrames es, |f.inp| ≤ M ∧ |f.fb| ≤ q) : ∀ x ∈ run E (Node.new E) es, |x| ≤ g * M / (1 - g * q) := by
  have hd : 0 < 1 - g * q := by linarith
  have hL0 : 0 ≤ M / (1 - g * q) := div_nonneg hM hd.le
  have hL1 : M + g * (M / (1 - g * q)) * q ≤ M / (1 - g * q) := by
    have : M / (1 - g * q) * (1 - g * q) = M := div_mul_cancel₀ M hd.ne'
    nlinarith
  intro x hx
  have hb := run_bound hE hL hL0 hL1 es (n := Node.new E) (hL.new _ hL0) h x hx
  have e1 : g * (M / (1 - g * q)) = g * M / (1 - g * q) := by ring
  rw [e1] at hb
  refine le_trans hb (max_le ?_ (le_refl _))
  rw [le_div_iff₀ hd]
  have : 0 ≤ g * q := mul_nonneg (by linarith) hq
  nlinarith

/-! ### A delay line that meets the assumptions -/

/-- The line is the list of what it was fed, the latest first; reading past the beginning gives 0. The time is in frames and rounded. -/
def exE : Ext (List ℚ) Unit where
  newBuf := []
  resetBuf := fun _ => []
  rateBuf := fun b _ => b
  feed := fun b x => x :: b
  readAt := fun b k => (b[k]?).getD 0
  readCubic := fun b t => (b[t.floor.toNat]?).getD 0
  newClock := ()
  resetClock := fun _ => ()
  tickClock := fun _ _ => ((), 0)
  crossfade := fun a b t => a * (1 - t) + b * t

theorem exMixer : Mixer exE where
  dry := fun a b => by simp [exE]
  wet := fun a b => by simp [exE]
  between := fun a b t h0 h1 => by
    have e1 : |a * (1 - t)| = |a| * (1 - t) := by rw [abs_mul, abs_of_nonneg (show (0:ℚ) ≤ 1 - t by linarith)]
    have e2 : |b * t| = |b| * t := by rw [abs_mul, abs_of_nonneg h0]
    have h2 := abs_add_le (a * (1 - t)) (b * t)
    have ha := le_max_left |a| |b|
    have hb := le_max_right |a| |b|
    have h3 : |a| * (1 - t) ≤ max |a| |b| * (1 - t) := mul_le_mul_of_nonneg_right ha (by linarith)
    have h4 : |b| * t ≤ max |a| |b| * t := mul_le_mul_of_nonneg_right hb h0
    show |a * (1 - t) + b * t| ≤ _
    calc |a * (1 - t) + b * t| ≤ |a| * (1 - t) + |b| * t := by rw [e1, e2] at h2; exact h2
      _ ≤ max |a| |b| * (1 - t) + max |a| |b| * t := add_le_add h3 h4
      _ = max |a| |b| := by ring

theorem exRead {M : ℚ} {b : List ℚ} (h : 0 ≤ M ∧ ∀ x ∈ b, |x| ≤ M) (k : Nat) : |(b[k]?).getD 0| ≤ 1 * M := by
  rw [one_mul]
  cases hk : b[k]? with
  | none => simpa using h.1
  | some x => exact h.2 x (List.mem_of_getElem? hk)

theorem exLine : Line exE 1 (fun M b => 0 ≤ M ∧ ∀ x ∈ b, |x| ≤ M) where
  new := fun M h => ⟨h, fun x hx => by cases hx⟩
  reset := fun M b h => ⟨h, fun x hx => by cases hx⟩
  rate := fun M b r h => h
  feed := fun M b x h hx => ⟨h.1, fun y hy => by
    rcases List.mem_cons.1 hy with e | e
    · rw [e]; exact hx
    · exact h.2 y e⟩
  readAt := fun M b k h => exRead h k
  readCubic := fun M b t h => exRead h _

/-- A frame with the input at 1, the feedback and the mix turned up. -/
def full : Frame := { inp := 1, trig := 0, time := 0, fb := 1, mix := 1 }

theorem full_run (k : Nat) : ∀ (b : List ℚ), ((Node.process exE 0 ⟨b, ()⟩ (List.replicate (k + 1) full)).2).getLast? = some (b.head?.getD 0 + k) := by
  induction k with
  | zero =>
    intro b
    simp only [List.replicate, Node.process]
    unfold tick
    simp only [if_true]
    have : clamp 0 1 full.mix = 1 := by decide +kernel
    rw [this]
    cases b with
    | nil => simp [exE, full]
    | cons a b =>
      have hz : (Rat.floor 0).toNat = 0 := by decide +kernel
      simp [exE, full, hz]
  | succ k ih =>
    intro b
    rw [List.replicate_succ]
    simp only [Node.process]
    have ht : (tick exE 0 ⟨b, ()⟩ full).1 = ⟨(1 + b.head?.getD 0) :: b, ()⟩ := by
      unfold tick
      cases b with
      | nil => simp [exE, full]
      | cons a b =>
        have hz : (Rat.floor 0).toNat = 0 := by decide +kernel
        simp [exE, full, hz]
    rw [ht]
    have := ih ((1 + b.head?.getD 0) :: b)
    rw [List.getLast?_cons, this]
    simp only [List.head?_cons, Option.getD_some, Option.some.injEq]
    push_cast
    ring

/-- **C100** The English property (bounded for every setting of the knobs) is false: with the feedback at 1, which is the right end of the knob, an input that
stays at 1 makes the output louder than any bound. -/
theorem full_feedback_grows (K : ℚ) : ∃ es : List Ev, (∀ f ∈ allFrames es, |f.inp| ≤ 1 ∧ |f.fb| ≤ 1 ∧ 0 ≤ f.mix ∧ f.mix ≤ 1) ∧
    ∃ x ∈ run exE (Node.new exE) es, K < x := by
  obtain ⟨k, hk⟩ := exists_nat_gt K
  refine ⟨[.block 0 (List.replicate (k + 1) full)], ?_, (k : ℚ), ?_, hk⟩
  · intro f hf
    simp only [allFrames, List.map_cons, List.map_nil, List.flatten_cons, List.flatten_nil, List.append_nil, frames] at hf
    rw [List.eq_of_mem_replicate hf]
    refine ⟨?_, ?_, ?_, ?_⟩ <;> simp [full]
  · have := full_run k []
    simp only [run, Node.step, List.append_nil]
    have h2 := List.mem_of_getLast? this
    have h3 : (k : ℚ) ∈ (Node.process exE 0 ⟨[], ()⟩ (List.replicate (k + 1) full)).2 := by simpa using h2
    exact h3

/-! ### The hypotheses are met -/

def exFrame (x fb mix : ℚ) : Frame := { inp := x, trig := 0, time := 1, fb := fb, mix := mix }

/-- A history with both modes, feedback and a reset; the echo comes two frames later. -/
example : run exE (Node.new exE) [.block 0 [exFrame 1 (1/2) 1, exFrame 0 (1/2) 1], .block 0 [exFrame 0 (1/2) 1, exFrame 0 (1/2) 1, exFrame 0 (1/2) 1],
    .reset, .block 1 [exFrame 0 0 1]] = [0, 0, 1, 0, 1/2, 0] := by decide +kernel

example : ∀ x ∈ run exE (Node.new exE) [.block 0 [exFrame 1 (1/2) 1, exFrame (-1) (-1/2) 1], .block 1 [exFrame 1 (1/2) (1/2)]], |x| ≤ 1 * 1 / (1 - 1 * (1/2)) := by
  refine stays_bounded_partial exMixer exLine (le_refl _) (by norm_num) (by norm_num) (by norm_num) _ ?_
  intro f hf
  simp only [allFrames, frames, List.map_cons, List.map_nil, List.flatten_cons, List.flatten_nil, List.append_nil, List.cons_append, List.nil_append,
    List.mem_cons, List.not_mem_nil, or_false] at hf
  rcases hf with rfl | rfl | rfl <;> (refine ⟨?_, ?_⟩ <;> simp [exFrame, abs_le] <;> norm_num)

end HexoDSP.DelayProps
