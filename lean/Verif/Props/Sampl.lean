import Verif.Lemmas.SamplDeclick

/-!
# Sample playback (C79, C80)

The blocks of frames are arbitrary: what is proved about a session holds for every way of
cutting the same frames into blocks.
-/

namespace HexoDSP.SamplProps

open HexoDSP.Sampl

variable (interp : List ℚ → ℕ → ℚ → ℚ) (checked : Bool) (srate ms : ℚ)

/-- **C79**: with declicking off, and in release builds always, playing never panics, whatever the
inputs do, and writes one value for each frame. -/
theorem playback_never_panics {k : Knobs} (h : k.dclick ≠ 1 ∨ checked = false)
    (bs : List (List Frame)) (hb : ∀ b ∈ bs, b ≠ []) (st : St) :
    ∃ st' out, session interp checked srate ms k st bs = some (st', out) ∧
      out.length = bs.flatten.length := by
  rcases hk : k.sample with _ | l
  · induction bs generalizing st with
    | nil => exact ⟨st, [], rfl, rfl⟩
    | cons b bs ih =>
      obtain ⟨st', out, h1, h2⟩ := ih (fun b' hb' => hb b' (List.mem_cons_of_mem _ hb')) { st with last := 0 }
      have hb0 := hb b List.mem_cons_self
      cases b with
      | nil => exact absurd rfl hb0
      | cons f b =>
        refine ⟨st', ((f :: b).map fun _ => 0) ++ out, ?_, by simp [h2]⟩
        simp only [session, process, hk, Option.map_some, andThen, h1]
  · by_cases hl : l.length < 3
    · induction bs generalizing st with
      | nil => exact ⟨st, [], rfl, rfl⟩
      | cons b bs ih =>
        obtain ⟨st', out, h1, h2⟩ := ih (fun b' hb' => hb b' (List.mem_cons_of_mem _ hb')) { st with last := 0 }
        refine ⟨st', (b.map fun _ => 0) ++ out, ?_, by simp [h2]⟩
        simp only [session, process, hk, if_pos hl, Option.map_some, andThen, h1]
    · have h1 := run_isSome (c := cfgOf interp checked srate ms k l)
        (h.imp (by simp [cfgOf]) (by simp [cfgOf])) bs.flatten st
      rw [session_run hk (by omega) bs st hb]
      obtain ⟨r, hr⟩ := Option.isSome_iff_exists.1 h1
      exact ⟨r.1, r.2, hr, run_length hr⟩

/-- **C79**: the output depends on the recording only through places inside of the played part. -/
theorem reads_inside {interp' : List ℚ → ℕ → ℚ → ℚ}
    (h : ∀ d i f, i < d.length → 0 ≤ f → f ≤ 1 → interp d i f = interp' d i f)
    {k : Knobs} {l : List ℚ} (hk : k.sample = some l) (hl : 3 ≤ l.length)
    (bs : List (List Frame)) (hb : ∀ b ∈ bs, b ≠ []) (st : St) :
    session interp' checked srate ms k st bs = session interp checked srate ms k st bs := by
  rw [session_run hk hl bs st hb, session_run hk hl bs st hb]
  exact run_valid (c := cfgOf interp checked srate ms k l) (g := interp') h bs.flatten st

/-- **C79**: how the frames are cut into blocks does not matter. -/
theorem blocks_do_not_matter {k : Knobs} {l : List ℚ} (hk : k.sample = some l) (hl : 3 ≤ l.length)
    {bs bs' : List (List Frame)} (hb : ∀ b ∈ bs, b ≠ []) (hb' : ∀ b ∈ bs', b ≠ [])
    (h : bs.flatten = bs'.flatten) (st : St) :
    session interp checked srate ms k st bs = session interp checked srate ms k st bs' := by
  rw [session_run hk hl bs st hb, session_run hk hl bs' st hb', h]

/-- **C79**: in loop mode a trigger starts the chosen part of the recording, and it is repeated
forever at the speed of the frequency input. -/
theorem loop_plays {k : Knobs} {rate : ℚ} {rec : List ℚ} (hk : k.sample = some (rate :: rec))
    (hl : 2 ≤ rec.length) (hm : k.pmode = 0) (hd : k.dclick ≠ 1) (hr : 0 ≤ rate / srate)
    {bs : List (List Frame)} (hb : ∀ b ∈ bs, b ≠ []) {o le : ℚ} (h1 : OneTrigger o le bs.flatten)
    (hv : Forward bs.flatten) (st : St) :
    ∃ st' out, session interp checked srate ms k st bs = some (st', out) ∧
      out.length = bs.flatten.length ∧
      ∀ n, n < bs.flatten.length → out[n]? = some
        (soundAt interp (decide (k.dir = 1)) (part rec o le) (moved (rate / srate) bs.flatten n)) := by
  rw [session_run hk (by simp; omega) bs st hb]
  generalize bs.flatten = fs at h1 hv
  have hdc : (cfgOf interp checked srate ms k (rate :: rec)).declick = false := by simp [cfgOf, hd]
  rcases one_trigger_head h1 with rfl | ⟨f, rest, rfl, ht, hrest⟩
  · exact ⟨st, [], rfl, rfl, by intro n h; simp at h⟩
  · rw [run_trig hdc ht]
    obtain ⟨st', h2⟩ := run_loop (c := cfgOf interp checked srate ms k (rate :: rec)) hdc
      (by simp [cfgOf, hm]) (by simpa [cfgOf] using hr) (o := o) (le := le)
      ({ f with trig := false } :: rest) (st := ⟨0, true, 0, 0⟩) (x := 0)
      (by
        intro g hg
        rcases List.mem_cons.1 hg with rfl | hg
        · have := h1.1 f List.mem_cons_self
          exact ⟨this.1, this.2, hv f List.mem_cons_self, rfl⟩
        · have := h1.1 g (List.mem_cons_of_mem _ hg)
          exact ⟨this.1, this.2, hv g (List.mem_cons_of_mem _ hg), hrest g hg⟩)
      (Or.inr ⟨le_refl _, 0, by simp⟩)
    refine ⟨st', _, h2, by simpa using run_length h2, ?_⟩
    intro n hn
    rw [List.getElem?_map, heads_get _ _ _ n (by simpa using hn)]
    simp only [Option.map_some, zero_add, moved_trig]
    simp [cfgOf]

/-- **C79**: in one shot mode a trigger plays the chosen part of the recording once and then the node
is silent, if the speed is less than the length of the part.
What is missing: one more value is played after the end (`one_shot_plays_past_end`), and faster
playback does not end (`one_shot_never_ends`). -/
theorem one_shot_plays_partial {k : Knobs} {rate : ℚ} {rec : List ℚ}
    (hk : k.sample = some (rate :: rec))
    (hl : 2 ≤ rec.length) (hm : k.pmode ≠ 0) (hd : k.dclick ≠ 1) (hr : 0 ≤ rate / srate)
    {bs : List (List Frame)} (hb : ∀ b ∈ bs, b ≠ []) {o le : ℚ} (h1 : OneTrigger o le bs.flatten)
    (hv : Forward bs.flatten)
    (hs : ∀ f ∈ bs.flatten, rate / srate * f.speed < (part rec o le).length) (st : St) :
    ∃ st' out, session interp checked srate ms k st bs = some (st', out) ∧
      out.length = bs.flatten.length ∧
      ∀ n, n < bs.flatten.length → out[n]? = some
        (if n = 0 ∨ moved (rate / srate) bs.flatten (n - 1) < (part rec o le).length then
          soundAt interp (decide (k.dir = 1)) (part rec o le) (moved (rate / srate) bs.flatten n)
        else 0) := by
  rw [session_run hk (by simp; omega) bs st hb]
  generalize bs.flatten = fs at h1 hv hs
  have hdc : (cfgOf interp checked srate ms k (rate :: rec)).declick = false := by simp [cfgOf, hd]
  rcases one_trigger_head h1 with rfl | ⟨f, rest, rfl, ht, hrest⟩
  · exact ⟨st, [], rfl, rfl, by intro n h; simp at h⟩
  · rw [run_trig hdc ht]
    have hpos : (0 : ℚ) < (part rec o le).length := by
      have h3 := hs f List.mem_cons_self
      have h4 := mul_nonneg hr (hv f List.mem_cons_self)
      linarith
    obtain ⟨st', h2⟩ := run_shot (c := cfgOf interp checked srate ms k (rate :: rec)) hdc
      (by simp [cfgOf, hm]) (by simpa [cfgOf] using hr) (o := o) (le := le)
      ({ f with trig := false } :: rest) (st := ⟨0, true, 0, 0⟩)
      (by
        intro g hg
        rcases List.mem_cons.1 hg with rfl | hg
        · have := h1.1 f List.mem_cons_self
          exact ⟨this.1, this.2, hv f List.mem_cons_self, rfl, by
            simpa [cfgOf] using hs f List.mem_cons_self⟩
        · have := h1.1 g (List.mem_cons_of_mem _ hg)
          exact ⟨this.1, this.2, hv g (List.mem_cons_of_mem _ hg), hrest g hg, by
            simpa [cfgOf] using hs g (List.mem_cons_of_mem _ hg)⟩)
      rfl (le_refl _) (by simp only [cfgOf, List.tail_cons]; linarith)
    refine ⟨st', _, h2, by simpa using run_length h2, ?_⟩
    intro n hn
    rw [shot_get _ _ (by simpa [cfgOf] using hr) _ _ n _ (by simpa using hn)]
    · simp only [zero_add, moved_trig]
      simp [cfgOf]
    · intro g hg
      rcases List.mem_cons.1 hg with rfl | hg
      · exact hv f List.mem_cons_self
      · exact hv g (List.mem_cons_of_mem _ hg)

/-- A recording of four samples at the rate of the engine. -/
def four (pmode dclick : ℤ) : Knobs := ⟨some [1, 1 / 2, 1 / 3, 1 / 4, 1 / 5], pmode, dclick, 0⟩

/-- No interpolation. -/
def nearest : List ℚ → ℕ → ℚ → ℚ := fun d i _ => d.getD i 0

/-- A trigger followed by frames without. -/
def ring (speed len : ℚ) (n : ℕ) : List Frame :=
  ⟨true, speed, 0, len⟩ :: List.replicate n ⟨false, speed, 0, len⟩

/-- **C79** violated: one shot mode plays the beginning of the recording again for one frame,
after it played the whole of it. -/
theorem one_shot_plays_past_end :
    (session nearest true 1 0 (four 1 0) St.init [ring 1 1 6]).map (·.2) =
      some [1 / 2, 1 / 3, 1 / 4, 1 / 5, 1 / 2, 0, 0] := by
  decide +kernel

/-- **C79** violated: if one frame advances by just the length of the part, one shot mode plays
the first value of the part forever. -/
theorem one_shot_never_ends {k : Knobs} {rate : ℚ} {rec : List ℚ}
    (hk : k.sample = some (rate :: rec)) (hl : 2 ≤ rec.length) (hd : k.dclick ≠ 1)
    {bs : List (List Frame)} (hb : ∀ b ∈ bs, b ≠ []) {o le : ℚ} (h1 : OneTrigger o le bs.flatten)
    (hp : part rec o le ≠ [])
    (hs : ∀ f ∈ bs.flatten, rate / srate * f.speed = (part rec o le).length) (st : St) :
    ∃ st', session interp checked srate ms k st bs = some (st', bs.flatten.map fun _ =>
      soundAt interp (decide (k.dir = 1)) (part rec o le) 0) := by
  rw [session_run hk (by simp; omega) bs st hb]
  generalize bs.flatten = fs at h1 hs
  have hdc : (cfgOf interp checked srate ms k (rate :: rec)).declick = false := by simp [cfgOf, hd]
  rcases one_trigger_head h1 with rfl | ⟨f, rest, rfl, ht, hrest⟩
  · exact ⟨st, rfl⟩
  · rw [run_trig hdc ht]
    obtain ⟨st', h2, -⟩ := run_stuck (c := cfgOf interp checked srate ms k (rate :: rec)) hdc
      (o := o) (le := le) (by simpa [cfgOf] using hp)
      ({ f with trig := false } :: rest) (st := ⟨0, true, 0, 0⟩)
      (by
        intro g hg
        rcases List.mem_cons.1 hg with rfl | hg
        · have := h1.1 f List.mem_cons_self
          exact ⟨this.1, this.2, rfl, by simpa [cfgOf] using hs f List.mem_cons_self⟩
        · have := h1.1 g (List.mem_cons_of_mem _ hg)
          exact ⟨this.1, this.2, hrest g hg, by simpa [cfgOf] using hs g (List.mem_cons_of_mem _ hg)⟩)
      rfl (Or.inl rfl)
    refine ⟨st', ?_⟩
    rw [h2]
    simp [cfgOf]

/-- **C79**: a node that was not triggered is silent in one shot mode. -/
theorem one_shot_waits {k : Knobs} {l : List ℚ} (hk : k.sample = some l) (hl : 3 ≤ l.length)
    (hm : k.pmode ≠ 0) {bs : List (List Frame)} (hb : ∀ b ∈ bs, b ≠ [])
    (ht : ∀ f ∈ bs.flatten, f.trig = false) :
    (session interp checked srate ms k St.init bs).map (·.2) = some (bs.flatten.map fun _ => 0) := by
  rw [session_run hk hl bs _ hb]
  generalize bs.flatten = fs at ht
  have key : run (cfgOf interp checked srate ms k l) St.init fs = some (St.init, fs.map fun _ => 0) := by
    induction fs with
    | nil => rfl
    | cons f fs ih =>
      have hf : frame1 (cfgOf interp checked srate ms k l) St.init f = some (St.init, 0) := by
        unfold frame1
        rw [trigd_no (ht f List.mem_cons_self)]
        simp [St.init, fade_zero, cfgOf, hm]
      simp only [run, hf, bind, Option.bind, ih fun g hg => ht g (List.mem_cons_of_mem _ hg),
        List.map_cons]
  rw [key]; rfl

/-- **C80**: the output is never louder than the interpolated recording, or than full scale. -/
theorem output_bounded {B : ℚ} (hB : 1 ≤ B) (hi : ∀ d i f, |interp d i f| ≤ B)
    {k : Knobs} {l : List ℚ} (hk : k.sample = some l) (hl : 3 ≤ l.length)
    (bs : List (List Frame)) (hb : ∀ b ∈ bs, b ≠ []) {st st' : St} {out : List ℚ}
    (h : session interp checked srate ms k st bs = some (st', out)) : ∀ s ∈ out, |s| ≤ B := by
  rw [session_run hk hl bs st hb] at h
  exact run_le hB (by simpa [cfgOf] using hi) _ h

/-- **C80**: with declicking on, triggering the node while it plays does not make the output jump:
it changes by at most a fiftieth of what was played (and a hundred thousandth). -/
theorem retrigger_smooth {k : Knobs} {l : List ℚ} (hk : k.sample = some l) (hl : 3 ≤ l.length)
    (hd : k.dclick = 1) (hms : 0 < ms * srate)
    (bs : List (List Frame)) (hb : ∀ b ∈ bs, b ≠ []) {st st' : St} {out : List ℚ}
    (h : session interp checked srate ms k st bs = some (st', out))
    {n : ℕ} {f : Frame} {s0 s1 : ℚ} (hf : bs.flatten[n + 1]? = some f) (ht : f.trig = true)
    (h0 : out[n]? = some s0) (h1 : out[n + 1]? = some s1) (hs : |s0| ≤ 1) :
    |s1 - s0| ≤ |s0| / 50 + 1 / 100000 := by
  rw [session_run hk hl bs st hb] at h
  exact run_trig_smooth (by simp [cfgOf, hd]) (by simpa [cfgOf] using hms) _ h (n + 1) f s0 s1 hf ht
    (by simpa using h0) h1 hs

/-- **C80**: with declicking on, the first triggered frame of a silent node is silent. -/
theorem trigger_from_silence {k : Knobs} {l : List ℚ} (hk : k.sample = some l) (hl : 3 ≤ l.length)
    (hd : k.dclick = 1) (hms : 0 < ms * srate) {f : Frame} {fs : List Frame} (ht : f.trig = true)
    {st st' : St} {out : List ℚ} (hst : st.last = 0)
    (h : session interp checked srate ms k st [f :: fs] = some (st', out)) : out[0]? = some 0 := by
  rw [session_run hk hl _ st (by simp)] at h
  simp only [List.flatten_cons, List.flatten_nil, List.append_nil, run, bind, Option.bind] at h
  cases h1 : frame1 (cfgOf interp checked srate ms k l) st f with
  | none => rw [h1] at h; cases h
  | some r =>
    rw [h1] at h
    simp only at h
    cases h2 : run (cfgOf interp checked srate ms k l) r.1 fs with
    | none => rw [h2] at h; cases h
    | some q =>
      rw [h2] at h
      simp only [Option.some.injEq, Prod.mk.injEq] at h
      rw [← h.2]
      simp only [List.getElem?_cons_zero, Option.some.injEq]
      unfold frame1 at h1
      rw [trigd_yes ht, hst] at h1
      simp only [Bool.true_or, if_true, Int.floor_zero, Int.toNat_zero, fade_zero, bind, Option.bind,
        attenuate_start (c := cfgOf interp checked srate ms k l) (by simp [cfgOf, hd])
          (by simpa [cfgOf] using hms), Option.some.injEq] at h1
      rw [← h1]

/-- **C80**: with declicking on, playing a part that stays the same at no more than one sample for
each frame never panics. What is missing: `declick_panics_fast` and `declick_panics_shrink`. -/
theorem declick_never_panics_partial {k : Knobs} {rate : ℚ} {rec : List ℚ}
    (hk : k.sample = some (rate :: rec)) (hl : 2 ≤ rec.length) (hr : 0 ≤ rate / srate)
    {bs : List (List Frame)} (hb : ∀ b ∈ bs, b ≠ []) {o le : ℚ}
    (h1 : ∀ f ∈ bs.flatten, f.offs = o ∧ f.len = le ∧ 0 ≤ f.speed ∧ rate / srate * f.speed ≤ 1)
    {st : St} (h0 : 0 ≤ st.phase) (hp : st.phase < (part rec o le).length + 1) :
    (session interp checked srate ms k st bs).isSome := by
  rw [session_run hk (by simp; omega) bs st hb]
  exact run_slow (c := cfgOf interp checked srate ms k (rate :: rec)) (by simpa [cfgOf] using hr)
    (o := o) (le := le) bs.flatten (by simpa [cfgOf] using h1) h0 (by simpa [cfgOf] using hp)

/-- **C80** violated: with declicking on, a debug build panics when the play head skips the end. -/
theorem declick_panics_fast :
    session nearest true 1 0 (four 0 1) St.init [ring 3 1 1] ≠ none ∧
    session nearest true 1 0 (four 0 1) St.init [ring 3 1 2] = none := by
  decide +kernel

/-- **C80** violated: with declicking on, a debug build panics when the part gets shorter while it
plays. -/
theorem declick_panics_shrink :
    session nearest true 1 0 (four 0 1) St.init
      [ring 1 1 2, [⟨false, 1, 0, 1 / 4⟩]] = none := by
  decide +kernel

/-! ### The hypotheses can be met -/

example : OneTrigger 0 1 (ring (1 / 2) 1 3) ∧ Forward (ring (1 / 2) 1 3) ∧
    ∀ f ∈ ring (1 / 2) 1 3, (1 : ℚ) / 1 * f.speed < (part [1, 2, 3, 4] 0 1).length := by
  have hp : (part [1, 2, 3, 4] 0 1).length = 4 := by decide +kernel
  refine ⟨⟨?_, ?_⟩, ?_, ?_⟩
  · simp [ring]
  · intro k f h
    match k with
    | 0 => simp [ring] at h; simp [← h]
    | k + 1 =>
      simp only [ring, List.getElem?_cons_succ] at h
      have := List.mem_of_getElem? h
      rw [List.mem_replicate] at this
      simp [this.2]
  · simp only [Forward, ring]; simp
  · rw [hp]; simp [ring]; norm_num

example : (session nearest true 1 0 (four 0 0) St.init [ring 1 1 2, [⟨false, 1, 0, 1⟩, ⟨false, 1, 0, 1⟩,
    ⟨false, 1, 0, 1⟩]]).map (·.2) = some [1 / 2, 1 / 3, 1 / 4, 1 / 5, 1 / 2, 1 / 3] := by
  decide +kernel

example : part [1, 2, 3, 4] (1 / 4) (1 / 2) = [2, 3] := by decide +kernel

example : (session nearest true 1000 2 (four 0 1) St.init
    [[⟨true, 1000, 0, 1⟩, ⟨false, 1000, 0, 1⟩, ⟨false, 1000, 0, 1⟩, ⟨false, 1000, 0, 1⟩,
      ⟨true, 1000, 0, 1⟩]]).map (·.2) = some [0, 1 / 6, 1 / 4, 1 / 10, 49 / 500] := by
  decide +kernel

end HexoDSP.SamplProps
