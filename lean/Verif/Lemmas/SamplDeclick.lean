import Verif.Lemmas.SamplPlay

set_option linter.unusedSectionVars false

namespace HexoDSP.Sampl

theorem ramp_lt {c : Cfg} {i : ℕ} (h : i < c.rampCount) :
    0 ≤ (i : ℚ) * c.rampInc ∧ (i : ℚ) * c.rampInc < 1 := by
  unfold Cfg.rampCount at h
  unfold Cfg.rampInc
  have h1 : (i : ℤ) < ⌈c.rampTime / 1000⌉ := by omega
  have h2 : (i : ℚ) < c.rampTime / 1000 := by
    have := Int.lt_ceil.1 h1
    exact_mod_cast this
  have hi : (0 : ℚ) ≤ i := by positivity
  have hpos : 0 < c.rampTime := by linarith
  constructor
  · positivity
  · rw [mul_div_assoc', div_lt_one hpos]
    linarith

theorem attenuate_le {c : Cfg} {n i : ℕ} {s t : ℚ}
    (h : attenuate c n i s = some t) : |t| ≤ |s| := by
  unfold attenuate at h
  split at h
  · cases hu : usub c.checked n i with
    | none => rw [hu] at h; cases h
    | some e =>
      rw [hu] at h
      simp only [Option.map_some, Option.some.injEq] at h
      subst h
      rw [abs_mul]
      have key : ∀ x : ℚ, 0 ≤ x → x ≤ 1 → |s| * |x| ≤ |s| := by
        intro x h0 h1
        rw [abs_of_nonneg h0]
        nlinarith [abs_nonneg s]
      split
      · next h1 => exact key _ (ramp_lt h1).1 (ramp_lt h1).2.le
      · split
        · next h1 => exact key _ (ramp_lt h1).1 (ramp_lt h1).2.le
        · exact key _ (by norm_num) (by norm_num)
  · cases h; exact le_refl _

theorem attenuate_start {c : Cfg} (hd : c.declick = true) (hr : 0 < c.rampTime) (n : ℕ) (s : ℚ) :
    attenuate c n 0 s = some 0 := by
  have : 0 < c.rampCount := by
    unfold Cfg.rampCount
    have : (0 : ℤ) < ⌈c.rampTime / 1000⌉ := Int.ceil_pos.2 (by positivity)
    omega
  unfold attenuate
  rw [if_pos hd, usub_le (Nat.zero_le n)]
  simp [this]

theorem sound_le {interp : List ℚ → ℕ → ℚ → ℚ} {B : ℚ} (hB : 0 ≤ B)
    (h : ∀ d i f, |interp d i f| ≤ B) (r : Bool) (d : List ℚ) (x : ℚ) : |soundAt interp r d x| ≤ B := by
  unfold soundAt
  split
  · simpa using hB
  · split <;> exact h _ _ _

theorem fade_le {c : Cfg} {x s B : ℚ} (hB : 1 ≤ B) (hs : |s| ≤ B) : |(fade c x s).2| ≤ B := by
  unfold fade
  split
  · exact hs
  · refine le_trans ?_ hB
    simp only
    rw [abs_le]
    constructor
    · exact le_max_left _ _
    · exact max_le (by norm_num) (min_le_right _ _)

theorem frame1_out {c : Cfg} {st st' : St} {f : Frame} {s : ℚ} (h : frame1 c st f = some (st', s)) :
    st'.last = s := by
  unfold frame1 at h
  generalize trigd st f = st0 at h
  simp only [bind, Option.bind] at h
  split at h
  · generalize attenuate c _ _ _ = o at h
    cases o with
    | none => cases h
    | some x =>
      simp only [Option.some.injEq, Prod.mk.injEq] at h
      rw [← h.1, ← h.2]
  · simp only [Option.some.injEq, Prod.mk.injEq] at h
    rw [← h.1, ← h.2]

theorem frame1_le {c : Cfg} {B : ℚ} (hB : 1 ≤ B)
    (hi : ∀ d i f, |c.interp d i f| ≤ B) {st st' : St} {f : Frame} {s : ℚ}
    (h : frame1 c st f = some (st', s)) : |s| ≤ B := by
  unfold frame1 at h
  generalize trigd st f = st0 at h
  simp only [bind, Option.bind, next_sound] at h
  have hB0 : (0 : ℚ) ≤ B := by linarith
  split at h
  · cases ha : attenuate c (part c.data f.offs f.len).length ⌊st0.phase⌋.toNat
      (soundAt c.interp c.reverse (part c.data f.offs f.len) st0.phase) with
    | none => rw [ha] at h; cases h
    | some x =>
      rw [ha] at h
      simp only [Option.some.injEq, Prod.mk.injEq] at h
      rw [← h.2]
      exact fade_le hB (le_trans (attenuate_le ha) (sound_le hB0 hi _ _ _))
  · simp only [Option.some.injEq, Prod.mk.injEq] at h
    rw [← h.2]
    exact fade_le hB (by simpa using hB0)

theorem run_le {c : Cfg} {B : ℚ} (hB : 1 ≤ B)
    (hi : ∀ d i f, |c.interp d i f| ≤ B) (fs : List Frame) : ∀ {st st' : St} {out : List ℚ},
    run c st fs = some (st', out) → ∀ s ∈ out, |s| ≤ B := by
  induction fs with
  | nil =>
    intro st st' out h s hs
    simp only [run, Option.some.injEq, Prod.mk.injEq] at h
    rw [← h.2] at hs; cases hs
  | cons f fs ih =>
    intro st st' out h s hs
    simp only [run, bind, Option.bind] at h
    cases h1 : frame1 c st f with
    | none => rw [h1] at h; cases h
    | some r =>
      rw [h1] at h
      simp only at h
      cases h2 : run c r.1 fs with
      | none => rw [h2] at h; cases h
      | some q =>
        rw [h2] at h
        simp only [Option.some.injEq, Prod.mk.injEq] at h
        rw [← h.2] at hs
        rcases List.mem_cons.1 hs with rfl | hs
        · exact frame1_le hB hi h1
        · exact ih h2 s hs

/-- The first frame after a trigger fades out what was played before. -/
theorem frame1_trig {c : Cfg} (hd : c.declick = true) (hr : 0 < c.rampTime) {st st' : St} {f : Frame}
    {s : ℚ} (ht : f.trig = true) (hl : |st.last| ≤ 1) (h : frame1 c st f = some (st', s)) :
    |s - st.last| ≤ |st.last| / 50 + 1 / 100000 := by
  unfold frame1 at h
  rw [trigd_yes ht] at h
  simp only [Bool.true_or, if_true, Int.floor_zero, Int.toNat_zero, attenuate_start hd hr, bind,
    Option.bind, Option.some.injEq, Prod.mk.injEq] at h
  rw [← h.2]
  unfold fade
  simp only [hd, Bool.not_true, Bool.false_or, decide_eq_true_eq]
  have h0 := abs_nonneg st.last
  split
  · next h1 =>
    simp only [zero_sub, abs_neg]
    linarith
  · have hl' := abs_le.1 hl
    have e : max (-1) (min (0 + st.last * (98 / 100)) 1) = st.last * (98 / 100) := by
      rw [min_eq_left (by linarith), max_eq_right (by linarith)]; ring
    simp only [e]
    have : st.last * (98 / 100) - st.last = -(st.last / 50) := by ring
    rw [this, abs_neg, abs_div]
    norm_num

theorem run_trig_smooth {c : Cfg} (hd : c.declick = true) (hr : 0 < c.rampTime) (fs : List Frame) :
    ∀ {st st' : St} {out : List ℚ}, run c st fs = some (st', out) →
    ∀ (k : ℕ) (f : Frame) (s0 s1 : ℚ), fs[k]? = some f → f.trig = true →
      (st.last :: out)[k]? = some s0 → out[k]? = some s1 → |s0| ≤ 1 →
      |s1 - s0| ≤ |s0| / 50 + 1 / 100000 := by
  induction fs with
  | nil => intro st st' out h k f s0 s1 hf; simp at hf
  | cons g fs ih =>
    intro st st' out h k f s0 s1 hf ht h0 h1 hs
    simp only [run, bind, Option.bind] at h
    cases h2 : frame1 c st g with
    | none => rw [h2] at h; cases h
    | some r =>
      rw [h2] at h
      simp only at h
      cases h3 : run c r.1 fs with
      | none => rw [h3] at h; cases h
      | some q =>
        rw [h3] at h
        simp only [Option.some.injEq, Prod.mk.injEq] at h
        rw [← h.2] at h0 h1
        cases k with
        | zero =>
          simp only [List.getElem?_cons_zero, Option.some.injEq] at hf h0 h1
          subst hf h0 h1
          exact frame1_trig hd hr ht hs h2
        | succ k =>
          simp only [List.getElem?_cons_succ] at hf h0 h1
          have := frame1_out (st' := r.1) (s := r.2) (by rw [h2])
          rw [← this] at h0
          exact ih h3 k f s0 s1 hf ht h0 h1 hs

/-- Slow playback of a part that stays the same keeps the play head near the part. -/
theorem run_slow {c : Cfg} (hsr : 0 ≤ c.srFactor) {o le : ℚ} (fs : List Frame) : ∀ {st : St},
    (∀ f ∈ fs, f.offs = o ∧ f.len = le ∧ 0 ≤ f.speed ∧ c.srFactor * f.speed ≤ 1) →
    0 ≤ st.phase → st.phase < (part c.data o le).length + 1 → (run c st fs).isSome := by
  induction fs with
  | nil => intro st _ _ _; rfl
  | cons f fs ih =>
    intro st hf hp hp1
    obtain ⟨ho, hle, hv, hv1⟩ := hf f List.mem_cons_self
    have hf' := fun g hg => hf g (List.mem_cons_of_mem _ hg)
    have hv0 : 0 ≤ c.srFactor * f.speed := mul_nonneg hsr hv
    have hq0 : 0 ≤ (trigd st f).phase := by unfold trigd; split <;> simp [hp]
    have hq1 : (trigd st f).phase < (part c.data o le).length + 1 := by
      unfold trigd; split
      · simp only; positivity
      · exact hp1
    have hfl : ⌊(trigd st f).phase⌋.toNat ≤ (part c.data o le).length := by
      have h1 : ⌊(trigd st f).phase⌋ < (((part c.data o le).length + 1 : ℕ) : ℤ) :=
        Int.floor_lt.2 (by push_cast; exact hq1)
      omega
    have hn0 : 0 ≤ (nextSample c (trigd st f).phase f.speed (part c.data o le)).1 ∧
        (nextSample c (trigd st f).phase f.speed (part c.data o le)).1 <
          (part c.data o le).length + 1 := by
      by_cases hd : part c.data o le = []
      · unfold nextSample
        rw [if_pos (by simp [hd])]
        exact ⟨hq0, hq1⟩
      · rw [next_phase hq0 _ hd]
        have h1 := floor_split hq0 (part c.data o le).length
        have hL : 0 < (part c.data o le).length := List.length_pos_iff.2 hd
        have h2 : ⌊(trigd st f).phase⌋.toNat % (part c.data o le).length + 1 ≤ (part c.data o le).length :=
          Nat.mod_lt _ hL
        have h3 : ((⌊(trigd st f).phase⌋.toNat % (part c.data o le).length : ℕ) : ℚ) + 1 ≤
            ((part c.data o le).length : ℚ) := by exact_mod_cast h2
        have h4 := Int.fract_nonneg (trigd st f).phase
        have h5 := Int.fract_lt_one (trigd st f).phase
        have h6 : (0 : ℚ) ≤ ((⌊(trigd st f).phase⌋.toNat % (part c.data o le).length : ℕ) : ℚ) := by
          positivity
        unfold Int.fract at h4 h5
        constructor <;> linarith
    have hsome : ∃ st' s, frame1 c st f = some (st', s) ∧ 0 ≤ st'.phase ∧
        st'.phase < (part c.data o le).length + 1 := by
      unfold frame1
      rw [ho, hle]
      generalize trigd st f = st0 at hq0 hq1 hfl hn0
      simp only [bind, Option.bind]
      split
      · have ha : (attenuate c (part c.data o le).length ⌊st0.phase⌋.toNat
            (nextSample c st0.phase f.speed (part c.data o le)).2).isSome := by
          unfold attenuate
          split
          · rw [usub_le hfl]; rfl
          · rfl
        generalize attenuate c _ _ _ = oo at ha ⊢
        cases oo with
        | none => cases ha
        | some x => exact ⟨_, _, rfl, hn0⟩
      · exact ⟨_, _, rfl, hq0, hq1⟩
    obtain ⟨st', s, h1, h2, h3⟩ := hsome
    have h4 := ih hf' h2 h3
    simp only [run, h1, bind, Option.bind]
    cases h5 : run c st' fs with
    | none => rw [h5] at h4; cases h4
    | some q => rfl

/-- A part that is exactly as long as one step is never left. -/
theorem run_stuck {c : Cfg} (hdc : c.declick = false) {o le : ℚ}
    (hd : part c.data o le ≠ []) (fs : List Frame) : ∀ {st : St},
    (∀ f ∈ fs, f.offs = o ∧ f.len = le ∧ f.trig = false ∧
      c.srFactor * f.speed = (part c.data o le).length) →
    st.isPlaying = true → (st.phase = 0 ∨ st.phase = (part c.data o le).length) →
    ∃ st', run c st fs = some (st', fs.map fun _ => soundAt c.interp c.reverse (part c.data o le) 0) ∧
      st'.isPlaying = true := by
  induction fs with
  | nil => intro st _ hp _; exact ⟨st, rfl, hp⟩
  | cons f fs ih =>
    intro st hf hpl hp
    obtain ⟨ho, hle, ht, hv⟩ := hf f List.mem_cons_self
    have hf' := fun g hg => hf g (List.mem_cons_of_mem _ hg)
    have hL : 0 < (part c.data o le).length := List.length_pos_iff.2 hd
    have hLq : (0 : ℚ) < (part c.data o le).length := by exact_mod_cast hL
    have hp0 : 0 ≤ st.phase := by rcases hp with h | h <;> rw [h]; exact hLq.le
    have hpL : st.phase ≤ (part c.data o le).length := by rcases hp with h | h <;> rw [h]; exact hLq.le
    have hs : soundAt c.interp c.reverse (part c.data o le) st.phase =
        soundAt c.interp c.reverse (part c.data o le) 0 := by
      rcases hp with h | h
      · rw [h]
      · rw [h]
        have := sound_shift c.interp c.reverse (part c.data o le) (le_refl (0 : ℚ)) 1
        rw [← this]; congr 1; push_cast; ring
    have hn : (nextSample c st.phase f.speed (part c.data o le)).1 = (part c.data o le).length := by
      rw [next_phase hp0 _ hd, hv]
      rcases hp with h | h
      · rw [h]; simp
      · rw [h]
        have : ⌊((part c.data o le).length : ℚ)⌋.toNat / (part c.data o le).length = 1 :=
          floor_div_two (le_refl _) (by linarith)
        rw [this]; push_cast; ring
    have h2 := frame1_off hdc (st := st) (f := f) (by rw [trigd_no ht, hpl]; rfl)
    rw [trigd_no ht, ho, hle, hn, hs] at h2
    rw [decide_eq_false (by intro h; exact absurd h (not_lt.2 hpL))] at h2
    simp only [Bool.and_false, Bool.not_false] at h2
    obtain ⟨st', h3, h4⟩ := ih (st := ⟨((part c.data o le).length : ℚ), true,
      soundAt c.interp c.reverse (part c.data o le) 0, 0⟩) hf' rfl (Or.inr rfl)
    refine ⟨st', ?_, h4⟩
    simp only [run, h2, bind, Option.bind, h3, List.map_cons]

/-- Processing blocks of a loaded sample is running through all frames. -/
theorem session_run {interp : List ℚ → ℕ → ℚ → ℚ} {checked : Bool} {srate ms : ℚ} {k : Knobs}
    {l : List ℚ} (hk : k.sample = some l) (hl : 3 ≤ l.length) (bs : List (List Frame)) : ∀ (st : St),
    (∀ b ∈ bs, b ≠ []) →
    session interp checked srate ms k st bs = run (cfgOf interp checked srate ms k l) st bs.flatten := by
  induction bs with
  | nil => intro st _; rfl
  | cons b bs ih =>
    intro st hb
    have hb0 := hb b List.mem_cons_self
    rw [List.flatten_cons, run_append]
    have hl' : ¬ l.length < 3 := by omega
    simp only [session, process, hk, if_neg hl', play_run st hb0, bind, Option.bind]
    cases h : run (cfgOf interp checked srate ms k l) st b with
    | none => rfl
    | some r =>
      have hlen := run_length (st' := r.1) (out := r.2) (by rw [h])
      have hne : r.2 ≠ [] := by
        intro h0; rw [h0] at hlen
        exact hb0 (List.length_eq_zero_iff.1 hlen.symm)
      simp only [List.getLast?_eq_getLast_of_ne_nil hne]
      simp only [andThen, Option.map_some]
      rw [ih r.1 fun b hb' => hb b (List.mem_cons_of_mem _ hb')]

end HexoDSP.Sampl
