import Verif.Lemmas.Sampl

set_option linter.unusedSectionVars false

namespace HexoDSP.Sampl

theorem next_sound (c : Cfg) (p v : ℚ) (d : List ℚ) :
    (nextSample c p v d).2 = soundAt c.interp c.reverse d p := by
  unfold nextSample soundAt
  cases d with
  | nil => simp
  | cons a d =>
    have h : ¬ (a :: d).length < 1 := by simp
    rw [if_neg h, if_neg (by simp)]
    simp only [Int.fract]
    split <;> rfl

theorem floor_split {p : ℚ} (hp : 0 ≤ p) (L : ℕ) :
    ((⌊p⌋.toNat % L : ℕ) : ℚ) + (p - ⌊p⌋) = p - (L : ℚ) * ((⌊p⌋.toNat / L : ℕ) : ℚ) := by
  have h0 : (0 : ℤ) ≤ ⌊p⌋ := Int.floor_nonneg.2 hp
  have h1 : ((⌊p⌋.toNat : ℕ) : ℚ) = ⌊p⌋ := by
    have : ((⌊p⌋.toNat : ℕ) : ℤ) = ⌊p⌋ := Int.toNat_of_nonneg h0
    exact_mod_cast this
  have h2 : ((⌊p⌋.toNat % L : ℕ) : ℚ) + (L : ℚ) * ((⌊p⌋.toNat / L : ℕ) : ℚ) = ((⌊p⌋.toNat : ℕ) : ℚ) := by
    exact_mod_cast Nat.mod_add_div ⌊p⌋.toNat L
  linarith

/-- The new phase of a sample that is not empty. -/
theorem next_phase {c : Cfg} {p : ℚ} (hp : 0 ≤ p) (v : ℚ) {d : List ℚ} (hd : d ≠ []) :
    (nextSample c p v d).1 =
      p - (d.length : ℚ) * ((⌊p⌋.toNat / d.length : ℕ) : ℚ) + c.srFactor * v := by
  have h : ¬ d.length < 1 := by
    intro h; exact hd (List.length_eq_zero_iff.1 (by omega))
  unfold nextSample
  rw [if_neg h]
  simp only
  rw [floor_split hp]

theorem floor_div_lt {p : ℚ} {L : ℕ} (h : p < L) : ⌊p⌋.toNat / L = 0 := by
  rcases Nat.eq_zero_or_pos L with rfl | h0
  · simp
  apply Nat.div_eq_of_lt
  have : ⌊p⌋ < (L : ℤ) := Int.floor_lt.2 (by exact_mod_cast h)
  omega

theorem floor_div_two {p : ℚ} {L : ℕ} (h1 : (L : ℚ) ≤ p) (h2 : p < 2 * L) : ⌊p⌋.toNat / L = 1 := by
  have a : (L : ℤ) ≤ ⌊p⌋ := Int.le_floor.2 (by exact_mod_cast h1)
  have b : ⌊p⌋ < ((2 * L : ℕ) : ℤ) := Int.floor_lt.2 (by push_cast; exact h2)
  have c : 0 < L := by
    rcases Nat.eq_zero_or_pos L with h | h
    · subst h; norm_num at h1 h2; linarith
    · exact h
  apply Nat.div_eq_of_lt_le <;> omega

theorem sound_shift (interp : List ℚ → ℕ → ℚ → ℚ) (rev : Bool) (d : List ℚ) {p : ℚ} (hp : 0 ≤ p)
    (m : ℕ) : soundAt interp rev d (p + (d.length : ℚ) * m) = soundAt interp rev d p := by
  have h1 : ⌊p + (d.length : ℚ) * m⌋ = ⌊p⌋ + ((d.length * m : ℕ) : ℤ) := by
    have := Int.floor_add_natCast p (d.length * m)
    push_cast at this ⊢
    exact this
  have h2 : Int.fract (p + (d.length : ℚ) * m) = Int.fract p := by
    unfold Int.fract
    rw [h1]; push_cast; ring
  have h0 : (0 : ℤ) ≤ ⌊p⌋ := Int.floor_nonneg.2 hp
  have h3 : ⌊p + (d.length : ℚ) * m⌋.toNat % d.length = ⌊p⌋.toNat % d.length := by
    rw [h1, Int.toNat_add h0 (by positivity), Int.toNat_natCast, Nat.add_mul_mod_self_left]
  unfold soundAt
  rw [h2, h3]

/-- The positions of the play head. -/
def heads (sr : ℚ) : ℚ → List Frame → List ℚ
  | _, [] => []
  | x, f :: fs => x :: heads sr (x + sr * f.speed) fs

theorem heads_get (sr : ℚ) (fs : List Frame) : ∀ (x : ℚ) (k : ℕ), k < fs.length →
    (heads sr x fs)[k]? = some (x + moved sr fs k) := by
  induction fs with
  | nil => intro x k h; simp at h
  | cons f fs ih =>
    intro x k h
    cases k with
    | zero => simp [heads, moved]
    | succ k =>
      simp only [heads, List.getElem?_cons_succ]
      rw [ih _ k (by simpa using h)]
      congr 1
      simp only [moved, List.take_succ_cons, List.map_cons, List.sum_cons]
      ring

theorem attenuate_off {c : Cfg} (h : c.declick = false) (n i : ℕ) (s : ℚ) :
    attenuate c n i s = some s := by
  simp [attenuate, h]

theorem fade_off {c : Cfg} (h : c.declick = false) (x s : ℚ) : fade c x s = (0, s) := by
  simp [fade, h]

theorem fade_zero (c : Cfg) (s : ℚ) : fade c 0 s = (0, s) := by
  unfold fade
  rw [if_pos]
  simp

/-- A frame of a playing node without declick. -/
theorem frame1_off {c : Cfg} (h : c.declick = false) {st : St} {f : Frame}
    (hp : ((trigd st f).isPlaying || c.doLoop) = true) :
    frame1 c st f = some
      (⟨(nextSample c (trigd st f).phase f.speed (part c.data f.offs f.len)).1,
        !(!c.doLoop && decide ((trigd st f).phase >
          (nextSample c (trigd st f).phase f.speed (part c.data f.offs f.len)).1)),
        soundAt c.interp c.reverse (part c.data f.offs f.len) (trigd st f).phase, 0⟩,
        soundAt c.interp c.reverse (part c.data f.offs f.len) (trigd st f).phase) := by
  unfold frame1
  simp only [hp, if_true, attenuate_off h, fade_off h, next_sound, bind, Option.bind]

/-- A frame of a node that does not play. -/
theorem frame1_idle {c : Cfg} (h : c.declick = false) {st : St} {f : Frame} (ht : f.trig = false)
    (hp : st.isPlaying = false) (hl : c.doLoop = false) :
    frame1 c st f = some (⟨st.phase, false, 0, 0⟩, 0) := by
  unfold frame1 trigd
  simp [ht, hp, hl, fade_off h]

theorem run_idle {c : Cfg} (h : c.declick = false) (hl : c.doLoop = false) (fs : List Frame) :
    ∀ {st : St}, (∀ f ∈ fs, f.trig = false) → st.isPlaying = false →
    ∃ st', run c st fs = some (st', fs.map fun _ => 0) ∧ st'.isPlaying = false := by
  induction fs with
  | nil => intro st _ hp; exact ⟨st, rfl, hp⟩
  | cons f fs ih =>
    intro st ht hp
    obtain ⟨st', h1, h2⟩ := ih (st := ⟨st.phase, false, 0, 0⟩)
      (fun g hg => ht g (List.mem_cons_of_mem _ hg)) rfl
    refine ⟨st', ?_, h2⟩
    simp only [run, frame1_idle h (ht f List.mem_cons_self) hp hl, bind, Option.bind, h1,
      List.map_cons]

theorem trigd_no {st : St} {f : Frame} (h : f.trig = false) : trigd st f = st := by
  unfold trigd; rw [if_neg (by simp [h])]

theorem trigd_yes {st : St} {f : Frame} (h : f.trig = true) :
    trigd st f = ⟨0, true, st.last, st.last⟩ := by
  unfold trigd; rw [if_pos h]

/-- Loop mode: the play head goes round the part. -/
theorem run_loop {c : Cfg} (hdc : c.declick = false) (hl : c.doLoop = true) (hsr : 0 ≤ c.srFactor)
    {o le : ℚ} (fs : List Frame) : ∀ {st : St} {x : ℚ},
    (∀ f ∈ fs, f.offs = o ∧ f.len = le ∧ 0 ≤ f.speed ∧ f.trig = false) →
    (part c.data o le = [] ∨
      0 ≤ st.phase ∧ ∃ m : ℕ, x = st.phase + ((part c.data o le).length : ℚ) * m) →
    ∃ st', run c st fs = some (st',
      (heads c.srFactor x fs).map (soundAt c.interp c.reverse (part c.data o le))) := by
  induction fs with
  | nil => intro st x _ _; exact ⟨st, rfl⟩
  | cons f fs ih =>
    intro st x hf hx
    obtain ⟨ho, hle, hv, ht⟩ := hf f List.mem_cons_self
    have hf' := fun g hg => hf g (List.mem_cons_of_mem _ hg)
    have hsound : soundAt c.interp c.reverse (part c.data o le) st.phase =
        soundAt c.interp c.reverse (part c.data o le) x := by
      rcases hx with hx | ⟨hp, m, rfl⟩
      · unfold soundAt; rw [if_pos hx, if_pos hx]
      · rw [sound_shift _ _ _ hp]
    obtain ⟨st', h1⟩ := ih
      (st := ⟨(nextSample c st.phase f.speed (part c.data o le)).1, true,
        soundAt c.interp c.reverse (part c.data o le) x, 0⟩) (x := x + c.srFactor * f.speed) hf' (by
      by_cases hd : part c.data o le = []
      · exact Or.inl hd
      · right
        obtain ⟨hp, m, hm⟩ : _ ∧ _ := hx.resolve_left hd
        simp only
        rw [next_phase hp _ hd]
        constructor
        · have h3 := floor_split hp (part c.data o le).length
          have h4 : (0 : ℚ) ≤ Int.fract st.phase := Int.fract_nonneg _
          unfold Int.fract at h4
          have h5 : (0 : ℚ) ≤ ((⌊st.phase⌋.toNat % (part c.data o le).length : ℕ) : ℚ) := by positivity
          have h6 : 0 ≤ c.srFactor * f.speed := mul_nonneg hsr hv
          linarith
        · refine ⟨m + ⌊st.phase⌋.toNat / (part c.data o le).length, ?_⟩
          rw [hm]; push_cast; ring)
    refine ⟨st', ?_⟩
    have h2 := frame1_off hdc (st := st) (f := f) (by simp [hl])
    rw [trigd_no ht, ho, hle, hsound] at h2
    simp only [hl, Bool.not_true, Bool.false_and, Bool.not_false] at h2
    simp only [run, h2, bind, Option.bind, h1, heads, List.map_cons]

/-- What one shot mode plays: it goes on until the play head has left the part. -/
def shot (snd : ℚ → ℚ) (sr L : ℚ) : ℚ → List Frame → List ℚ
  | _, [] => []
  | x, f :: fs => snd x :: (if x < L then shot snd sr L (x + sr * f.speed) fs else fs.map fun _ => 0)

theorem run_shot {c : Cfg} (hdc : c.declick = false) (hl : c.doLoop = false) (hsr : 0 ≤ c.srFactor)
    {o le : ℚ} (fs : List Frame) : ∀ {st : St},
    (∀ f ∈ fs, f.offs = o ∧ f.len = le ∧ 0 ≤ f.speed ∧ f.trig = false ∧
      c.srFactor * f.speed < (part c.data o le).length) →
    st.isPlaying = true → 0 ≤ st.phase → st.phase < 2 * (part c.data o le).length →
    ∃ st', run c st fs = some (st',
      shot (soundAt c.interp c.reverse (part c.data o le)) c.srFactor (part c.data o le).length
        st.phase fs) := by
  induction fs with
  | nil => intro st _ _ _ _; exact ⟨st, rfl⟩
  | cons f fs ih =>
    intro st hf hpl hp hp2
    obtain ⟨ho, hle, hv, ht, hvL⟩ := hf f List.mem_cons_self
    have hf' := fun g hg => hf g (List.mem_cons_of_mem _ hg)
    have hd : part c.data o le ≠ [] := by
      intro h
      rw [h] at hvL
      have := mul_nonneg hsr hv
      simp at hvL; linarith
    have hv0 : 0 ≤ c.srFactor * f.speed := mul_nonneg hsr hv
    have h2 := frame1_off hdc (st := st) (f := f) (by rw [trigd_no ht, hpl]; rfl)
    rw [trigd_no ht, ho, hle, next_phase hp _ hd] at h2
    simp only [hl, Bool.not_false, Bool.true_and] at h2
    by_cases hx : st.phase < (part c.data o le).length
    · rw [floor_div_lt hx] at h2
      have hns : ¬ (st.phase > st.phase - ((part c.data o le).length : ℚ) * ((0 : ℕ) : ℚ) + c.srFactor * f.speed) := by
        push_cast; intro h; linarith
      obtain ⟨st', h1⟩ := ih (st := ⟨st.phase - ((part c.data o le).length : ℚ) * ((0 : ℕ) : ℚ) +
        c.srFactor * f.speed, true, soundAt c.interp c.reverse (part c.data o le) st.phase, 0⟩) hf' rfl
        (by push_cast; linarith) (by push_cast; linarith)
      refine ⟨st', ?_⟩
      rw [decide_eq_false hns] at h2
      simp only [Bool.not_false] at h2
      simp only [run, h2, bind, Option.bind, h1, shot, if_pos hx]
      have : st.phase - ((part c.data o le).length : ℚ) * ((0 : ℕ) : ℚ) + c.srFactor * f.speed =
        st.phase + c.srFactor * f.speed := by push_cast; ring
      rw [this]
    · have hx' := not_lt.1 hx
      rw [floor_div_two hx' hp2] at h2
      have hs : st.phase > st.phase - ((part c.data o le).length : ℚ) * ((1 : ℕ) : ℚ) + c.srFactor * f.speed := by
        push_cast; linarith
      rw [decide_eq_true hs] at h2
      simp only [Bool.not_true] at h2
      obtain ⟨st', h1, -⟩ := run_idle hdc hl fs (st := ⟨st.phase - ((part c.data o le).length : ℚ) * ((1 : ℕ) : ℚ) +
        c.srFactor * f.speed, false, soundAt c.interp c.reverse (part c.data o le) st.phase, 0⟩)
        (fun g hg => (hf' g hg).2.2.2.1) rfl
      refine ⟨st', ?_⟩
      simp only [run, h2, bind, Option.bind, h1, shot, if_neg hx]

theorem moved_nonneg {sr : ℚ} (hsr : 0 ≤ sr) {fs : List Frame} (hf : ∀ f ∈ fs, 0 ≤ f.speed) (k : ℕ) :
    0 ≤ moved sr fs k := by
  unfold moved
  apply List.sum_nonneg
  intro x hx
  obtain ⟨f, h1, rfl⟩ := List.mem_map.1 hx
  exact mul_nonneg hsr (hf f (List.mem_of_mem_take h1))

theorem moved_cons (sr : ℚ) (f : Frame) (fs : List Frame) (k : ℕ) :
    moved sr (f :: fs) (k + 1) = sr * f.speed + moved sr fs k := by
  simp [moved]

theorem shot_get (snd : ℚ → ℚ) {sr : ℚ} (L : ℚ) (hsr : 0 ≤ sr) (fs : List Frame) :
    ∀ (x : ℚ) (k : ℕ), (∀ f ∈ fs, 0 ≤ f.speed) → k < fs.length →
    (shot snd sr L x fs)[k]? =
      some (if k = 0 ∨ x + moved sr fs (k - 1) < L then snd (x + moved sr fs k) else 0) := by
  induction fs with
  | nil => intro x k _ h; simp at h
  | cons f fs ih =>
    intro x k hf h
    have hf' := fun g hg => hf g (List.mem_cons_of_mem _ hg)
    cases k with
    | zero => simp [shot, moved]
    | succ k =>
      have hk : k < fs.length := by simpa using h
      simp only [shot, List.getElem?_cons_succ, Nat.succ_ne_zero, false_or, Nat.add_sub_cancel]
      by_cases hx : x < L
      · rw [if_pos hx, ih _ k hf' hk]
        have e : x + sr * f.speed + moved sr fs k = x + moved sr (f :: fs) (k + 1) := by
          rw [moved_cons]; ring
        rw [e]
        cases k with
        | zero =>
          simp only [true_or, if_true, moved, List.take_zero, List.map_nil, List.sum_nil, add_zero, hx]
        | succ k =>
          have e2 : x + sr * f.speed + moved sr fs k = x + moved sr (f :: fs) (k + 1) := by
            rw [moved_cons]; ring
          simp only [Nat.succ_ne_zero, false_or, Nat.add_sub_cancel, e2]
      · rw [if_neg hx]
        have : ¬ x + moved sr (f :: fs) k < L := by
          have := moved_nonneg hsr hf k
          intro h; linarith
        rw [if_neg this, List.getElem?_map, List.getElem?_eq_getElem hk]
        rfl

/-- The first frame of a triggered run. -/
theorem one_trigger_head {o le : ℚ} {fs : List Frame} (h : OneTrigger o le fs) :
    fs = [] ∨ ∃ f rest, fs = f :: rest ∧ f.trig = true ∧ ∀ g ∈ rest, g.trig = false := by
  cases fs with
  | nil => exact Or.inl rfl
  | cons f rest =>
    right
    refine ⟨f, rest, rfl, by simpa using h.2 0 f rfl, ?_⟩
    intro g hg
    obtain ⟨k, hk⟩ := List.getElem?_of_mem hg
    simpa using h.2 (k + 1) g (by simpa using hk)

/-- A triggered node does the same as a node at the start that plays. -/
theorem run_trig {c : Cfg} (hdc : c.declick = false) {f : Frame} (hf : f.trig = true) (rest : List Frame)
    (st : St) : run c st (f :: rest) = run c ⟨0, true, 0, 0⟩ ({ f with trig := false } :: rest) := by
  have h : frame1 c st f = frame1 c ⟨0, true, 0, 0⟩ { f with trig := false } := by
    rw [frame1_off hdc (by rw [trigd_yes hf]; rfl), frame1_off hdc (by rw [trigd_no rfl]; rfl)]
    rw [trigd_yes hf, trigd_no rfl]
  simp only [run, h]

theorem moved_trig (sr : ℚ) (f : Frame) (b : Bool) (rest : List Frame) (k : ℕ) :
    moved sr ({ f with trig := b } :: rest) k = moved sr (f :: rest) k := by
  cases k with
  | zero => rfl
  | succ k => rw [moved_cons, moved_cons]

end HexoDSP.Sampl
