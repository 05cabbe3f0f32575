import Verif.Spec.Sampl
import Mathlib.Tactic.Linarith
import Mathlib.Tactic.Ring
import Mathlib.Tactic.Positivity

set_option linter.unusedSectionVars false

namespace HexoDSP.Sampl

theorem usub_le {ch : Bool} {a b : ℕ} (h : b ≤ a) : usub ch a b = some (a - b) := by
  simp [usub, h]

theorem usub_unchecked (a b : ℕ) : (usub false a b).isSome := by
  unfold usub; split <;> simp

/-- The locals after a frame that was computed from nothing. -/
def fresh (c : Cfg) (f : Frame) : Loc :=
  let n := c.data.length
  let o := min |f.offs| (999999 / 1000000)
  let le := min |f.len| 1
  let s := min ⌊(n : ℚ) * o⌋.toNat n
  ⟨o, le, s, min (n - s) ⌊(n : ℚ) * le + 1 / 2⌋.toNat⟩

/-- The locals are fresh or those of the start. -/
def Good (c : Cfg) (l : Loc) : Prop := l = Loc.init c ∨ ∃ g, l = fresh c g

theorem relocate_init (c : Cfg) (f : Frame) : relocate c (Loc.init c) f = fresh c f := by
  have h : (-10 : ℚ) ≠ min |f.offs| (999999 / 1000000) := by
    have : (0 : ℚ) ≤ min |f.offs| (999999 / 1000000) := le_min (abs_nonneg _) (by norm_num)
    intro h; rw [← h] at this; norm_num at this
  simp only [relocate, Loc.init, fresh, h, ne_eq, not_false_eq_true, decide_true, if_true,
    Bool.true_or, min_le_right]

theorem relocate_fresh (c : Cfg) (g f : Frame) : relocate c (fresh c g) f = fresh c f := by
  simp only [relocate, fresh]
  by_cases h1 : min |g.offs| (999999 / 1000000) = min |f.offs| (999999 / 1000000)
  · by_cases h2 : min |g.len| 1 = min |f.len| 1
    · simp [h1, h2]
    · simp [h1, h2]
  · simp [h1]

theorem relocate_good {c : Cfg} {l : Loc} (h : Good c l) (f : Frame) :
    relocate c l f = fresh c f := by
  rcases h with rfl | ⟨g, rfl⟩
  · exact relocate_init c f
  · exact relocate_fresh c g f

theorem good_relocate {c : Cfg} {l : Loc} (h : Good c l) (f : Frame) :
    Good c (relocate c l f) := Or.inr ⟨f, relocate_good h f⟩

theorem slice_fresh (c : Cfg) (f : Frame) :
    slice c.data (fresh c f).start (fresh c f).count = some (part c.data f.offs f.len) := by
  unfold slice fresh part
  simp only
  rw [if_pos (by omega)]
  congr 1
  generalize ⌊(c.data.length : ℚ) * min |f.offs| (999999 / 1000000)⌋.toNat = a
  generalize ⌊(c.data.length : ℚ) * min |f.len| 1 + 1 / 2⌋.toNat = b
  rcases Nat.le_total a c.data.length with h | h
  · rw [Nat.min_eq_left h]
    rcases Nat.le_total (c.data.length - a) b with h2 | h2
    · rw [Nat.min_eq_left h2, List.take_of_length_le (by simp), List.take_of_length_le (by simpa using h2)]
    · rw [Nat.min_eq_right h2]
  · rw [Nat.min_eq_right h, List.drop_of_length_le h, List.drop_of_length_le (Nat.le_refl _)]
    simp

/-- The state after looking at the trigger. -/
def trigd (st : St) (f : Frame) : St :=
  if f.trig then { st with phase := 0, decaying := st.last, isPlaying := true } else st

/-- A frame without the locals. -/
def frame1 (c : Cfg) (st : St) (f : Frame) : Option (St × ℚ) := do
  let st := trigd st f
  if st.isPlaying || c.doLoop then
    let d := part c.data f.offs f.len
    let r := nextSample c st.phase f.speed d
    let s ← attenuate c d.length ⌊st.phase⌋.toNat r.2
    let stop := !c.doLoop && decide (st.phase > r.1)
    let g := fade c st.decaying s
    some (⟨r.1, !stop, g.2, g.1⟩, g.2)
  else
    let g := fade c st.decaying 0
    some ({ st with last := g.2, decaying := g.1 }, g.2)

/-- Frames without the locals. -/
def run (c : Cfg) : St → List Frame → Option (St × List ℚ)
  | st, [] => some (st, [])
  | st, f :: fs => do
    let (st', s) ← frame1 c st f
    let (st'', out) ← run c st' fs
    some (st'', s :: out)

theorem frame_frame1 {c : Cfg} {l : Loc} {st : St} (hl : Good c l)
    (hp : c.doLoop = true → st.isPlaying = true) (f : Frame) :
    (∃ st' l' s, frame c st l f = some (st', l', s) ∧ frame1 c st f = some (st', s) ∧ Good c l' ∧
      (c.doLoop = true → st'.isPlaying = true)) ∨
    (frame c st l f = none ∧ frame1 c st f = none) := by
  unfold frame frame1
  simp only [relocate_good hl, slice_fresh, bind, Option.bind]
  have hor : ∀ st0 : St, st0 = trigd st f →
      (st0.isPlaying || c.doLoop) = st0.isPlaying := by
    intro st0 h0
    cases hd : c.doLoop with
    | false => simp
    | true =>
      have := hp hd
      subst h0; unfold trigd; split <;> simp [this]
  have hst0 : (if f.trig then { st with phase := 0, decaying := st.last, isPlaying := true } else st) =
    trigd st f := rfl
  rw [hst0]
  clear hst0
  generalize hst0 : trigd st f = st0
  have h1 := hor st0 hst0.symm
  rw [h1]
  have h2 : c.doLoop = true → st0.isPlaying = true := by
    intro hd; rw [hd] at h1; simpa using h1.symm
  by_cases hpl : st0.isPlaying = true
  · rw [if_pos hpl, if_pos hpl]
    cases attenuate c (part c.data f.offs f.len).length ⌊st0.phase⌋.toNat
      (nextSample c st0.phase f.speed (part c.data f.offs f.len)).2 with
    | none => right; exact ⟨rfl, rfl⟩
    | some s =>
      left
      refine ⟨_, _, _, rfl, rfl, Or.inr ⟨f, rfl⟩, ?_⟩
      intro hd; simp [hd]
  · rw [if_neg hpl, if_neg hpl]
    left
    exact ⟨_, _, _, rfl, rfl, hl, fun hd => absurd (h2 hd) hpl⟩

theorem frames_run {c : Cfg} (fs : List Frame) : ∀ {l : Loc} {st : St}, Good c l →
    (c.doLoop = true → st.isPlaying = true) → frames c st l fs = run c st fs := by
  induction fs with
  | nil => intros; rfl
  | cons f fs ih =>
    intro l st hl hp
    unfold frames run
    rcases frame_frame1 hl hp f with ⟨st', l', s, h1, h2, h3, h4⟩ | ⟨h1, h2⟩
    · rw [h1, h2]
      simp only [bind, Option.bind]
      rw [ih h3 h4]
    · rw [h1, h2]; rfl

theorem frame1_or (c : Cfg) (st : St) (f : Frame) :
    frame1 c { st with isPlaying := st.isPlaying || c.doLoop } f = frame1 c st f := by
  unfold frame1 trigd
  simp only
  cases hl : c.doLoop with
  | false => simp only [Bool.or_false]
  | true =>
    cases f.trig with
    | true => simp
    | false => simp

theorem play_run {c : Cfg} (st : St) {fs : List Frame} (h : fs ≠ []) :
    play c st fs = run c st fs := by
  unfold play
  rw [frames_run fs (Or.inl rfl) (by intro h; simp [h])]
  cases fs with
  | nil => exact absurd rfl h
  | cons f fs => unfold run; rw [frame1_or]

theorem run_append (c : Cfg) (a b : List Frame) : ∀ st,
    run c st (a ++ b) = andThen (run c st a) fun st' => run c st' b := by
  induction a with
  | nil =>
    intro st
    simp only [List.nil_append, run, andThen]
    cases run c st b <;> rfl
  | cons f a ih =>
    intro st
    simp only [List.cons_append, run, bind, Option.bind]
    cases h : frame1 c st f with
    | none => rfl
    | some r =>
      simp only [ih]
      cases h2 : run c r.1 a with
      | none => rfl
      | some q =>
        simp only [andThen]
        cases run c q.1 b <;> rfl

theorem run_length {c : Cfg} : ∀ {fs : List Frame} {st st' : St} {out : List ℚ},
    run c st fs = some (st', out) → out.length = fs.length := by
  intro fs
  induction fs with
  | nil => intro st st' out h; simp only [run, Option.some.injEq, Prod.mk.injEq] at h; rw [← h.2]; rfl
  | cons f fs ih =>
    intro st st' out h
    simp only [run, bind, Option.bind] at h
    cases h1 : frame1 c st f with
    | none => rw [h1] at h; cases h
    | some r =>
      rw [h1] at h
      simp only at h
      cases h2 : run c r.1 fs with
      | none => rw [h2] at h; cases h
      | some q =>
        rw [h2] at h
        simp only [Option.some.injEq, Prod.mk.injEq] at h
        rw [← h.2, List.length_cons, ih h2, List.length_cons]

theorem attenuate_isSome {c : Cfg} (h : c.declick = false ∨ c.checked = false) (n i : ℕ) (s : ℚ) :
    (attenuate c n i s).isSome := by
  unfold attenuate
  cases hd : c.declick with
  | false => simp
  | true =>
    have hc : c.checked = false := by
      rcases h with h | h
      · rw [hd] at h; cases h
      · exact h
    rw [hc]
    simpa using usub_unchecked n i

theorem frame1_isSome {c : Cfg} {st : St} {f : Frame}
    (h : ∀ p, p = (if f.trig then 0 else st.phase) → ∀ s,
      (attenuate c (part c.data f.offs f.len).length ⌊p⌋.toNat s).isSome) :
    (frame1 c st f).isSome := by
  unfold frame1
  have h0 : (trigd st f).phase = (if f.trig then 0 else st.phase) := by unfold trigd; split <;> rfl
  have h := h _ h0
  generalize trigd st f = st0 at h
  simp only [bind, Option.bind]
  split
  · have := h (nextSample c st0.phase f.speed (part c.data f.offs f.len)).2
    generalize attenuate c _ _ _ = o at this ⊢
    cases o with
    | none => cases this
    | some x => rfl
  · rfl

theorem run_isSome {c : Cfg} (h : c.declick = false ∨ c.checked = false) :
    ∀ (fs : List Frame) (st : St), (run c st fs).isSome := by
  intro fs
  induction fs with
  | nil => intro st; rfl
  | cons f fs ih =>
    intro st
    have h1 := frame1_isSome (c := c) (st := st) (f := f) (fun p _ s => attenuate_isSome h _ _ s)
    simp only [run, bind, Option.bind]
    cases h2 : frame1 c st f with
    | none => rw [h2] at h1; cases h1
    | some r =>
      have h3 := ih r.1
      simp only
      cases h4 : run c r.1 fs with
      | none => rw [h4] at h3; cases h3
      | some q => rfl

/-! ### The interpolation is only asked for valid places -/

theorem nextSample_valid {c : Cfg} {g : List ℚ → ℕ → ℚ → ℚ}
    (h : ∀ d i f, i < d.length → 0 ≤ f → f ≤ 1 → c.interp d i f = g d i f)
    (p v : ℚ) (d : List ℚ) : nextSample { c with interp := g } p v d = nextSample c p v d := by
  unfold nextSample
  by_cases hd : d.length < 1
  · rw [if_pos hd, if_pos hd]
  · rw [if_neg hd, if_neg hd]
    have hf0 := Int.fract_nonneg p
    have hf1 := (Int.fract_lt_one p).le
    have hi : ⌊p⌋.toNat % d.length < d.length := Nat.mod_lt _ (by omega)
    unfold Int.fract at hf0 hf1
    simp only
    cases c.reverse with
    | true =>
      simp only [if_true]
      rw [h d _ _ (by omega) (by linarith) (by linarith)]
    | false =>
      simp only [Bool.false_eq_true, if_false]
      rw [h d _ _ hi hf0 hf1]

theorem run_valid {c : Cfg} {g : List ℚ → ℕ → ℚ → ℚ}
    (h : ∀ d i f, i < d.length → 0 ≤ f → f ≤ 1 → c.interp d i f = g d i f) (fs : List Frame) :
    ∀ st, run { c with interp := g } st fs = run c st fs := by
  induction fs with
  | nil => intro st; rfl
  | cons f fs ih =>
    intro st
    have h1 : frame1 { c with interp := g } st f = frame1 c st f := by
      unfold frame1
      simp only [nextSample_valid h]
      rfl
    simp only [run, h1, ih]

end HexoDSP.Sampl
