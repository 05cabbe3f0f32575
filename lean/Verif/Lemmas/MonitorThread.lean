import Verif.Spec.MonitorThread
import Mathlib.Tactic.Linarith
import Mathlib.Data.List.Infix

set_option linter.unusedSectionVars false

namespace HexoDSP.MonitorThread.Lemmas

variable {B P S : Type}

/-- The thread holds the lock. -/
def THolds : TPc → Prop
  | .copy _ | .flag | .unlock => True
  | _ => False

/-- The user holds the lock. -/
def UHolds : UPc → Prop
  | .copy _ | .flag | .unlock => True
  | _ => False

/-- `c`: the buffers of the user's pictures, `d`: those of the shared ones, `p`: those the thread took. -/
structure Inv (E : Ext B P S) (all c d p : List B) (s : Sys B P S) : Prop where
  cd : c <+: d
  dp : d <+: p
  queue : p ++ s.queue = all
  proc : s.proc = after E p
  ht : s.holder = .thread ↔ THolds s.tpc
  hu : s.holder = .user ↔ UHolds s.upc
  tcopy : ∀ i, s.tpc = .copy i → i < 6 ∧ (∀ j, j < i → s.shared j = E.slice (after E p) j) ∧ (∀ j, i ≤ j → j < 6 → s.shared j = E.slice (after E d) j)
  shared : (∀ i, s.tpc ≠ .copy i) → Shows E d s.shared
  tflag : s.tpc = .flag ∨ s.tpc = .unlock → d = p
  ucopy : ∀ i, s.upc = .copy i → i < 6 ∧ (∀ j, j < i → s.mine j = E.slice (after E d) j) ∧ (∀ j, i ≤ j → j < 6 → s.mine j = E.slice (after E c) j)
  mine : (∀ i, s.upc ≠ .copy i) → Shows E c s.mine
  uflag : s.upc = .flag ∨ s.upc = .unlock → c = d
  fresh : s.fresh = true ∨ s.tpc = .flag ∨ c = d
  ufresh : s.upc = .lock ∨ s.upc = .flag ∨ (∃ i, s.upc = .copy i) → s.fresh = true
  newData : s.newData = true → s.tpc = .process ∨ s.tpc = .look
  current : s.newData = false → s.tpc ≠ .lock → (∀ i, s.tpc ≠ .copy i) → ∀ i, E.slice (after E d) i = E.slice (after E p) i

theorem inv_new (E : Ext B P S) (h : ∀ i, E.slice E.new i = E.empty) : Inv E [] [] [] [] (Sys.new E) where
  cd := List.prefix_refl _
  dp := List.prefix_refl _
  queue := rfl
  proc := rfl
  ht := by simp [Sys.new, THolds]
  hu := by simp [Sys.new, UHolds]
  tcopy := by simp [Sys.new]
  shared := by intro _ i _; simp [Sys.new, after, h]
  tflag := by simp [Sys.new]
  ucopy := by simp [Sys.new]
  mine := by intro _ i _; simp [Sys.new, after, h]
  uflag := by simp [Sys.new]
  fresh := by simp
  ufresh := by simp [Sys.new]
  newData := by simp [Sys.new]
  current := by simp

theorem after_snoc (E : Ext B P S) (p : List B) (b : B) : after E (p ++ [b]) = (E.process (after E p) b).1 := by
  simp [after]

theorem inv_push {E : Ext B P S} {all c d p : List B} {s : Sys B P S} (h : Inv E all c d p s) (b : B) :
    Inv E (all ++ [b]) c d p { s with queue := s.queue ++ [b] } :=
  { h with queue := by rw [← h.queue]; simp }

set_option maxHeartbeats 1000000 in
theorem inv_thread {E : Ext B P S} {all c d p : List B} {s : Sys B P S} (hE : Honest E) (h : Inv E all c d p s) :
    ∃ d' p', d <+: d' ∧ p <+: p' ∧ Inv E all c d' p' (s.threadStep E) := by
  obtain ⟨q, pr, nd, sh, mi, fr, te, ho, tp, up⟩ := s
  obtain ⟨cd, dp, hq, hp, ht, hu, tc, hs, tf, uc, hm, uf, hf, uff, hn, hcu⟩ := h
  dsimp only at *
  cases tp with
  | check =>
    refine ⟨d, p, List.prefix_refl _, List.prefix_refl _, ?_⟩
    simp only [Sys.threadStep]
    split <;> constructor <;> simp_all [THolds]
  | process =>
    cases q with
    | nil => 
      refine ⟨d, p, List.prefix_refl _, List.prefix_refl _, ?_⟩
      simp only [Sys.threadStep]
      constructor <;> simp_all [THolds]
    | cons b q =>
      refine ⟨d, p ++ [b], List.prefix_refl _, List.prefix_append _ _, ?_⟩
      simp only [Sys.threadStep]
      have e := after_snoc E p b
      constructor
      case current =>
        intro hx _ _ i
        dsimp only at hx
        rw [Bool.or_eq_false_iff] at hx
        have h1 := hcu hx.1 (by simp) (by simp) i
        rw [e, ← hp, hE.same _ _ hx.2 i, hp]
        exact h1
      case dp => exact dp.trans (List.prefix_append _ _)
      all_goals simp_all [THolds]
  | look =>
    refine ⟨d, p, List.prefix_refl _, List.prefix_refl _, ?_⟩
    simp only [Sys.threadStep]
    split <;> constructor <;> simp_all [THolds]
  | lock =>
    refine ⟨d, p, List.prefix_refl _, List.prefix_refl _, ?_⟩
    simp only [Sys.threadStep]
    split
    · subst ho
      constructor <;> simp_all [THolds, Shows]
    · constructor <;> simp_all [THolds]
  | copy i =>
    obtain ⟨i6, lo, hi⟩ := tc i rfl
    have hh : ho = .thread := ht.2 trivial
    subst hh
    have nu : ¬ UHolds up := fun x => by have := hu.2 x; cases this
    by_cases hi' : i + 1 < 6
    · refine ⟨d, p, List.prefix_refl _, List.prefix_refl _, ?_⟩
      simp only [Sys.threadStep, if_pos hi']
      constructor
      case tcopy =>
        intro k hk
        simp only [TPc.copy.injEq] at hk
        subst hk
        refine ⟨hi', fun j hj => ?_, fun j hj hj6 => ?_⟩
        · by_cases e : j = i
          · subst e; simp [put, hp]
          · simp only [put, if_neg e]; exact lo j (by omega)
        · have e : j ≠ i := by omega
          simp only [put, if_neg e]; exact hi j (by omega) hj6
      case shared => intro hx; exact absurd rfl (hx _)
      all_goals simp_all [THolds]
    · refine ⟨p, p, dp, List.prefix_refl _, ?_⟩
      have i5 : i = 5 := by omega
      subst i5
      simp only [Sys.threadStep, if_neg hi']
      have ncopy : ∀ k, up ≠ .copy k := fun k hk => nu (by rw [hk]; trivial)
      constructor
      case shared =>
        intro _ j hj
        by_cases e : j = 5
        · subst e; simp [put, hp]
        · simp only [put, if_neg e]; exact lo j (by omega)
      case cd => exact cd.trans dp
      case uflag =>
        rintro (hx | hx) <;> exact absurd (by dsimp only at hx; rw [hx]; trivial) nu
      case ucopy => intro k hk; exact absurd hk (ncopy k)
      all_goals simp_all [THolds]
  | flag =>
    have e := tf (Or.inl rfl)
    refine ⟨d, p, List.prefix_refl _, List.prefix_refl _, ?_⟩
    simp only [Sys.threadStep]
    constructor <;> simp_all [THolds]
  | unlock =>
    have e := tf (Or.inr rfl)
    have hh : ho = .thread := ht.2 trivial
    subst hh
    have nu : ¬ UHolds up := fun x => by have := hu.2 x; cases this
    refine ⟨d, p, List.prefix_refl _, List.prefix_refl _, ?_⟩
    simp only [Sys.threadStep]
    constructor <;> simp_all [THolds]
  | sleep =>
    refine ⟨d, p, List.prefix_refl _, List.prefix_refl _, ?_⟩
    simp only [Sys.threadStep]
    constructor <;> simp_all [THolds]
  | done =>
    exact ⟨d, p, List.prefix_refl _, List.prefix_refl _, ⟨cd, dp, hq, hp, ht, hu, tc, hs, tf, uc, hm, uf, hf, uff, hn, hcu⟩⟩

set_option maxHeartbeats 1000000 in
theorem inv_user {E : Ext B P S} {all c d p : List B} {s : Sys B P S} (h : Inv E all c d p s) (sees : Bool) :
    ∃ c', c <+: c' ∧ Inv E all c' d p (s.userStep sees) := by
  obtain ⟨q, pr, nd, sh, mi, fr, te, ho, tp, up⟩ := s
  obtain ⟨cd, dp, hq, hp, ht, hu, tc, hs, tf, uc, hm, uf, hf, uff, hn, hcu⟩ := h
  dsimp only at *
  cases up with
  | idle => exact ⟨c, List.prefix_refl _, ⟨cd, dp, hq, hp, ht, hu, tc, hs, tf, uc, hm, uf, hf, uff, hn, hcu⟩⟩
  | gone => exact ⟨c, List.prefix_refl _, ⟨cd, dp, hq, hp, ht, hu, tc, hs, tf, uc, hm, uf, hf, uff, hn, hcu⟩⟩
  | load =>
    refine ⟨c, List.prefix_refl _, ?_⟩
    simp only [Sys.userStep]
    split <;> constructor <;> simp_all [UHolds]
  | lock =>
    refine ⟨c, List.prefix_refl _, ?_⟩
    simp only [Sys.userStep]
    split
    · subst ho
      constructor <;> simp_all [UHolds, Shows]
    · constructor <;> simp_all [UHolds]
  | copy i =>
    obtain ⟨i6, lo, hi⟩ := uc i rfl
    have hh : ho = .user := hu.2 trivial
    subst hh
    have nt : ¬ THolds tp := fun x => by have := ht.2 x; cases this
    have ncopy : ∀ k, tp ≠ .copy k := fun k hk => nt (by rw [hk]; trivial)
    have hs' := hs ncopy
    have hfr := uff (Or.inr (Or.inr ⟨i, rfl⟩))
    by_cases hi' : i + 1 < 6
    · refine ⟨c, List.prefix_refl _, ?_⟩
      simp only [Sys.userStep, if_pos hi']
      constructor
      case ucopy =>
        intro k hk
        simp only [UPc.copy.injEq] at hk
        subst hk
        refine ⟨hi', fun j hj => ?_, fun j hj hj6 => ?_⟩
        · by_cases e : j = i
          · subst e; simp only [put, if_pos]; exact hs' j i6
          · simp only [put, if_neg e]; exact lo j (by omega)
        · have e : j ≠ i := by omega
          simp only [put, if_neg e]; exact hi j (by omega) hj6
      case mine => intro hx; exact absurd rfl (hx _)
      all_goals simp_all [UHolds]
    · refine ⟨d, cd, ?_⟩
      have i5 : i = 5 := by omega
      subst i5
      simp only [Sys.userStep, if_neg hi']
      constructor
      case mine =>
        intro _ j hj
        by_cases e : j = 5
        · subst e; simp only [put, if_pos]; exact hs' 5 i6
        · simp only [put, if_neg e]; exact lo j (by omega)
      case cd => exact List.prefix_refl _
      all_goals simp_all [UHolds]
  | flag =>
    have e := uf (Or.inl rfl)
    have hh : ho = .user := hu.2 trivial
    refine ⟨c, List.prefix_refl _, ?_⟩
    simp only [Sys.userStep]
    constructor <;> simp_all [UHolds]
  | unlock =>
    have e := uf (Or.inr rfl)
    have hh : ho = .user := hu.2 trivial
    subst hh
    have nt : ¬ THolds tp := fun x => by have := ht.2 x; cases this
    refine ⟨c, List.prefix_refl _, ?_⟩
    simp only [Sys.userStep]
    constructor <;> simp_all [UHolds]
  | join =>
    refine ⟨c, List.prefix_refl _, ?_⟩
    simp only [Sys.userStep]
    split <;> constructor <;> simp_all [UHolds]

theorem inv_get {E : Ext B P S} {all c d p : List B} {s : Sys B P S} (h : Inv E all c d p s) : Inv E all c d p (s.step E .get) := by
  obtain ⟨q, pr, nd, sh, mi, fr, te, ho, tp, up⟩ := s
  obtain ⟨cd, dp, hq, hp, ht, hu, tc, hs, tf, uc, hm, uf, hf, uff, hn, hcu⟩ := h
  dsimp only at *
  simp only [Sys.step]
  split
  · constructor <;> simp_all [UHolds]
  · exact ⟨cd, dp, hq, hp, ht, hu, tc, hs, tf, uc, hm, uf, hf, uff, hn, hcu⟩

theorem inv_drop {E : Ext B P S} {all c d p : List B} {s : Sys B P S} (h : Inv E all c d p s) : Inv E all c d p (s.step E .drop) := by
  obtain ⟨q, pr, nd, sh, mi, fr, te, ho, tp, up⟩ := s
  obtain ⟨cd, dp, hq, hp, ht, hu, tc, hs, tf, uc, hm, uf, hf, uff, hn, hcu⟩ := h
  dsimp only at *
  simp only [Sys.step]
  split
  · constructor <;> simp_all [UHolds]
  · exact ⟨cd, dp, hq, hp, ht, hu, tc, hs, tf, uc, hm, uf, hf, uff, hn, hcu⟩

theorem inv_run {E : Ext B P S} (hE : Honest E) (es : List (Ev B)) : ∀ {all c d p : List B} {s : Sys B P S}, Inv E all c d p s →
    ∃ c' d' p', c <+: c' ∧ d <+: d' ∧ p <+: p' ∧ Inv E (all ++ sent es) c' d' p' (s.run E es) := by
  induction es with
  | nil => intro all c d p s h; exact ⟨c, d, p, List.prefix_refl _, List.prefix_refl _, List.prefix_refl _, by simpa [sent, Sys.run] using h⟩
  | cons e es ih =>
    intro all c d p s h
    cases e with
    | push b =>
      obtain ⟨c', d', p', h1, h2, h3, h4⟩ := ih (inv_push h b)
      exact ⟨c', d', p', h1, h2, h3, by simpa [sent, Sys.run, Sys.step] using h4⟩
    | thread =>
      obtain ⟨d1, p1, g2, g3, hx⟩ := inv_thread hE h
      obtain ⟨c', d', p', h1, h2, h3, h4⟩ := ih hx
      exact ⟨c', d', p', h1, g2.trans h2, g3.trans h3, h4⟩
    | get => exact ih (inv_get h)
    | user =>
      obtain ⟨c1, g1, hx⟩ := inv_user h true
      obtain ⟨c', d', p', h1, h2, h3, h4⟩ := ih hx
      exact ⟨c', d', p', g1.trans h1, h2, h3, h4⟩
    | stale =>
      obtain ⟨c1, g1, hx⟩ := inv_user h false
      obtain ⟨c', d', p', h1, h2, h3, h4⟩ := ih hx
      exact ⟨c', d', p', g1.trans h1, h2, h3, h4⟩
    | drop => exact ih (inv_drop h)

theorem run_append (E : Ext B P S) (a b : List (Ev B)) : ∀ s : Sys B P S, s.run E (a ++ b) = (s.run E a).run E b := by
  induction a with
  | nil => intro s; rfl
  | cons e a ih => intro s; exact ih _

theorem sent_append (a b : List (Ev B)) : sent (a ++ b) = sent a ++ sent b := by
  induction a with
  | nil => rfl
  | cons e a ih => cases e <;> simp [sent, ih]

end HexoDSP.MonitorThread.Lemmas
