import Verif.Lemmas.MonitorThread
import Verif.Model.Monitor

set_option linter.unusedSectionVars false

namespace HexoDSP.MonitorThreadProps

open HexoDSP.MonitorThread HexoDSP.MonitorThread.Lemmas

variable {B P S : Type}

/-- After any history. -/
theorem reach {E : Ext B P S} (hE : Honest E) (es : List (Ev B)) : ∃ c d p, Inv E (sent es) c d p ((Sys.new E).run E es) := by
  obtain ⟨c, d, p, -, -, -, h⟩ := inv_run hE es (inv_new E hE.empty)
  exact ⟨c, d, p, by simpa using h⟩

/-- **C131** Whatever the threads do, between two calls the user holds the pictures of all six signals as they were after one and the same number of buffers,
in the order in which they were sent. -/
theorem one_moment {E : Ext B P S} (hE : Honest E) (es : List (Ev B)) (h : ((Sys.new E).run E es).upc = .idle) :
    ∃ bs, bs <+: sent es ∧ Shows E bs ((Sys.new E).run E es).mine := by
  obtain ⟨c, d, p, hI⟩ := reach hE es
  exact ⟨c, (hI.cd.trans hI.dp).trans ⟨_, hI.queue⟩, hI.mine (by simp [h])⟩

/-- **C131** What the user holds later is never older than what they held before. -/
theorem never_older {E : Ext B P S} (hE : Honest E) (es more : List (Ev B)) (h : ((Sys.new E).run E es).upc = .idle)
    (h' : ((Sys.new E).run E (es ++ more)).upc = .idle) :
    ∃ bs bs', bs <+: bs' ∧ bs' <+: sent (es ++ more) ∧ Shows E bs ((Sys.new E).run E es).mine ∧ Shows E bs' ((Sys.new E).run E (es ++ more)).mine := by
  obtain ⟨c, d, p, hI⟩ := reach hE es
  obtain ⟨c', d', p', hc, -, -, hI'⟩ := inv_run hE more hI
  rw [← sent_append, ← run_append] at hI'
  exact ⟨c, c', hc, (hI'.cd.trans hI'.dp).trans ⟨_, hI'.queue⟩, hI.mine (by simp [h]), hI'.mine (by simp [h'])⟩

/-- The ten steps of a call that copies. -/
def wholeGet : List (Ev B) := [.get, .user, .user, .user, .user, .user, .user, .user, .user, .user, .user]

/-- **C131** Once the monitor thread sleeps and has nothing left to take, the next call that sees the flag shows all that was sent. -/
theorem up_to_date {E : Ext B P S} (hE : Honest E) (es : List (Ev B)) (hu : ((Sys.new E).run E es).upc = .idle)
    (ht : ((Sys.new E).run E es).tpc = .sleep) (hq : ((Sys.new E).run E es).queue = []) :
    ((Sys.new E).run E (es ++ wholeGet)).upc = .idle ∧ Shows E (sent es) ((Sys.new E).run E (es ++ wholeGet)).mine := by
  obtain ⟨c, d, p, hI⟩ := reach hE es
  rw [run_append]
  generalize (Sys.new E).run E es = s at *
  obtain ⟨q, pr, nd, sh, mi, fr, te, ho, tp, up⟩ := s
  obtain ⟨cd, dp, hq', hp, htt, huu, tc, hs, tf, uc, hm, uf, hf, uff, hn, hcu⟩ := hI
  dsimp only at *
  subst ht; subst hu; subst hq
  have hnd : nd = false := by
    cases nd with
    | false => rfl
    | true => have := hn rfl; simp at this
  have hpa : p = sent es := by simpa using hq'
  subst hpa
  have hcur := hcu hnd (by simp) (by simp)
  have hsh := hs (by simp)
  have hmi := hm (by simp)
  have hho : ho = .nobody := by
    cases ho with
    | nobody => rfl
    | thread => exact (htt.1 rfl).elim
    | user => exact (huu.1 rfl).elim
  subst hho
  cases fr with
  | true =>
    refine ⟨by simp [wholeGet, Sys.run, Sys.step, Sys.userStep], ?_⟩
    intro i hi
    rw [← hcur, ← hsh i hi]
    have : i = 0 ∨ i = 1 ∨ i = 2 ∨ i = 3 ∨ i = 4 ∨ i = 5 := by omega
    rcases this with rfl | rfl | rfl | rfl | rfl | rfl <;> simp [wholeGet, Sys.run, Sys.step, Sys.userStep, put]
  | false =>
    refine ⟨by simp [wholeGet, Sys.run, Sys.step, Sys.userStep], ?_⟩
    have e : c = d := by simpa using hf
    subst e
    intro i hi
    rw [← hcur, ← hmi i hi]
    simp [wholeGet, Sys.run, Sys.step, Sys.userStep]



theorem user_ends (s : Sys B P S) (E : Ext B P S) (h1 : s.holder ≠ .thread) (h2 : s.holder = .user ↔ UHolds s.upc) (h3 : ∀ i, s.upc = .copy i → i < 6)
    (h4 : s.upc ≠ .join) (h5 : s.upc ≠ .gone) : (s.run E (List.replicate 10 .user)).upc = .idle := by
  obtain ⟨q, pr, nd, sh, mi, fr, te, ho, tp, up⟩ := s
  dsimp only at *
  have e : List.replicate 10 (Ev.user : Ev B) = [.user, .user, .user, .user, .user, .user, .user, .user, .user, .user] := rfl
  rw [e]
  cases up with
  | idle => simp [Sys.run, Sys.step, Sys.userStep]
  | load =>
    have hho : ho = .nobody := by
      cases ho with
      | nobody => rfl
      | thread => exact absurd rfl h1
      | user => exact (h2.1 rfl).elim
    cases fr <;> simp [Sys.run, Sys.step, Sys.userStep, hho]
  | lock =>
    have hho : ho = .nobody := by
      cases ho with
      | nobody => rfl
      | thread => exact absurd rfl h1
      | user => exact (h2.1 rfl).elim
    simp [Sys.run, Sys.step, Sys.userStep, hho]
  | copy i =>
    have hi := h3 i rfl
    have : i = 0 ∨ i = 1 ∨ i = 2 ∨ i = 3 ∨ i = 4 ∨ i = 5 := by omega
    rcases this with rfl | rfl | rfl | rfl | rfl | rfl <;> simp [Sys.run, Sys.step, Sys.userStep]
  | flag => simp [Sys.run, Sys.step, Sys.userStep]
  | unlock => simp [Sys.run, Sys.step, Sys.userStep]
  | join => exact absurd rfl h4
  | gone => exact absurd rfl h5

/-- The steps of the thread until the lock is free. -/
def toFree : TPc → Nat
  | .copy i => 8 - i
  | .flag => 2
  | .unlock => 1
  | _ => 0

theorem frees (E : Ext B P S) : ∀ (n : Nat) (s : Sys B P S), toFree s.tpc = n → (s.holder = .thread ↔ THolds s.tpc) → (∀ i, s.tpc = .copy i → i < 6) →
    (s.run E (List.replicate n .thread)).holder ≠ .thread ∧ (s.run E (List.replicate n .thread)).upc = s.upc ∧
      (s.holder ≠ .thread ∨ ¬ UHolds s.upc → ((s.run E (List.replicate n .thread)).holder = .user ↔ s.holder = .user)) := by
  intro n
  induction n with
  | zero =>
    intro s h hh hc
    have hn : ¬ THolds s.tpc := by
      revert h; cases ht : s.tpc <;> simp [toFree, THolds]
      rename_i i
      have := hc i ht
      omega
    exact ⟨fun x => hn (hh.1 x), rfl, fun _ => Iff.rfl⟩
  | succ n ih =>
    intro s h hh hc
    have hT : THolds s.tpc := by
      revert h; cases s.tpc <;> simp [toFree, THolds]
    have hho : s.holder = .thread := hh.2 hT
    obtain ⟨q, pr, nd, sh, mi, fr, te, ho, tp, up⟩ := s
    dsimp only at *
    subst hho
    rw [List.replicate_succ, Sys.run]
    cases tp with
    | copy i =>
      have hi := hc i rfl
      simp only [toFree] at h
      have key := ih (Sys.step E ⟨q, pr, nd, sh, mi, fr, te, .thread, .copy i, up⟩ .thread)
      simp only [Sys.step, Sys.threadStep] at key ⊢
      have := key (by split <;> simp [toFree] <;> omega) (by split <;> simp [THolds]) (by
        intro k; split
        · intro e; simp only [TPc.copy.injEq] at e; omega
        · simp)
      exact ⟨this.1, this.2.1, fun g => this.2.2 (by simpa using g)⟩
    | flag =>
      simp only [toFree] at h
      have key := ih (Sys.step E ⟨q, pr, nd, sh, mi, fr, te, .thread, .flag, up⟩ .thread)
      simp only [Sys.step, Sys.threadStep] at key ⊢
      have := key (by simp [toFree]; omega) (by simp [THolds]) (by simp)
      exact ⟨this.1, this.2.1, fun g => this.2.2 (by simpa using g)⟩
    | unlock =>
      simp only [toFree] at h
      have key := ih (Sys.step E ⟨q, pr, nd, sh, mi, fr, te, .thread, .unlock, up⟩ .thread)
      simp only [Sys.step, Sys.threadStep] at key ⊢
      have := key (by simp [toFree]; omega) (by simp [THolds]) (by simp)
      refine ⟨this.1, this.2.1, fun g => ?_⟩
      rw [this.2.2 (by simp)]
      simp
    | check => exact hT.elim
    | process => exact hT.elim
    | look => exact hT.elim
    | lock => exact hT.elim
    | sleep => exact hT.elim
    | done => exact hT.elim

/-- **C131** A call never waits for ever: wherever the threads are, at most eight steps of the monitor thread free the lock, and then ten steps of its own end
the call. -/
theorem get_returns {E : Ext B P S} (hE : Honest E) (es : List (Ev B)) (h1 : ((Sys.new E).run E es).upc ≠ .join)
    (h2 : ((Sys.new E).run E es).upc ≠ .gone) :
    ∃ n, n ≤ 8 ∧ ((Sys.new E).run E (es ++ (List.replicate n .thread ++ List.replicate 10 .user))).upc = .idle := by
  obtain ⟨c, d, p, hI⟩ := reach hE es
  simp only [run_append]
  generalize (Sys.new E).run E es = s at *
  obtain ⟨f1, f2, f3⟩ := frees E _ s rfl hI.ht (fun i hi => (hI.tcopy i hi).1)
  refine ⟨toFree s.tpc, ?_, ?_⟩
  · cases s.tpc <;> simp [toFree]
  · refine user_ends _ E f1 ?_ (fun i hi => (hI.ucopy i (f2 ▸ hi)).1) (f2 ▸ h1) (f2 ▸ h2)
    rw [f2, ← hI.hu]
    apply f3
    by_cases g : s.holder = .thread
    · right; rw [← hI.hu, g]; simp
    · exact Or.inl g

/-- The steps of the thread until it ends. -/
def left (s : Sys B P S) : Nat := match s.tpc with
  | .check => 1
  | .sleep => 2
  | .unlock => 3
  | .flag => 4
  | .copy i => 10 - i
  | .lock => 11
  | .look => 12
  | .process => s.queue.length + 13
  | .done => 0

theorem left_step (E : Ext B P S) (s : Sys B P S) (ht : s.terminate = true) (hu : s.holder ≠ .user) (hth : s.holder = .thread ↔ THolds s.tpc)
    (hc : ∀ i, s.tpc = .copy i → i < 6) : left (s.threadStep E) ≤ left s - 1 := by
  obtain ⟨q, pr, nd, sh, mi, fr, te, ho, tp, up⟩ := s
  dsimp only at *
  subst ht
  cases tp with
  | check => simp [left, Sys.threadStep]
  | process => cases q <;> simp [left, Sys.threadStep] <;> omega
  | look => cases nd <;> simp [left, Sys.threadStep]
  | lock =>
    have hho : ho = .nobody := by
      cases ho with
      | nobody => rfl
      | thread => exact (hth.1 rfl).elim
      | user => exact absurd rfl hu
    simp [left, Sys.threadStep, hho]
  | copy i =>
    have hi := hc i rfl
    simp only [left, Sys.threadStep]
    by_cases h : i + 1 < 6
    · simp only [if_pos h]; omega
    · simp only [if_neg h]; omega
  | flag => simp [left, Sys.threadStep]
  | unlock => simp [left, Sys.threadStep]
  | sleep => simp [left, Sys.threadStep]
  | done => simp [left, Sys.threadStep]

theorem other_step (E : Ext B P S) (s : Sys B P S) (e : Ev B) (ht : s.terminate = true) (hp : sent [e] = []) (hu : s.upc = .join ∨ s.upc = .gone ∧ s.tpc = .done) :
    (s.step E e).terminate = true ∧ ((s.step E e).upc = .join ∨ (s.step E e).upc = .gone ∧ (s.step E e).tpc = .done) ∧ (threadSteps [e] = 0 → left (s.step E e) = left s) := by
  obtain ⟨q, pr, nd, sh, mi, fr, te, ho, tp, up⟩ := s
  dsimp only at *
  subst ht
  cases e with
  | push b => simp [sent] at hp
  | thread =>
    rcases hu with rfl | ⟨rfl, rfl⟩
    · refine ⟨?_, ?_, ?_⟩
      · simp only [Sys.step, Sys.threadStep]; split <;> (try split) <;> simp_all
      · left; simp only [Sys.step, Sys.threadStep]; split <;> (try split) <;> simp_all
      · simp [threadSteps]
    · simp [Sys.step, Sys.threadStep]
  | get => rcases hu with rfl | ⟨rfl, rfl⟩ <;> simp [Sys.step, left]
  | user =>
    rcases hu with rfl | ⟨rfl, rfl⟩
    · simp only [Sys.step, Sys.userStep]
      split <;> simp_all [left]
    · simp [Sys.step, Sys.userStep]
  | stale =>
    rcases hu with rfl | ⟨rfl, rfl⟩
    · simp only [Sys.step, Sys.userStep]
      split <;> simp_all [left]
    · simp [Sys.step, Sys.userStep]
  | drop => rcases hu with rfl | ⟨rfl, rfl⟩ <;> simp [Sys.step, left]

theorem ends {E : Ext B P S} (hE : Honest E) (es : List (Ev B)) : ∀ {all c d p : List B} {s : Sys B P S}, Inv E all c d p s → s.terminate = true →
    (s.upc = .join ∨ s.upc = .gone ∧ s.tpc = .done) → sent es = [] → left s ≤ threadSteps es →
    (s.run E es).tpc = .done ∧ ((s.run E es).upc = .join ∨ (s.run E es).upc = .gone) := by
  induction es with
  | nil =>
    intro all c d p s h ht hu _ hl
    have h0 : left s = 0 := by simpa [threadSteps] using hl
    refine ⟨?_, hu.imp_right And.left⟩
    revert h0
    simp only [left, Sys.run]
    cases hc : s.tpc <;> simp
    rename_i i
    have := (h.tcopy i hc).1
    omega
  | cons e es ih =>
    intro all c d p s h ht hu hs hl
    have he : sent [e] = [] ∧ sent es = [] := by
      have : sent (e :: es) = sent [e] ++ sent es := by rw [← sent_append]; rfl
      rw [this] at hs
      simpa using hs
    obtain ⟨o1, o2, o3⟩ := other_step E s e ht he.1 hu
    obtain ⟨c', d', p', -, -, -, hI⟩ := inv_run hE [e] h
    refine ih hI o1 o2 he.2 ?_
    have hnu : s.holder ≠ .user := by
      intro g
      have := h.hu.1 g
      rcases hu with g' | ⟨g', -⟩ <;> rw [g'] at this <;> exact this
    cases e with
    | thread =>
      have := left_step E s ht hnu h.ht (fun i hi => (h.tcopy i hi).1)
      simp only [threadSteps] at hl
      show left (s.threadStep E) ≤ _
      omega
    | push b => simp [sent] at he
    | get => have := o3 rfl; simp only [threadSteps] at hl; omega
    | user => have := o3 rfl; simp only [threadSteps] at hl; omega
    | stale => have := o3 rfl; simp only [threadSteps] at hl; omega
    | drop => have := o3 rfl; simp only [threadSteps] at hl; omega

theorem joined_terminates (E : Ext B P S) (es : List (Ev B)) : ∀ s : Sys B P S, (s.upc = .join → s.terminate = true) → (s.run E es).upc = .join →
    (s.run E es).terminate = true := by
  induction es with
  | nil => intro s h; exact h
  | cons e es ih =>
    intro s h
    apply ih
    obtain ⟨q, pr, nd, sh, mi, fr, te, ho, tp, up⟩ := s
    dsimp only at h
    cases e with
    | push b => exact h
    | thread => simp only [Sys.step, Sys.threadStep]; split <;> (try split) <;> simp_all
    | get => simp only [Sys.step]; split <;> simp_all
    | user => simp only [Sys.step, Sys.userStep]; split <;> (try split) <;> simp_all
    | stale => simp only [Sys.step, Sys.userStep]; split <;> (try split) <;> simp_all
    | drop => simp only [Sys.step]; split <;> simp_all

/-- **C131** Dropping the monitor ends its thread and returns, however the steps are mixed, if the audio thread sends nothing more; the number of steps
depends only on the buffers that wait. -/
theorem drop_returns_partial {E : Ext B P S} (hE : Honest E) (es later : List (Ev B)) (hd : ((Sys.new E).run E es).upc = .join) (hs : sent later = [])
    (hn : ((Sys.new E).run E es).queue.length + 13 ≤ threadSteps later) :
    ((Sys.new E).run E (es ++ (later ++ [.user]))).tpc = .done ∧ ((Sys.new E).run E (es ++ (later ++ [.user]))).upc = .gone := by
  obtain ⟨c, d, p, hI⟩ := reach hE es
  have ht := joined_terminates E es (Sys.new E) (by simp [Sys.new]) hd
  rw [run_append, run_append]
  generalize (Sys.new E).run E es = s at *
  have hl : left s ≤ threadSteps later := by
    refine le_trans ?_ hn
    simp only [left]
    split <;> omega
  obtain ⟨h1, h2⟩ := ends hE later hI ht (Or.inl hd) hs hl
  rcases h2 with h2 | h2 <;> simp [Sys.run, Sys.step, Sys.userStep, h1, h2]

/-- **C131** If the audio thread always sends the next buffer before the queue is empty, the thread never looks at the request to end: dropping the monitor
does not return, however many steps the threads make. -/
theorem drop_may_not_return (E : Ext B P S) (b : B) (n : Nat) :
    ((Sys.new E).run E ([.thread, .drop] ++ (List.replicate n [.push b, .thread, .user]).flatten)).upc = .join := by
  rw [run_append]
  have h : ∀ (n : Nat) (s : Sys B P S), s.upc = .join → s.tpc = .process → s.queue = [] →
      (s.run E (List.replicate n [.push b, .thread, .user]).flatten).upc = .join := by
    intro n
    induction n with
    | zero => intro s h _ _; exact h
    | succ n ih =>
      intro s h1 h2 h3
      rw [List.replicate_succ, List.flatten_cons, run_append]
      apply ih <;> simp [Sys.run, Sys.step, Sys.threadStep, Sys.userStep, h1, h2, h3]
  exact h n _ (by simp [Sys.run, Sys.step, Sys.threadStep, Sys.new]) (by simp [Sys.run, Sys.step, Sys.threadStep, Sys.new]) (by simp [Sys.run, Sys.step, Sys.threadStep, Sys.new])

/-! ## The monitor of `Verif/Model/Monitor.lean` -/

/-- The processor as it is modelled there. -/
def real : Ext Monitor.Buf (Nat → Monitor.MinMax) Monitor.Samples where
  new := fun _ => Monitor.MinMax.new
  process ps b := match Monitor.processFrom (List.range 6) ps false b with
    | none => (ps, false)
    | some (ps, nd, _) => (ps, nd)
  slice ps i := ⟨(ps i).buf, (ps i).wp⟩
  empty := Monitor.Samples.new

theorem process_keeps (n : Nat) : ∀ (m : Monitor.MinMax) (b : Monitor.Buf) (i : Nat) (m' : Monitor.MinMax) (b' : Monitor.Buf),
    Monitor.MinMax.process n m b i = some (false, m', b') → m'.buf = m.buf ∧ m'.wp = m.wp := by
  induction n with
  | zero => intro m b i m' b' h; simp only [Monitor.MinMax.process] at h; split at h <;> simp_all
  | succ n ih =>
    intro m b i m' b' h
    simp only [Monitor.MinMax.process] at h
    split at h
    · cases h
    · simp_all
    · rename_i x b1 _
      rw [Option.map_eq_some_iff] at h
      obtain ⟨⟨q, m1, b2⟩, h1, h2⟩ := h
      simp only [Prod.mk.injEq, Bool.or_eq_false_iff] at h2
      obtain ⟨⟨h2, h3⟩, h4, h5⟩ := h2
      subst h3 h4 h5
      obtain ⟨e1, e2⟩ := ih _ _ _ _ _ h1
      rw [e1, e2]
      revert h2
      simp only [Monitor.MinMax.sample]
      split <;> simp

theorem processFrom_keeps (is : List Nat) : ∀ (ps : Nat → Monitor.MinMax) (nd : Bool) (b : Monitor.Buf) (ps' : Nat → Monitor.MinMax) (b' : Monitor.Buf),
    Monitor.processFrom is ps nd b = some (ps', false, b') → ∀ i, (ps' i).buf = (ps i).buf ∧ (ps' i).wp = (ps i).wp := by
  induction is with
  | nil => intro ps nd b ps' b' h i; simp only [Monitor.processFrom, Option.some.injEq, Prod.mk.injEq] at h; simp [h.1]
  | cons k is ih =>
    intro ps nd b ps' b' h i
    have mono : ∀ (is : List Nat) (ps : Nat → Monitor.MinMax) (b : Monitor.Buf) (ps' : Nat → Monitor.MinMax) (b' : Monitor.Buf),
        Monitor.processFrom is ps true b ≠ some (ps', false, b') := by
      intro is
      induction is with
      | nil => intro ps b ps' b' h; simp [Monitor.processFrom] at h
      | cons k is ih =>
        intro ps b ps' b' h
        simp only [Monitor.processFrom] at h
        split at h
        · cases h
        · rw [Bool.true_or] at h; exact ih _ _ _ _ h
    simp only [Monitor.processFrom] at h
    split at h
    · cases h
    · rename_i new m b1 hm
      cases new with
      | true => rw [Bool.or_true] at h; exact absurd h (mono _ _ _ _ _)
      | false =>
        obtain ⟨e1, e2⟩ := ih _ _ _ _ _ h i
        obtain ⟨g1, g2⟩ := process_keeps _ _ _ _ _ _ hm
        rw [e1, e2]
        split
        · rename_i e; subst e; exact ⟨g1, g2⟩
        · exact ⟨rfl, rfl⟩

/-- **C131** The hypothesis is true of the monitor: its pictures change only with a new point. -/
theorem real_honest : Honest real where
  same := by
    intro p b h i
    simp only [real] at h ⊢
    split at h
    · rfl
    · rename_i ps nd b' e
      dsimp only at h
      subst h
      obtain ⟨h1, h2⟩ := processFrom_keeps _ _ _ _ _ _ e i
      simp [h1, h2]
  empty := by intro i; rfl

/-- A monitor that shows the number of its buffers; every second one makes a new point. -/
def exE : Ext Nat (Nat × Nat) Nat where
  new := (0, 0)
  process p b := if b % 2 = 0 then ((p.1 + 1, b), true) else (p, false)
  slice p i := p.1 * 10 + (if p.1 = 0 then 0 else i)
  empty := 0

/-- A history in which the user calls while the thread copies: the call waits for the lock, then shows the pictures after two points. -/
def exEs : List (Ev Nat) :=
  [.push 2, .push 3, .thread, .thread, .thread, .thread, .thread, .thread, .thread, .thread, .thread, .thread, .thread, .thread, .thread, .thread, .thread,
   .push 4, .thread, .thread, .thread, .thread, .thread, .thread, .get, .user, .user, .user, .thread, .thread, .thread, .thread, .thread, .thread, .thread]

example : Honest exE := by
  constructor
  · intro p b h i
    simp only [exE] at h ⊢
    split at h
    · cases h
    · rename_i e; rw [if_neg e]
  · intro i; rfl

example : ((Sys.new exE).run exE exEs).upc = .lock ∧ ((Sys.new exE).run exE exEs).holder = .nobody ∧
    ((Sys.new exE).run exE (exEs ++ List.replicate 9 .user)).upc = .idle ∧
    (List.range 6).map ((Sys.new exE).run exE (exEs ++ List.replicate 9 .user)).mine = [20, 21, 22, 23, 24, 25] := by decide +kernel

example : ((Sys.new exE).run exE (exEs ++ List.replicate 9 .user ++ [.drop])).upc = .join ∧
    ((Sys.new exE).run exE (exEs ++ List.replicate 9 .user ++ [.drop] ++ List.replicate 13 .thread ++ [.user])).upc = .gone := by decide +kernel

end HexoDSP.MonitorThreadProps
