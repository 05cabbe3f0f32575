import Verif.Spec.DropThread
/-! The drop thread. -/

namespace HexoDSP.DropThreadProps
open HexoDSP.DropThread DropThreadSpec

variable {α : Type}

/-- Everything in the system. -/
def everything (s : Sys α) : List α := s.byAudio ++ (s.byThread ++ (s.byExecDrop ++ s.queue))

theorem run_append (cap : Nat) (a b : List (Ev α)) : ∀ s : Sys α, s.run cap (a ++ b) = (s.run cap a).run cap b := by
  induction a with
  | nil => intro s; rfl
  | cons e a ih => intro s; exact ih _

/-- A dropped executor with a finished thread leaves an empty queue. -/
def Clean (s : Sys α) : Prop := (s.pc = .done → s.exec = false → s.queue = []) ∧ (s.byExecDrop ≠ [] → s.pc = .done ∧ s.exec = false)

theorem clean_step (cap : Nat) (s : Sys α) (h : Clean s) (e : Ev α) : Clean (s.step cap e) := by
  obtain ⟨h1, h2⟩ := h
  cases e with
  | push x =>
    simp only [Sys.step]
    split
    · rename_i hx
      split
      · exact ⟨fun _ h => by simp [hx] at h, h2⟩
      · exact ⟨h1, h2⟩
    · exact ⟨h1, h2⟩
  | thread =>
    simp only [Sys.step]
    cases hp : s.pc with
    | check =>
      have h2' : s.byExecDrop = [] := Classical.byContradiction fun hc => by have := (h2 hc).1; simp [hp] at this
      simp only
      split
      · split
        · rename_i hx
          exact ⟨fun _ h => by simp [hx] at h, fun hc => absurd h2' hc⟩
        · exact ⟨fun _ _ => rfl, fun hc => absurd h2' hc⟩
      · exact ⟨fun h => by simp at h, fun hc => absurd h2' hc⟩
    | drain =>
      have h2' : s.byExecDrop = [] := Classical.byContradiction fun hc => by have := (h2 hc).1; simp [hp] at this
      simp only
      split
      · exact ⟨fun h => by simp [hp] at h, fun hc => absurd h2' hc⟩
      · exact ⟨fun h => by simp at h, fun hc => absurd h2' hc⟩
    | sleep =>
      have h2' : s.byExecDrop = [] := Classical.byContradiction fun hc => by have := (h2 hc).1; simp [hp] at this
      exact ⟨fun h => by simp at h, fun hc => absurd h2' hc⟩
    | done => exact ⟨h1, h2⟩
  | dropConf => exact ⟨h1, h2⟩
  | dropExec =>
    simp only [Sys.step]
    split
    · split
      · rename_i hp
        exact ⟨fun _ _ => rfl, fun _ => ⟨hp, rfl⟩⟩
      · rename_i hp
        exact ⟨fun h => absurd h hp, fun hc => absurd (h2 hc).1 hp⟩
    · exact ⟨h1, h2⟩

theorem clean_run (cap : Nat) (es : List (Ev α)) : ∀ s : Sys α, Clean s → Clean (s.run cap es) := by
  induction es with
  | nil => intro s h; exact h
  | cons e es ih => intro s h; exact ih _ (clean_step cap s h e)

theorem handed_cons (a : Bool) (e : Ev α) (es : List (Ev α)) : ∃ l a', handedOver a (e :: es) = l ++ handedOver a' es ∧
    (∀ cap (s : Sys α), s.exec = a → (s.step cap e).exec = a') ∧
    (l = match e with | .push x => if a then [x] else [] | _ => []) := by
  cases e with
  | push x => cases a
              · exact ⟨[], false, rfl, fun cap s h => by simp [Sys.step, h], rfl⟩
              · refine ⟨[x], true, rfl, fun cap s h => ?_, rfl⟩
                simp only [Sys.step, h, if_true]
                split <;> rfl
  | thread =>
    refine ⟨[], a, by cases a <;> rfl, fun cap s h => ?_, rfl⟩
    simp only [Sys.step]
    cases s.pc with
    | check => simp only; split <;> (try split) <;> exact h
    | drain => simp only; split <;> exact h
    | sleep => exact h
    | done => exact h
  | dropConf => exact ⟨[], a, by cases a <;> rfl, fun cap s h => h, rfl⟩
  | dropExec =>
    refine ⟨[], false, by cases a <;> rfl, fun cap s h => ?_, rfl⟩
    simp only [Sys.step]
    split
    · split <;> rfl
    · rename_i hx; simpa using hx

theorem perm_step (cap : Nat) (s : Sys α) (e : Ev α) :
    (everything (s.step cap e)).Perm (everything s ++ (match e with | .push x => if s.exec then [x] else [] | _ => [])) := by
  unfold everything
  cases e with
  | push x =>
    simp only [Sys.step]
    split
    · split
      · simp
      · simp only [List.append_assoc]
        refine List.Perm.append_left _ ?_
        have := @List.perm_append_comm _ [x] (s.byThread ++ (s.byExecDrop ++ s.queue))
        simpa using this
    · simp
  | thread =>
    simp only [Sys.step]
    cases s.pc with
    | check =>
      simp only
      split
      · split
        · simp
        · simp only [List.append_nil, List.append_assoc]
          exact List.Perm.append_left _ (List.Perm.append_left _ List.perm_append_comm)
      · simp
    | drain =>
      simp only
      split
      · rename_i x q hq
        rw [hq]
        simp only [List.append_nil, List.append_assoc]
        refine List.Perm.append_left _ (List.Perm.append_left _ ?_)
        have : (s.byExecDrop ++ x :: q).Perm (x :: (s.byExecDrop ++ q)) := List.perm_middle
        exact this.symm
      · simp
    | sleep => simp
    | done => simp
  | dropConf => simp [Sys.step]
  | dropExec =>
    simp only [Sys.step]
    split
    · split
      · simp
      · simp
    · simp

theorem perm_run (cap : Nat) (es : List (Ev α)) : ∀ s : Sys α,
    (everything (s.run cap es)).Perm (everything s ++ handedOver s.exec es) := by
  induction es with
  | nil => intro s; simp [handedOver, Sys.run]
  | cons e es ih =>
    intro s
    obtain ⟨l, a', h1, h2, h3⟩ := handed_cons s.exec e es
    have h4 := ih (s.step cap e)
    rw [h2 cap s rfl] at h4
    rw [h1, ← List.append_assoc]
    refine h4.trans (List.Perm.append_right _ ?_)
    rw [h3]
    exact perm_step cap s e

/-- **C103** (nothing lost, nothing freed twice) In every interleaving of the threads, each thing the audio thread gave away is in exactly one place: still
in the queue, or freed once. -/
theorem freed_once (cap : Nat) (es : List (Ev α)) :
    let s := (Sys.new : Sys α).run cap es
    (s.byAudio ++ (s.byThread ++ (s.byExecDrop ++ s.queue))).Perm (handedOver true es) := by
  have := perm_run cap es (Sys.new : Sys α)
  simpa [everything, Sys.new] using this

/-- **C103** (no leak) Once the executor is dropped and the thread has returned (in any order), nothing is left: everything given away has been freed once. -/
theorem all_freed_at_the_end (cap : Nat) (es : List (Ev α)) :
    let s := (Sys.new : Sys α).run cap es
    s.pc = .done → s.exec = false → s.queue = [] ∧ (s.byAudio ++ (s.byThread ++ s.byExecDrop)).Perm (handedOver true es) := by
  intro s hp he
  have hq := (clean_run cap es Sys.new ⟨fun h => by simp [Sys.new] at h, fun h => by simp [Sys.new] at h⟩).1 hp he
  refine ⟨hq, ?_⟩
  have h := freed_once cap es
  simp only [hq] at h
  simpa using h

/-! ### The audio thread -/

theorem queue_le (cap : Nat) (s : Sys α) (e : Ev α) :
    (s.step cap e).queue.length ≤ s.queue.length + pushes [e] ∧
    (s.queue.length + pushes [e] ≤ cap → (s.step cap e).byAudio = s.byAudio) := by
  cases e with
  | push x =>
    simp only [Sys.step, pushes]
    split
    · split
      · exact ⟨by simp, fun _ => rfl⟩
      · rename_i h
        exact ⟨by simp, fun h' => by omega⟩
    · exact ⟨by simp, fun _ => rfl⟩
  | thread =>
    simp only [Sys.step, pushes]
    cases s.pc with
    | check => simp only; split <;> (try split) <;> simp
    | drain =>
      simp only
      split
      · rename_i x q hq; simp [hq]
      · simp
    | sleep => simp
    | done => simp
  | dropConf => simp [Sys.step, pushes]
  | dropExec =>
    simp only [Sys.step, pushes]
    split
    · split <;> simp
    · simp

theorem pushes_cons (e : Ev α) (es : List (Ev α)) : pushes (e :: es) = pushes [e] + pushes es := by
  cases e <;> simp [pushes] <;> omega

theorem no_audio_free (cap : Nat) (es : List (Ev α)) : ∀ s : Sys α, s.queue.length + pushes es ≤ cap → (s.run cap es).byAudio = s.byAudio := by
  induction es with
  | nil => intro s _; rfl
  | cons e es ih =>
    intro s h
    rw [pushes_cons] at h
    obtain ⟨h1, h2⟩ := queue_le cap s e
    simp only [Sys.run]
    rw [ih _ (by omega), h2 (by omega)]

/-- **C103** (partly) From a moment at which the drop thread has emptied the queue, the audio thread frees nothing itself for as long as it gives away no more
than the queue holds, whatever the schedule. (The English property has no such limit; see `audio_thread_frees`.) -/
theorem audio_thread_frees_nothing_partial (cap : Nat) (es later : List (Ev α)) (hq : ((Sys.new : Sys α).run cap es).queue = [])
    (hl : pushes later ≤ cap) :
    ((Sys.new : Sys α).run cap (es ++ later)).byAudio = ((Sys.new : Sys α).run cap es).byAudio := by
  rw [run_append]
  exact no_audio_free cap later _ (by simpa [hq] using hl)

theorem push_many (cap : Nat) (xs : List α) : ∀ s : Sys α, s.exec = true → s.queue.length + xs.length ≤ cap →
    s.run cap (xs.map .push) = { s with queue := s.queue ++ xs } := by
  induction xs with
  | nil => intro s _ _; simp [Sys.run]
  | cons x xs ih =>
    intro s he hc
    simp only [List.length_cons] at hc
    have e : s.step cap (.push x) = { s with queue := s.queue ++ [x] } := by
      simp only [Sys.step]
      rw [if_pos he, if_pos (by omega)]
    simp only [List.map_cons, Sys.run]
    rw [e]
    have h := ih { s with queue := s.queue ++ [x] } he (by simp only [List.length_append, List.length_singleton]; omega)
    simpa using h

/-- **C103** (false in general) However large the queue: if the audio thread gives away one thing more than fits while the drop thread sleeps, it frees that
one itself. -/
theorem audio_thread_frees (cap : Nat) (xs : List α) (x : α) (h : xs.length = cap) :
    ((Sys.new : Sys α).run cap (xs.map .push ++ [.push x])).byAudio = [x] := by
  rw [run_append, push_many cap xs _ rfl (by simp [Sys.new, h])]
  simp [Sys.run, Sys.step, Sys.new, h]

/-! ### The order -/

theorem sublist_run (cap : Nat) (es : List (Ev α)) : ∀ s : Sys α,
    List.Sublist ((s.run cap es).byThread ++ ((s.run cap es).byExecDrop ++ (s.run cap es).queue))
      ((s.byThread ++ (s.byExecDrop ++ s.queue)) ++ handedOver s.exec es) ∨ ¬ Clean s := by
  induction es with
  | nil => intro s; left; simp [handedOver, Sys.run]
  | cons e es ih =>
    intro s
    by_cases hc : Clean s
    · left
      rcases ih (s.step cap e) with h4 | h4
      · obtain ⟨l, a', h1, h2, h3⟩ := handed_cons s.exec e es
        rw [h2 cap s rfl] at h4
        rw [h1, ← List.append_assoc (s.byThread ++ (s.byExecDrop ++ s.queue)) l]
        refine h4.trans (List.Sublist.append_right ?_ _)
        rw [h3]
        cases e with
        | push x =>
          simp only [Sys.step]
          split
          · split
            · simp
            · exact List.sublist_append_left _ _
          · simp
        | thread =>
          simp only [Sys.step]
          cases hp : s.pc with
          | check =>
            have h2' : s.byExecDrop = [] := Classical.byContradiction fun hx => by have := (hc.2 hx).1; simp [hp] at this
            simp only
            split
            · split
              · simp
              · simp [h2']
            · simp
          | drain =>
            have h2' : s.byExecDrop = [] := Classical.byContradiction fun hx => by have := (hc.2 hx).1; simp [hp] at this
            simp only
            split
            · rename_i x q hq
              simp [h2', hq]
            · simp
          | sleep => simp
          | done => simp
        | dropConf => simp [Sys.step]
        | dropExec =>
          simp only [Sys.step]
          split
          · split <;> simp
          · simp
      · exact absurd (clean_step cap s hc e) h4
    · right; exact hc

/-- **C103** (order) What does not go to the audio thread is freed in the order in which it was given away. -/
theorem freed_in_order (cap : Nat) (es : List (Ev α)) :
    let s := (Sys.new : Sys α).run cap es
    List.Sublist (s.byThread ++ (s.byExecDrop ++ s.queue)) (handedOver true es) := by
  rcases sublist_run cap es (Sys.new : Sys α) with h | h
  · simpa [Sys.new] using h
  · exact absurd ⟨fun h => by simp [Sys.new] at h, fun h => by simp [Sys.new] at h⟩ h

/-! ### The end of the thread -/

/-- Steps until the thread has ended at the latest, when `terminate` is set and nothing is handed over any more. -/
def left (s : Sys α) : Nat := match s.pc with
  | .check => 1
  | .sleep => 2
  | .drain => s.queue.length + 3
  | .done => 0

theorem left_step (cap : Nat) (s : Sys α) (e : Ev α) (ht : s.terminate = true) (hp : pushes [e] = 0) :
    (s.step cap e).terminate = true ∧ left (s.step cap e) + threadSteps [e] ≤ max (left s) (threadSteps [e]) := by
  cases e with
  | push x => simp [pushes] at hp
  | dropConf => simp [Sys.step, left, threadSteps]
  | dropExec =>
    simp only [Sys.step]
    split
    · split
      · rename_i h; simp [left, threadSteps, h, ht]
      · exact ⟨ht, by simp [left, threadSteps]⟩
    · exact ⟨ht, by simp [threadSteps]⟩
  | thread =>
    simp only [Sys.step]
    cases h : s.pc with
    | check =>
      simp only [ht, if_true]
      split <;> simp [left, threadSteps, h, ht]
    | drain =>
      simp only
      split
      · rename_i x q hq; simp [left, threadSteps, h, ht, hq]
      · rename_i hq; simp [left, threadSteps, h, ht]
    | sleep => simp [left, threadSteps, h, ht]
    | done => simp [left, threadSteps, h, ht]

theorem threadSteps_cons (e : Ev α) (es : List (Ev α)) : threadSteps (e :: es) = threadSteps [e] + threadSteps es := by
  cases e <;> simp [threadSteps] <;> omega

theorem ends (cap : Nat) (es : List (Ev α)) : ∀ s : Sys α, s.terminate = true → pushes es = 0 → left s ≤ threadSteps es →
    (s.run cap es).pc = .done := by
  induction es with
  | nil =>
    intro s _ _ h
    simp only [threadSteps, left] at h
    show s.pc = .done
    cases hp : s.pc <;> simp [hp] at h
    rfl
  | cons e es ih =>
    intro s ht hp hl
    rw [pushes_cons] at hp
    rw [threadSteps_cons] at hl
    obtain ⟨h1, h2⟩ := left_step cap s e ht (by omega)
    exact ih _ h1 (by omega) (by omega)

/-- **C103** (partly) Once the frontend is dropped, the thread ends after as many of its steps as there are things in the queue, and three more, if the audio
thread gives nothing away meanwhile: dropping the frontend returns. (The English property has no such condition; see `drop_may_not_return`.) -/
theorem drop_returns_partial (cap : Nat) (es later : List (Ev α)) (hd : Ev.dropConf ∈ es) (hq : pushes later = 0)
    (hn : ((Sys.new : Sys α).run cap es).queue.length + 3 ≤ threadSteps later) :
    ((Sys.new : Sys α).run cap (es ++ later)).pc = .done := by
  have hstep : ∀ (s : Sys α) e, s.terminate = true → (s.step cap e).terminate = true := by
    intro s e h
    cases e with
    | push x => simp only [Sys.step]; split <;> (try split) <;> exact h
    | thread => simp only [Sys.step]; split <;> (try split) <;> (try split) <;> exact h
    | dropConf => rfl
    | dropExec => simp only [Sys.step]; split <;> (try split) <;> exact h
  have hrun : ∀ (l : List (Ev α)) (s : Sys α), s.terminate = true → (s.run cap l).terminate = true := by
    intro l
    induction l with
    | nil => intro s h; exact h
    | cons e l ih => intro s h; exact ih _ (hstep s e h)
  have ht : ∀ (l : List (Ev α)) (s : Sys α), Ev.dropConf ∈ l → (s.run cap l).terminate = true := by
    intro l
    induction l with
    | nil => intro s h; simp at h
    | cons e l ih =>
      intro s h
      rcases List.mem_cons.1 h with h | h
      · subst h; exact hrun l _ rfl
      · exact ih _ h
  rw [run_append]
  refine ends cap later _ (ht es _ hd) hq ?_
  simp only [left]
  split <;> omega

/-- **C103** (false in general) If the audio thread gives away one thing for each one the thread frees, the thread never looks at the flag again and dropping
the frontend never returns: for every number of rounds there is such a history. -/
theorem drop_may_not_return (cap : Nat) (hc : 0 < cap) (x : α) (n : Nat) :
    ((Sys.new : Sys α).run cap ([.thread, .push x, .dropConf] ++ (List.replicate n [.thread, .push x]).flatten)).pc = .drain := by
  rw [run_append]
  have h0 : (Sys.new : Sys α).run cap [.thread, .push x, .dropConf] = ⟨[x], .drain, true, true, [], [], []⟩ := by
    simp [Sys.run, Sys.step, Sys.new, hc]
  rw [h0]
  have : ∀ (n : Nat) l, ∃ l', (⟨[x], .drain, true, true, l, [], []⟩ : Sys α).run cap (List.replicate n [.thread, .push x]).flatten = ⟨[x], .drain, true, true, l', [], []⟩ := by
    intro n
    induction n with
    | zero => intro l; exact ⟨l, rfl⟩
    | succ n ih =>
      intro l
      rw [List.replicate_succ, List.flatten_cons, run_append]
      have : (⟨[x], .drain, true, true, l, [], []⟩ : Sys α).run cap [.thread, .push x] = ⟨[x], .drain, true, true, l ++ [x], [], []⟩ := by
        simp [Sys.run, Sys.step, hc]
      rw [this]
      exact ih _
  obtain ⟨l', h⟩ := this n []
  rw [h]

/-! ### Examples -/

/-- Four things: two freed by the thread, one by the audio thread (the queue holds one), one with the executor. -/
def exEs : List (Ev Nat) := [.push 1, .thread, .thread, .push 2, .push 3, .dropConf, .thread, .thread, .thread, .thread, .push 4, .dropExec]

example : (Sys.new : Sys Nat).run 1 exEs = ⟨[], .done, true, false, [1, 2], [3], [4]⟩ := by decide +kernel

example : Ev.dropConf ∈ ([.push 1, .push 2, .thread, .dropConf] : List (Ev Nat)) ∧
    ((Sys.new : Sys Nat).run 8 [.push 1, .push 2, .thread, .dropConf]).queue.length + 3 ≤ threadSteps (List.replicate 5 (Ev.thread : Ev Nat)) := by
  decide +kernel

example : ((Sys.new : Sys Nat).run 8 [.push 1, .thread, .thread, .thread]).queue = [] ∧ pushes ([.push 5, .thread, .push 6] : List (Ev Nat)) ≤ 8 := by
  decide +kernel

end HexoDSP.DropThreadProps
