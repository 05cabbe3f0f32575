import Verif.Lemmas.Midi
/-!
# Lemmas about feeding MIDI events block by block
-/

set_option linter.unusedSectionVars false

namespace HexoDSP.Midi
open HexoDSP.MidiSpec

variable {V : Type}

/-- Make the time of an event relative. -/
def rebase (offs : Nat) (e : Timed V) : Timed V := { e with timing := e.timing - offs }

/-- The events that have not been delivered. -/
def Source.rest (events : List (Timed V)) (s : Source V) : List (Timed V) := s.win.event.toList ++ events.drop s.idx

/-- The event held back has been taken from the list. -/
def Source.Ok (s : Source V) : Prop := s.win.event.isSome → 1 ≤ s.idx

theorem rest_length {events : List (Timed V)} {s : Source V} (h : s.Ok) : (s.rest events).length ≤ events.length + 1 - 1 ∨
    events.length < s.idx := by
  unfold Source.rest
  unfold Source.Ok at h
  cases hw : s.win.event with
  | none => left; simp
  | some e =>
    have := h (by simp [hw])
    by_cases hi : events.length < s.idx
    · exact .inr hi
    · left; simp; omega

theorem pull_nil {events : List (Timed V)} {s : Source V} (offs n : Nat) (h : s.rest events = []) :
    s.pull events offs n = some (none, s) := by
  obtain ⟨h1, h2⟩ := List.append_eq_nil_iff.1 h
  have hw : s.win.event = none := by cases hw : s.win.event with
    | none => rfl
    | some e => simp [hw] at h1
  have hi : events[s.idx]? = none := by
    rw [List.getElem?_eq_none_iff]
    exact List.drop_eq_nil_iff.1 h2
  simp [Source.pull, Windowing.feedMe, hw, hi]

theorem pull_cons {events : List (Timed V)} {s : Source V} {offs n : Nat} {e : Timed V} {tl : List (Timed V)}
    (h : s.rest events = e :: tl) (ho : s.Ok) (hoffs : offs ≤ e.timing) :
    (e.timing < offs + n → ∃ s', s.pull events offs n = some (some (rebase offs e), s') ∧ s'.rest events = tl ∧ s'.Ok) ∧
    (offs + n ≤ e.timing → ∃ s', s.pull events offs n = some (none, s') ∧ s'.rest events = e :: tl ∧ s'.Ok) := by
  unfold Source.rest at h
  cases hw : s.win.event with
  | some e' =>
    rw [hw] at h
    simp only [Option.toList_some, List.singleton_append, List.cons.injEq] at h
    obtain ⟨rfl, rfl⟩ := h
    constructor
    · intro hlt
      refine ⟨{ s with win := { event := none } }, ?_, by simp [Source.rest], by simp [Source.Ok]⟩
      simp [Source.pull, Windowing.feedMe, hw, Windowing.nextInRange, hlt, hoffs, rebase]
    · intro hge
      refine ⟨{ s with win := { event := some e' } }, ?_, by simp [Source.rest], fun _ => ho (by simp [hw])⟩
      simp [Source.pull, Windowing.feedMe, hw, Windowing.nextInRange, Nat.not_lt.2 hge]
  | none =>
    rw [hw] at h
    simp only [Option.toList_none, List.nil_append] at h
    have hlt0 : s.idx < events.length := by
      by_contra hc
      rw [List.drop_eq_nil_of_le (by omega)] at h
      cases h
    have hg : events[s.idx]? = some e := by
      rw [List.drop_eq_getElem_cons hlt0] at h
      rw [List.getElem?_eq_getElem hlt0, (List.cons.inj h).1]
    have htl : events.drop (s.idx + 1) = tl := by
      rw [List.drop_eq_getElem_cons hlt0] at h
      exact (List.cons.inj h).2
    constructor
    · intro hlt
      refine ⟨{ win := { event := none }, idx := s.idx + 1 }, ?_, by simpa [Source.rest] using htl, by simp [Source.Ok]⟩
      simp [Source.pull, Windowing.feedMe, hw, hg, Windowing.feed, Windowing.nextInRange, hlt, hoffs, rebase]
    · intro hge
      refine ⟨{ win := { event := some e }, idx := s.idx + 1 }, ?_, by simp [Source.rest, htl], by simp [Source.Ok]⟩
      simp [Source.pull, Windowing.feedMe, hw, hg, Windowing.feed, Windowing.nextInRange, Nat.not_lt.2 hge]

/-- Sorting a list of events into the buffers. -/
theorem push_all (l : List (Timed V)) : ∀ b : Fed V, l.foldl Fed.push b =
    { notes := b.notes ++ l.filter (fun e => !e.isCC), ccs := b.ccs ++ l.filter (fun e => e.isCC),
      reported := b.reported ++ l.map (fun e => e.kind) } := by
  induction l with
  | nil => intro b; simp
  | cons e l ih =>
    intro b
    rw [List.foldl_cons, ih]
    cases h : e.isCC <;> simp [Fed.push, h]

theorem feedLoop_spec {events : List (Timed V)} {offs n : Nat} (fuel : Nat) : ∀ (s : Source V) (b : Fed V), s.Ok →
    (s.rest events).length < fuel → (∀ e ∈ s.rest events, offs ≤ e.timing) →
    (b.notes ++ (((s.rest events).takeWhile (fun e => decide (e.timing < offs + n))).map (rebase offs)).filter (fun e => !e.isCC)).length < 512 →
    (b.ccs ++ (((s.rest events).takeWhile (fun e => decide (e.timing < offs + n))).map (rebase offs)).filter (fun e => e.isCC)).length < 1024 →
    ∃ s', feedLoop events offs n fuel s b =
        some ((((s.rest events).takeWhile (fun e => decide (e.timing < offs + n))).map (rebase offs)).foldl Fed.push b, s') ∧ s'.Ok ∧
      s'.rest events = (s.rest events).dropWhile (fun e => decide (e.timing < offs + n)) := by
  induction fuel with
  | zero => intro s b _ h; omega
  | succ fuel ih =>
    intro s b ho hf hlo h1 h2
    cases hr : s.rest events with
    | nil =>
      refine ⟨s, ?_, ho, hr⟩
      simp [feedLoop, pull_nil offs n hr]
    | cons e tl =>
      rw [hr] at h1 h2 hlo hf
      obtain ⟨p1, p2⟩ := pull_cons (n := n) hr ho (hlo e List.mem_cons_self)
      by_cases hlt : e.timing < offs + n
      · obtain ⟨s', q1, q2, q3⟩ := p1 hlt
        rw [List.takeWhile_cons_of_pos (by simpa using hlt), List.map_cons] at h1 h2
        have e1 : (b.push (rebase offs e)).notes ++ (((tl.takeWhile (fun e => decide (e.timing < offs + n))).map (rebase offs)).filter (fun e => !e.isCC)) =
            b.notes ++ ((rebase offs e :: (tl.takeWhile (fun e => decide (e.timing < offs + n))).map (rebase offs)).filter (fun e => !e.isCC)) := by
          cases h : (rebase offs e).isCC <;> simp [Fed.push, h]
        have e2 : (b.push (rebase offs e)).ccs ++ (((tl.takeWhile (fun e => decide (e.timing < offs + n))).map (rebase offs)).filter (fun e => e.isCC)) =
            b.ccs ++ ((rebase offs e :: (tl.takeWhile (fun e => decide (e.timing < offs + n))).map (rebase offs)).filter (fun e => e.isCC)) := by
          cases h : (rebase offs e).isCC <;> simp [Fed.push, h]
        rw [← e1] at h1
        rw [← e2] at h2
        obtain ⟨s2, r1, r2, r3⟩ := ih s' (b.push (rebase offs e)) q3 (by rw [q2]; simp at hf; omega)
          (by rw [q2]; intro x hx; exact hlo x (List.mem_cons_of_mem _ hx)) (by rw [q2]; exact h1) (by rw [q2]; exact h2)
        refine ⟨s2, ?_, r2, ?_⟩
        · rw [List.takeWhile_cons_of_pos (by simpa using hlt), List.map_cons, List.foldl_cons]
          simp only [feedLoop, q1]
          rw [if_neg, r1, q2]
          rintro (hc | hc)
          · rw [List.length_append] at h2; omega
          · rw [List.length_append] at h1; omega
        · rw [r3, q2, List.dropWhile_cons_of_pos (by simpa using hlt)]
      · obtain ⟨s', q1, q2, q3⟩ := p2 (by omega)
        refine ⟨s', ?_, q3, ?_⟩
        · rw [List.takeWhile_cons_of_neg (by simpa using hlt)]
          simp [feedLoop, q1]
        · rw [q2, List.dropWhile_cons_of_neg (by simpa using hlt)]

theorem takeWhile_eq_filter {l : List (Timed V)} (ho : Ordered l) (t : Nat) :
    l.takeWhile (fun e => decide (e.timing < t)) = l.filter (fun e => decide (e.timing < t)) ∧
    l.dropWhile (fun e => decide (e.timing < t)) = l.filter (fun e => decide (t ≤ e.timing)) := by
  induction l with
  | nil => exact ⟨rfl, rfl⟩
  | cons a l ih =>
    obtain ⟨h1, h2⟩ := List.pairwise_cons.1 ho
    obtain ⟨i1, i2⟩ := ih h2
    by_cases he : a.timing < t
    · rw [List.takeWhile_cons_of_pos (by simpa using he), List.filter_cons_of_pos (by simpa using he),
        List.dropWhile_cons_of_pos (by simpa using he), List.filter_cons_of_neg (by simpa using he), i1, i2]
      exact ⟨rfl, rfl⟩
    · rw [List.takeWhile_cons_of_neg (by simpa using he), List.filter_cons_of_neg (by simpa using he),
        List.dropWhile_cons_of_neg (by simpa using he), List.filter_cons_of_pos (by simp; omega)]
      constructor
      · symm
        rw [List.filter_eq_nil_iff]
        intro x hx
        have := h1 x hx
        simp; omega
      · congr 1
        symm
        rw [List.filter_eq_self]
        intro x hx
        have := h1 x hx
        simp; omega

/-- The buffers of the block that starts at `offs`. -/
def fedAt (events : List (Timed V)) (offs n : Nat) (inj : List (Ev V)) : Fed V :=
  { notes := (inj.reverse.filter isNote).map (fun e => ⟨0, e⟩) ++ (due events offs n).filter (fun e => isNote e.kind)
    ccs := (inj.reverse.filter (fun e => !isNote e)).map (fun e => ⟨0, e⟩) ++ (due events offs n).filter (fun e => !isNote e.kind)
    reported := inj.reverse ++ (due events offs n).map (fun e => e.kind) }

theorem isCC_isNote (e : Timed V) : e.isCC = !isNote e.kind := by
  obtain ⟨t, k⟩ := e
  cases k <;> rfl

theorem feedBlock_spec {events : List (Timed V)} {offs n : Nat} {inj : List (Ev V)} {s : Source V} (hev : Ordered events) (hok : s.Ok)
    (hr : s.rest events = events.filter (fun e => decide (offs ≤ e.timing)))
    (h1 : (fedAt events offs n inj).notes.length < 512) (h2 : (fedAt events offs n inj).ccs.length < 1024) :
    ∃ s', feedBlock events offs n inj s = some (fedAt events offs n inj, s') ∧ s'.Ok ∧
      s'.rest events = events.filter (fun e => decide (offs + n ≤ e.timing)) := by
  have hod : Ordered (s.rest events) := by rw [hr]; exact hev.sublist List.filter_sublist
  obtain ⟨t1, t2⟩ := takeWhile_eq_filter hod (offs + n)
  have hdue : ((s.rest events).takeWhile (fun e => decide (e.timing < offs + n))).map (rebase offs) = due events offs n := by
    rw [t1, hr, List.filter_filter]
    unfold due rebase
    congr 1
    apply List.filter_congr
    intro e _
    rw [Bool.and_comm]
  have hinj : ∀ (l : List (Ev V)), l.foldl (fun (b : Fed V) e => b.push { timing := 0, kind := e }) { notes := [], ccs := [], reported := [] } =
      { notes := (l.filter isNote).map (fun e => ⟨0, e⟩), ccs := (l.filter (fun e => !isNote e)).map (fun e => ⟨0, e⟩), reported := l } := by
    intro l
    have := push_all (l.map (fun e => ({ timing := 0, kind := e } : Timed V))) { notes := [], ccs := [], reported := [] }
    rw [List.foldl_map] at this
    rw [this]
    have e1 : ∀ l : List (Ev V), (l.map (fun e => ({ timing := 0, kind := e } : Timed V))).filter (fun e => !e.isCC) = (l.filter isNote).map (fun e => ⟨0, e⟩) := by
      intro l
      rw [List.filter_map]
      congr 1
      apply List.filter_congr
      intro e _
      simp [isCC_isNote]
    have e2 : ∀ l : List (Ev V), (l.map (fun e => ({ timing := 0, kind := e } : Timed V))).filter (fun e => e.isCC) = (l.filter (fun e => !isNote e)).map (fun e => ⟨0, e⟩) := by
      intro l
      rw [List.filter_map]
      congr 1
      apply List.filter_congr
      intro e _
      simp [isCC_isNote]
    simp only [List.nil_append, e1, e2, List.map_map]
    congr 1
    simp [Function.comp_def]
  have hcc : ∀ l : List (Timed V), l.filter (fun e => !e.isCC) = l.filter (fun e => isNote e.kind) := by
    intro l; apply List.filter_congr; intro e _; simp [isCC_isNote]
  have hcc2 : ∀ l : List (Timed V), l.filter (fun e => e.isCC) = l.filter (fun e => !isNote e.kind) := by
    intro l; apply List.filter_congr; intro e _; simp [isCC_isNote]
  have hlen : (s.rest events).length < events.length + 1 := by
    rw [hr]
    have := List.length_filter_le (fun e : Timed V => decide (offs ≤ e.timing)) events
    omega
  obtain ⟨s', r1, r2, r3⟩ := feedLoop_spec (n := n) (events.length + 1) s
    (inj.reverse.foldl (fun b e => b.push { timing := 0, kind := e }) { notes := [], ccs := [], reported := [] }) hok hlen
    (by rw [hr]; intro e he; simpa using (List.mem_filter.1 he).2)
    (by rw [hdue, hinj, hcc]; exact h1) (by rw [hdue, hinj, hcc2]; exact h2)
  refine ⟨s', ?_, r2, ?_⟩
  · unfold feedBlock
    rw [r1, hdue, push_all, hinj, hcc, hcc2]
    rfl
  · rw [r3, t2, hr, List.filter_filter]
    apply List.filter_congr
    intro e _
    by_cases h : offs + n ≤ e.timing
    · have : offs ≤ e.timing := by omega
      simp [h, this]
    · simp [h]

/-- The buffers of a sequence of blocks, the first of which starts at `offs`. -/
def fedAll (events : List (Timed V)) : Nat → List (Nat × List (Ev V)) → List (Fed V)
  | _, [] => []
  | offs, (n, inj) :: rest => fedAt events offs n inj :: fedAll events (offs + n) rest

theorem feedBlocks_spec {events : List (Timed V)} (hev : Ordered events) (bs : List (Nat × List (Ev V))) : ∀ (offs : Nat) (s : Source V), s.Ok →
    s.rest events = events.filter (fun e => decide (offs ≤ e.timing)) →
    (∀ b ∈ fedAll events offs bs, b.notes.length < 512 ∧ b.ccs.length < 1024) →
    feedBlocks events offs s bs = some (fedAll events offs bs) := by
  induction bs with
  | nil => intro offs s _ _ _; rfl
  | cons b bs ih =>
    intro offs s ho hr hl
    obtain ⟨n, inj⟩ := b
    obtain ⟨l1, l2⟩ := hl (fedAt events offs n inj) (by simp [fedAll])
    obtain ⟨s', q1, q2, q3⟩ := feedBlock_spec hev ho hr l1 l2
    simp only [feedBlocks, q1]
    rw [ih (offs + n) s' q2 q3 (fun b hb => hl b (by simp [fedAll, hb]))]
    rfl

theorem fedAll_get {events : List (Timed V)} (bs : List (Nat × List (Ev V))) : ∀ (offs j : Nat) (n : Nat) (inj : List (Ev V)),
    bs[j]? = some (n, inj) → (fedAll events offs bs)[j]? = some (fedAt events (offs + ((bs.take j).map Prod.fst).sum) n inj) := by
  induction bs with
  | nil => intro offs j n inj h; simp at h
  | cons b bs ih =>
    intro offs j n inj h
    obtain ⟨n', inj'⟩ := b
    cases j with
    | zero => simp at h; obtain ⟨rfl, rfl⟩ := h; simp [fedAll]
    | succ j =>
      simp only [List.getElem?_cons_succ] at h
      simp only [fedAll, List.getElem?_cons_succ, List.take_succ_cons, List.map_cons, List.sum_cons]
      rw [ih _ _ _ _ h, Nat.add_assoc]

theorem fedAll_length {events : List (Timed V)} (bs : List (Nat × List (Ev V))) : ∀ offs, (fedAll events offs bs).length = bs.length := by
  induction bs with
  | nil => intro offs; rfl
  | cons b bs ih => intro offs; obtain ⟨n, inj⟩ := b; simp [fedAll, ih]

theorem at_due {es : List (Timed V)} {offs n i : Nat} (hi : i < n) : at' (due es offs n) i = at' es (offs + i) := by
  unfold at' due
  rw [List.filter_map, List.map_map, List.filter_filter]
  have : List.filter (fun a => ((fun e : Timed V => decide (e.timing = i)) ∘ (fun e : Timed V => { e with timing := e.timing - offs })) a &&
      (decide (offs ≤ a.timing) && decide (a.timing < offs + n))) es = List.filter (fun e => decide (e.timing = offs + i)) es := by
    apply List.filter_congr
    intro e _
    rw [Bool.eq_iff_iff]
    simp only [Function.comp, Bool.and_eq_true, decide_eq_true_eq]
    omega
  rw [this]
  rfl

theorem due_ordered {es : List (Timed V)} (h : Ordered es) (offs n : Nat) : Ordered (due es offs n) := by
  unfold due Ordered
  rw [List.pairwise_map]
  exact (h.sublist List.filter_sublist).imp (fun hab => by simp only; omega)

end HexoDSP.Midi
