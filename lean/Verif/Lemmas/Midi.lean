import Verif.Spec.Midi
import Mathlib.Data.List.Induction
import Mathlib.Data.List.TakeWhile
/-!
# Lemmas about the MIDI path
-/

set_option linter.unusedSectionVars false

namespace HexoDSP.Midi
open HexoDSP.MidiSpec

variable {V S : Type}

/-! ## The pointer -/

/-- Draining takes the events up to the first one that is too late. -/
theorem drain_eq (time : Nat) (fuel : Nat) : ∀ p : Pointer V, p.buf.length - p.idx < fuel →
    (p.drain time fuel).1 = ((p.buf.drop p.idx).takeWhile (fun e => decide (e.timing ≤ time))).map (fun e => e.kind) ∧
    (p.drain time fuel).2.buf = p.buf ∧
    p.buf.drop (p.drain time fuel).2.idx = (p.buf.drop p.idx).dropWhile (fun e => decide (e.timing ≤ time)) := by
  induction fuel with
  | zero => intro p h; omega
  | succ fuel ih =>
    intro p h
    cases hg : p.buf[p.idx]? with
    | none =>
      have hn : p.nextAt time = (none, p) := by simp [Pointer.nextAt, hg]
      have := List.getElem?_eq_none_iff.1 hg
      simp only [Pointer.drain, hn]
      rw [List.drop_eq_nil_of_le this]
      exact ⟨rfl, trivial, rfl⟩
    | some e =>
      obtain ⟨hlt, he⟩ := List.getElem?_eq_some_iff.1 hg
      have hd : p.buf.drop p.idx = e :: p.buf.drop (p.idx + 1) := by rw [List.drop_eq_getElem_cons hlt, he]
      by_cases ht : e.timing ≤ time
      · have hn : p.nextAt time = (some e.kind, { p with idx := p.idx + 1 }) := by simp [Pointer.nextAt, hg, ht]
        obtain ⟨h1, h2, h3⟩ := ih { p with idx := p.idx + 1 } (by simp only; omega)
        simp only [Pointer.drain, hn]
        simp only [hd, List.takeWhile_cons, List.dropWhile_cons, ht, decide_true, if_true, List.map_cons]
        exact ⟨by rw [h1], h2, h3⟩
      · have hn : p.nextAt time = (none, p) := by simp [Pointer.nextAt, hg, ht]
        simp only [Pointer.drain, hn]
        simp only [hd, List.takeWhile_cons, List.dropWhile_cons, ht, decide_false]
        exact ⟨rfl, trivial, rfl⟩

theorem takeWhile_ordered {l : List (Timed V)} (ho : Ordered l) (t : Nat) (hlo : ∀ e ∈ l, t ≤ e.timing) :
    l.takeWhile (fun e => decide (e.timing ≤ t)) = l.filter (fun e => decide (e.timing = t)) ∧
    ∀ e ∈ l.dropWhile (fun e => decide (e.timing ≤ t)), t + 1 ≤ e.timing := by
  induction l with
  | nil => exact ⟨rfl, by simp⟩
  | cons a l ih =>
    obtain ⟨h1, h2⟩ := List.pairwise_cons.1 ho
    have ha := hlo a List.mem_cons_self
    by_cases he : a.timing = t
    · obtain ⟨i1, i2⟩ := ih h2 (fun e he => hlo e (List.mem_cons_of_mem _ he))
      rw [List.takeWhile_cons_of_pos (by simp; omega), List.filter_cons_of_pos (by simp [he]),
        List.dropWhile_cons_of_pos (by simp; omega), i1]
      exact ⟨rfl, i2⟩
    · rw [List.takeWhile_cons_of_neg (by simp; omega), List.dropWhile_cons_of_neg (by simp; omega)]
      have : ∀ e ∈ a :: l, t + 1 ≤ e.timing := by
        intro e hm
        rcases List.mem_cons.1 hm with rfl | hm
        · omega
        · have := h1 e hm; omega
      refine ⟨?_, this⟩
      symm
      rw [List.filter_eq_nil_iff]
      intro e hm
      have := this e hm
      simp; omega

theorem scan_at (n : Nat) : ∀ (t : Nat) (p : Pointer V), Ordered p.buf → (∀ e ∈ p.buf.drop p.idx, t ≤ e.timing) →
    (∀ u, t ≤ u → at' (p.buf.drop p.idx) u = at' p.buf u) →
    Pointer.scan t n p = (List.range n).map (fun i => at' p.buf (t + i)) := by
  induction n with
  | zero => intro t p _ _ _; rfl
  | succ n ih =>
    intro t p ho hlo hat
    obtain ⟨h1, h2, h3⟩ := drain_eq t (p.buf.length - p.idx + 1) p (by omega)
    have hod : Ordered (p.buf.drop p.idx) := ho.sublist (List.drop_sublist _ _)
    obtain ⟨w1, w2⟩ := takeWhile_ordered hod t hlo
    simp only [Pointer.scan]
    rw [List.range_succ_eq_map, List.map_cons, List.map_map]
    congr 1
    · rw [h1, w1, Nat.add_zero, ← hat t (Nat.le_refl _)]
      rfl
    · rw [ih (t + 1) _ (by rw [h2]; exact ho) (by rw [h2, h3]; exact w2) ?_]
      · rw [h2]
        apply List.map_congr_left
        intro i _
        simp only [Function.comp, Nat.succ_eq_add_one]
        congr 1
        omega
      · intro u hu
        rw [h2, h3, ← hat u (by omega)]
        conv_rhs => rw [← List.takeWhile_append_dropWhile (p := fun e => decide (e.timing ≤ t)) (l := p.buf.drop p.idx)]
        unfold at'
        rw [List.filter_append, List.map_append]
        have : (List.takeWhile (fun e => decide (e.timing ≤ t)) (p.buf.drop p.idx)).filter (fun e => decide (e.timing = u)) = [] := by
          rw [List.filter_eq_nil_iff]
          intro e hm
          have := List.mem_takeWhile_imp hm
          simp at this ⊢
          omega
        rw [this]
        rfl

theorem scan_length (n : Nat) : ∀ (t : Nat) (p : Pointer V), (Pointer.scan t n p).length = n := by
  induction n with
  | zero => intro t p; rfl
  | succ n ih => intro t p; simp [Pointer.scan, ih]

/-! ## `MidiP` as a machine over frames -/

/-- One frame. -/
def MidiP.frame (chan : Nat) (s : MidiP V) (es : List (Ev V)) : MidiP V := es.foldl (MidiP.event chan) s.frameStart

section midip
variable [Add V] [Sub V] [Div V] [NatCast V]

/-- The output of one frame. -/
def MidiP.out (s : MidiP V) (det : V) : MidiPOut V :=
  { freq := ((s.curNote : V) - ((69 : Nat) : V)) / ((120 : Nat) : V) + det, gate := decide (s.curGate > 0), vel := s.curVel }

/-- All frames. -/
def MidiP.play (chan : Nat) : MidiP V → List (List (Ev V) × V) → List (MidiPOut V) × MidiP V
  | s, [] => ([], s)
  | s, (es, d) :: F => let s := s.frame chan es; ((s.out d) :: (MidiP.play chan s F).1, (MidiP.play chan s F).2)

theorem frames_play (chan : Nat) (det : Nat → V) (n : Nat) : ∀ (t : Nat) (p : Pointer V) (s : MidiP V),
    MidiP.frames chan det t n p s =
      MidiP.play chan s ((Pointer.scan t n p).zip ((List.range n).map (fun i => det (t + i)))) := by
  induction n with
  | zero => intro t p s; rfl
  | succ n ih =>
    intro t p s
    simp only [MidiP.frames, Pointer.scan]
    rw [List.range_succ_eq_map, List.map_cons, List.zip_cons_cons, List.map_map]
    simp only [MidiP.play, ih]
    have e : (List.range n).map ((fun i => det (t + i)) ∘ Nat.succ) = (List.range n).map (fun i => det (t + 1 + i)) := by
      apply List.map_congr_left
      intro i _
      simp only [Function.comp, Nat.succ_eq_add_one]
      congr 1
      omega
    rw [e]
    rfl

theorem play_append (chan : Nat) (F G : List (List (Ev V) × V)) : ∀ s : MidiP V,
    MidiP.play chan s (F ++ G) =
      ((MidiP.play chan s F).1 ++ (MidiP.play chan (MidiP.play chan s F).2 G).1, (MidiP.play chan (MidiP.play chan s F).2 G).2) := by
  induction F with
  | nil => intro s; rfl
  | cons x F ih =>
    intro s
    obtain ⟨es, d⟩ := x
    simp only [List.cons_append, MidiP.play, ih]

theorem blocks_play (chan : Int) (bs : List (NoteBlock V)) (ho : ∀ b ∈ bs, Ordered b.notes) : ∀ s : MidiP V,
    MidiP.blocks chan s bs = MidiP.play (chan % 16).toNat s
      (bs.flatMap (fun b => (List.range b.nframes).map (fun i => (at' b.notes i, b.det i)))) := by
  induction bs with
  | nil => intro s; rfl
  | cons b bs ih =>
    intro s
    have e : MidiP.process s chan b.det b.notes b.nframes =
        MidiP.play (chan % 16).toNat s ((List.range b.nframes).map (fun i => (at' b.notes i, b.det i))) := by
      unfold MidiP.process
      rw [frames_play, scan_at _ _ _ (ho b List.mem_cons_self) (fun _ _ => Nat.zero_le _) (fun _ _ => rfl), List.zip_map', ]
      congr 1
      apply List.map_congr_left
      intro i _
      simp [Pointer.new]
    simp only [MidiP.blocks, List.flatMap_cons, play_append, e]
    rw [ih (fun b hb => ho b (List.mem_cons_of_mem _ hb))]

theorem play_get (chan : Nat) (F : List (List (Ev V) × V)) : ∀ (s : MidiP V) (f : Nat) (es : List (Ev V)) (d : V),
    F[f]? = some (es, d) → (MidiP.play chan s F).1[f]? =
      some ((((F.take (f + 1)).map Prod.fst).foldl (MidiP.frame chan) s).out d) := by
  induction F with
  | nil => intro s f es d h; simp at h
  | cons x F ih =>
    intro s f es d h
    obtain ⟨es', d'⟩ := x
    cases f with
    | zero => simp at h; obtain ⟨rfl, rfl⟩ := h; simp [MidiP.play]
    | succ f =>
      simp only [MidiP.play, List.getElem?_cons_succ] at h ⊢
      rw [ih _ f es d h]
      simp

end midip

/-! ## Which note is held -/

/-- The note played last, the velocity, and whether it is held, as a fold. -/
structure NoteState (V : Type) where
  note : Nat
  vel : V
  held : Bool

def NoteState.next (chan : Nat) (s : NoteState V) : Ev V → NoteState V
  | .noteOn c n v => if c = chan then { note := n, vel := v, held := true } else s
  | .noteOff c n => if c = chan ∧ n = s.note then { s with held := false } else s
  | .cc _ _ _ => s

def noteState (chan : Nat) (v0 : V) (es : List (Ev V)) : NoteState V :=
  es.foldl (NoteState.next chan) { note := 0, vel := v0, held := false }

theorem noteState_snoc (chan : Nat) (v0 : V) (es : List (Ev V)) (e : Ev V) :
    noteState chan v0 (es ++ [e]) = (noteState chan v0 es).next chan e := by simp [noteState, List.foldl_append]

theorem split_snoc {α : Type} {l pre post : List α} {x y : α} (h : l ++ [y] = pre ++ x :: post) :
    (post = [] ∧ y = x ∧ l = pre) ∨ ∃ post', post = post' ++ [y] ∧ l = pre ++ x :: post' := by
  rcases List.eq_nil_or_concat post with rfl | ⟨post', z, hz⟩
  · have := List.append_inj' h rfl
    exact .inl ⟨rfl, by simpa using this.2, this.1⟩
  · subst hz
    have h' : l ++ [y] = (pre ++ x :: post') ++ [z] := by simpa using h
    have := List.append_inj' h' rfl
    exact .inr ⟨post', by simp at this ⊢; exact this.2.symm, this.1⟩

theorem noteState_last {chan : Nat} {v0 : V} {es : List (Ev V)} {n : Nat} {v : V} (h : LastOn chan es n v) :
    (noteState chan v0 es).note = n ∧ (noteState chan v0 es).vel = v := by
  induction es using List.reverseRecOn generalizing n v with
  | nil => cases hq : ([] : List (Ev V)) with
    | nil => generalize he : ([] : List (Ev V)) = l at h; cases h with | mk pre post _ _ _ => simp at he
    | cons a b => cases hq
  | append_singleton es e ih =>
    rw [noteState_snoc]
    generalize he : es ++ [e] = l at h
    cases h with
    | mk pre post _ _ hp =>
      rcases split_snoc he with ⟨rfl, rfl, rfl⟩ | ⟨post', rfl, rfl⟩
      · simp [NoteState.next]
      · have hlast := ih (.mk pre post' n v (fun x hx => hp x (by simp [hx])))
        have he := hp e (by simp)
        cases e with
        | noteOn c m u =>
          have hc : c ≠ chan := by simpa [isOn] using he
          simp only [NoteState.next, if_neg hc]
          exact hlast
        | noteOff c m =>
          simp only [NoteState.next]
          split <;> exact hlast
        | cc c m u => exact hlast

theorem last_of_heldNote {chan n : Nat} {es : List (Ev V)} (h : HeldNote chan n es) : ∃ v, LastOn chan es n v := by
  obtain ⟨pre, v, post, rfl, h1, h2⟩ := h
  exact ⟨v, .mk pre post n v h1⟩

theorem heldNote_iff {chan n : Nat} {v0 : V} {es : List (Ev V)} :
    HeldNote chan n es ↔ (noteState chan v0 es).held = true ∧ (noteState chan v0 es).note = n := by
  induction es using List.reverseRecOn with
  | nil => simp [HeldNote, noteState]
  | append_singleton es e ih =>
    rw [noteState_snoc]
    constructor
    · rintro ⟨pre, v, post, he, h1, h2⟩
      rcases split_snoc he with ⟨rfl, rfl, rfl⟩ | ⟨post', rfl, rfl⟩
      · simp [NoteState.next]
      · obtain ⟨i1, i2⟩ := ih.1 ⟨pre, v, post', rfl, fun x hx => h1 x (by simp [hx]), fun hx => h2 (by simp [hx])⟩
        have he := h1 e (by simp)
        cases e with
        | noteOn c m u =>
          have hc : c ≠ chan := by simpa [isOn] using he
          simp only [NoteState.next, if_neg hc]
          exact ⟨i1, i2⟩
        | noteOff c m =>
          simp only [NoteState.next]
          rw [if_neg]
          · exact ⟨i1, i2⟩
          · rintro ⟨rfl, hm⟩
            rw [i2] at hm
            subst hm
            exact h2 (by simp)
        | cc c m u => exact ⟨i1, i2⟩
    · rintro ⟨h1, h2⟩
      cases e with
      | noteOn c m u =>
        simp only [NoteState.next] at h1 h2
        by_cases hc : c = chan
        · subst hc
          rw [if_pos rfl] at h2
          simp only at h2
          subst h2
          exact ⟨es, u, [], rfl, by simp, by simp⟩
        · rw [if_neg hc] at h1 h2
          obtain ⟨pre, v, post, rfl, q1, q2⟩ := ih.2 ⟨h1, h2⟩
          refine ⟨pre, v, post ++ [.noteOn c m u], by simp, ?_, by simp [q2]⟩
          intro x hx
          rcases List.mem_append.1 hx with hx | hx
          · exact q1 x hx
          · rw [List.mem_singleton.1 hx]; simpa [isOn] using hc
      | noteOff c m =>
        simp only [NoteState.next] at h1 h2
        by_cases hc : c = chan ∧ m = (noteState chan v0 es).note
        · rw [if_pos hc] at h1; cases h1
        · rw [if_neg hc] at h1 h2
          obtain ⟨pre, v, post, rfl, q1, q2⟩ := ih.2 ⟨h1, h2⟩
          refine ⟨pre, v, post ++ [.noteOff c m], by simp, ?_, ?_⟩
          · intro x hx
            rcases List.mem_append.1 hx with hx | hx
            · exact q1 x hx
            · rw [List.mem_singleton.1 hx]; rfl
          · intro hx
            rcases List.mem_append.1 hx with hx | hx
            · exact q2 hx
            · simp at hx
              exact hc ⟨hx.1.symm, by rw [h2, hx.2]⟩
      | cc c m u =>
        obtain ⟨pre, v, post, rfl, q1, q2⟩ := ih.2 ⟨h1, h2⟩
        refine ⟨pre, v, post ++ [.cc c m u], by simp, ?_, by simp [q2]⟩
        intro x hx
        rcases List.mem_append.1 hx with hx | hx
        · exact q1 x hx
        · rw [List.mem_singleton.1 hx]; rfl

theorem held_iff {chan : Nat} {v0 : V} {es : List (Ev V)} : Held chan es ↔ (noteState chan v0 es).held = true := by
  constructor
  · rintro ⟨n, h⟩; exact ((heldNote_iff (v0 := v0)).1 h).1
  · intro h; exact ⟨_, (heldNote_iff (v0 := v0)).2 ⟨h, rfl⟩⟩

/-! ## One frame of `MidiP` -/

/-- The condition of `Clean` for one frame; `b` are the events of the frames before. -/
def CleanFrame (chan : Nat) (b es : List (Ev V)) : Prop :=
  ∀ pre n mid m v post, es = pre ++ .noteOff chan n :: mid ++ .noteOn chan m v :: post →
    ((∀ e ∈ pre, isOn chan e = false) ∧ HeldNote chan n b) ∨ (∃ k u, k ≠ n ∧ LastOn chan (b ++ pre) k u)

/-- The state within a frame after the events `done` of it. `b` are all events before the frame. -/
structure InFrame (chan : Nat) (v0 : V) (b done : List (Ev V)) (s : MidiP V) : Prop where
  note : s.curNote = (noteState chan v0 (b ++ done)).note
  vel : s.curVel = (noteState chan v0 (b ++ done)).vel
  par : s.curGate = ((if (noteState chan v0 b).held then 1 else 0) + (done.filter (isOn chan)).length) % 2
  zero : s.nextGate = 0 → (s.curGate = 1 ↔ (noteState chan v0 (b ++ done)).held = true)
  one : s.nextGate = 1 → (noteState chan v0 (b ++ done)).held = true
  neg : s.nextGate = -1 → (noteState chan v0 (b ++ done)).held = false ∧ ∃ pre n mid, done = pre ++ .noteOff chan n :: mid ∧
    (noteState chan v0 (b ++ pre)).note = n ∧ ∀ e ∈ mid, isOn chan e = false
  next : s.nextGate = 0 ∨ s.nextGate = 1 ∨ s.nextGate = -1

/-- Between frames: the pending gate change leads to whether a note is held. -/
structure Rest (chan : Nat) (v0 : V) (b : List (Ev V)) (s : MidiP V) : Prop where
  note : s.curNote = (noteState chan v0 b).note
  vel : s.curVel = (noteState chan v0 b).vel
  bit : s.curGate ≤ 1
  zero : s.nextGate = 0 → (s.curGate = 1 ↔ (noteState chan v0 b).held = true)
  one : s.nextGate = 1 → (noteState chan v0 b).held = true
  neg : s.nextGate = -1 → (noteState chan v0 b).held = false
  next : s.nextGate = 0 ∨ s.nextGate = 1 ∨ s.nextGate = -1

theorem InFrame.rest {chan : Nat} {v0 : V} {b done : List (Ev V)} {s : MidiP V} (h : InFrame chan v0 b done s) :
    Rest chan v0 (b ++ done) s :=
  ⟨h.note, h.vel, by rw [h.par]; omega, h.zero, h.one, fun q => (h.neg q).1, h.next⟩

theorem rest_new [OfNat V 0] (chan : Nat) : Rest chan (0 : V) [] MidiP.new :=
  ⟨rfl, rfl, by simp [MidiP.new], fun _ => by simp [MidiP.new, noteState], fun h => by simp [MidiP.new] at h,
    fun h => by simp [MidiP.new] at h, .inl rfl⟩

theorem Rest.start {chan : Nat} {v0 : V} {b : List (Ev V)} {s : MidiP V} (h : Rest chan v0 b s) :
    InFrame chan v0 b [] s.frameStart := by
  have hg : s.frameStart.curGate = (if (noteState chan v0 b).held then 1 else 0) ∧ s.frameStart.nextGate = 0 ∧
      s.frameStart.curNote = s.curNote ∧ s.frameStart.curVel = s.curVel := by
    unfold MidiP.frameStart
    rcases h.next with hn | hn | hn
    · rw [hn]
      refine ⟨?_, rfl, rfl, rfl⟩
      have := h.zero hn
      have hb := h.bit
      simp only [Int.lt_irrefl, gt_iff_lt, if_false]
      cases hh : (noteState chan v0 b).held with
      | true => simpa using this.2 hh
      | false =>
        have : s.curGate ≠ 1 := fun hc => by rw [this.1 hc] at hh; cases hh
        simp only [Bool.false_eq_true, if_false]; omega
    · rw [hn, h.one hn]; exact ⟨rfl, rfl, rfl, rfl⟩
    · rw [hn, h.neg hn]; exact ⟨rfl, rfl, rfl, rfl⟩
  obtain ⟨g1, g2, g3, g4⟩ := hg
  refine ⟨by rw [g3, h.note, List.append_nil], by rw [g4, h.vel, List.append_nil], ?_, ?_, ?_, ?_, .inl g2⟩
  · rw [g1]; split <;> rfl
  · intro _
    rw [g1, List.append_nil]
    cases (noteState chan v0 b).held <;> simp
  · intro hc; rw [g2] at hc; cases hc
  · intro hc; rw [g2] at hc; cases hc

theorem InFrame.event {chan : Nat} {v0 : V} {b done post : List (Ev V)} {e : Ev V} {s : MidiP V} (h : InFrame chan v0 b done s)
    (hc : CleanFrame chan b (done ++ e :: post)) : InFrame chan v0 b (done ++ [e]) (s.event chan e) := by
  have hns : noteState chan v0 (b ++ (done ++ [e])) = (noteState chan v0 (b ++ done)).next chan e := by
    rw [← List.append_assoc, noteState_snoc]
  have other : isOn chan e = false → (noteState chan v0 (b ++ done)).next chan e = noteState chan v0 (b ++ done) →
      s.event chan e = s → InFrame chan v0 b (done ++ [e]) (s.event chan e) := by
    intro h1 h2 h3
    rw [h3]
    refine ⟨by rw [hns, h2]; exact h.note, by rw [hns, h2]; exact h.vel, ?_, by rw [hns, h2]; exact h.zero,
      by rw [hns, h2]; exact h.one, ?_, h.next⟩
    · rw [h.par, List.filter_append]; simp [h1]
    · intro hn
      obtain ⟨q1, pre, n, mid, rfl, q2, q3⟩ := h.neg hn
      rw [hns, h2]
      refine ⟨q1, pre, n, mid ++ [e], by simp, q2, ?_⟩
      intro x hx
      rcases List.mem_append.1 hx with hx | hx
      · exact q3 x hx
      · rw [List.mem_singleton.1 hx]; exact h1
  cases e with
  | cc c k v => exact other rfl rfl rfl
  | noteOff c n =>
    by_cases hch : c = chan
    · subst hch
      by_cases hn : s.curNote = n
      · have hs : s.event c (.noteOff c n) = { s with nextGate := -1 } := by simp [MidiP.event, hn]
        have hne : (noteState c v0 (b ++ done)).next c (.noteOff c n) = { noteState c v0 (b ++ done) with held := false } := by
          simp [NoteState.next, ← h.note, hn]
        rw [hs]
        refine ⟨by rw [hns, hne]; exact h.note, by rw [hns, hne]; exact h.vel, ?_, fun q => absurd q (by simp), fun q => absurd q (by simp), fun _ => ?_, .inr (.inr rfl)⟩
        · rw [List.filter_append]; simpa [isOn] using h.par
        · rw [hns, hne]
          exact ⟨rfl, done, n, [], rfl, by rw [← h.note, hn], by simp⟩
      · refine other rfl ?_ ?_
        · simp only [NoteState.next]
          rw [if_neg]
          rintro ⟨_, hm⟩
          exact hn (by rw [h.note, hm])
        · simp [MidiP.event, hn]
    · exact other rfl (by simp [NoteState.next, hch]) (by simp [MidiP.event, hch])
  | noteOn c n v =>
    by_cases hch : c = chan
    · subst hch
      have hne : (noteState c v0 (b ++ done)).next c (.noteOn c n v) = ⟨n, v, true⟩ := by simp [NoteState.next]
      have hon : ((done ++ [Ev.noteOn c n v]).filter (isOn c)).length = (done.filter (isOn c)).length + 1 := by
        rw [List.filter_append]; simp [isOn]
      by_cases hg : s.curGate > 0
      · have hs : s.event c (.noteOn c n v) = { nextGate := 1, curNote := n, curGate := 0, curVel := v } := by
          simp [MidiP.event, hg]
        rw [hs]
        refine ⟨by rw [hns, hne], by rw [hns, hne], ?_, fun q => absurd q (by simp), fun _ => by rw [hns, hne], fun q => absurd q (by simp), .inr (.inl rfl)⟩
        rw [hon]
        have := h.par
        simp only at this ⊢
        omega
      · have hs : s.event c (.noteOn c n v) = { nextGate := s.nextGate, curNote := n, curGate := 1, curVel := v } := by
          simp [MidiP.event, hg]
        rw [hs]
        refine ⟨by rw [hns, hne], by rw [hns, hne], ?_, fun _ => by rw [hns, hne]; simp, fun _ => by rw [hns, hne], ?_, h.next⟩
        · rw [hon]
          have := h.par
          simp only at this ⊢
          omega
        · intro hneg
          exfalso
          obtain ⟨_, pre, k, mid, rfl, q2, q3⟩ := h.neg hneg
          rcases hc pre k mid n v post (by simp) with ⟨c1, c2⟩ | ⟨k', u, c1, c2⟩
          · have hh := (heldNote_iff (v0 := v0)).1 c2
            have hp := h.par
            rw [hh.1] at hp
            have : ((pre ++ .noteOff c k :: mid).filter (isOn c)) = [] := by
              rw [List.filter_eq_nil_iff]
              intro x hx
              rcases List.mem_append.1 hx with hx | hx
              · simp [c1 x hx]
              · rcases List.mem_cons.1 hx with rfl | hx
                · simp [isOn]
                · simp [q3 x hx]
            rw [this] at hp
            simp at hp
            omega
          · have := (noteState_last (v0 := v0) c2).1
            omega
    · exact other (by simp [isOn, hch]) (by simp [NoteState.next, hch]) (by simp [MidiP.event, hch])

theorem InFrame.events {chan : Nat} {v0 : V} {b : List (Ev V)} (es : List (Ev V)) : ∀ (done : List (Ev V)) (s : MidiP V),
    InFrame chan v0 b done s → CleanFrame chan b (done ++ es) → InFrame chan v0 b (done ++ es) (es.foldl (MidiP.event chan) s) := by
  induction es with
  | nil => intro done s h _; simpa using h
  | cons e es ih =>
    intro done s h hc
    have := ih (done ++ [e]) (s.event chan e) (h.event hc) (by simpa using hc)
    simpa using this

/-- The state after frame `f` of a clean sequence of frames. -/
theorem inFrame_get [OfNat V 0] {chan : Nat} {F : List (List (Ev V))} (hc : Clean chan F) (f : Nat) (es : List (Ev V)) (hf : F[f]? = some es) :
    InFrame chan (0 : V) (before F f) es ((F.take (f + 1)).foldl (MidiP.frame chan) MidiP.new) := by
  have key : ∀ f, f ≤ F.length → Rest chan (0 : V) (before F f) ((F.take f).foldl (MidiP.frame chan) MidiP.new) := by
    intro f
    induction f with
    | zero => intro _; exact rest_new chan
    | succ f ih =>
      intro hle
      have hlt : f < F.length := by omega
      have hr := ih (by omega)
      have hb : before F (f + 1) = before F f ++ F[f] := by
        have : F.take (f + 1) = F.take f ++ [F[f]] := (List.take_append_getElem hlt).symm
        unfold before
        rw [this, List.flatten_append, List.flatten_cons, List.flatten_nil, List.append_nil]
      rw [hb, ← List.take_append_getElem hlt, List.foldl_append]
      have := InFrame.events F[f] [] _ hr.start (hc f _ (List.getElem?_eq_getElem hlt))
      simpa [MidiP.frame] using this.rest
  obtain ⟨hlt, he⟩ := List.getElem?_eq_some_iff.1 hf
  have hr := key f (by omega)
  rw [← List.take_append_getElem hlt, List.foldl_append, he]
  have := InFrame.events es [] _ hr.start (hc f _ hf)
  simpa [MidiP.frame] using this

end HexoDSP.Midi
