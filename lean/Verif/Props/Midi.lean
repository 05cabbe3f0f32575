import Verif.Lemmas.MidiFeed
/-!
# The MIDI path (C23 to C26, C55)
-/

set_option linter.unusedSectionVars false

namespace HexoDSP.MidiProps
open HexoDSP.Midi HexoDSP.MidiSpec

variable {V S : Type}

/-! ## C24 -/

/-- **C24** Scanning a block of `n` frames over an ordered buffer, each frame sees exactly the events with its
number, in their order. -/
theorem frame_sees_its_events (buf : List (Timed V)) (ho : Ordered buf) (n : Nat) :
    (Pointer.new buf).scan 0 n = (List.range n).map (fun f => at' buf f) := by
  rw [scan_at n 0 (Pointer.new buf) ho (fun _ _ => Nat.zero_le _) (fun _ _ => rfl)]
  simp [Pointer.new]

/-- **C24** Taken together, the frames see every event before the end of the block exactly once and in order. -/
theorem block_sees_each_event_once (buf : List (Timed V)) (ho : Ordered buf) (n : Nat) :
    ((Pointer.new buf).scan 0 n).flatten = (buf.filter (fun e => decide (e.timing < n))).map (fun e => e.kind) := by
  rw [frame_sees_its_events buf ho n]
  induction n with
  | zero => simp
  | succ n ih =>
    rw [List.range_succ, List.map_append, List.flatten_append, ih]
    simp only [List.map_cons, List.map_nil, List.flatten_cons, List.flatten_nil, List.append_nil, at']
    rw [← List.map_append]
    congr 1
    clear ih
    induction buf with
    | nil => rfl
    | cons a l ih =>
      obtain ⟨h1, h2⟩ := List.pairwise_cons.1 ho
      by_cases ha : a.timing < n
      · rw [List.filter_cons_of_pos (by simpa using ha), List.filter_cons_of_neg (by simp; omega),
          List.filter_cons_of_pos (by simp; omega), List.cons_append, ih h2]
      · have : l.filter (fun e => decide (e.timing < n)) = [] := by
          rw [List.filter_eq_nil_iff]; intro x hx; have := h1 x hx; simp; omega
        rw [List.filter_cons_of_neg (by simpa using ha), this, List.nil_append]
        apply List.filter_congr
        intro x hx
        rw [Bool.eq_iff_iff]
        simp only [decide_eq_true_eq]
        have : n ≤ x.timing := by
          rcases List.mem_cons.1 hx with rfl | hx
          · omega
          · have := h1 x hx; omega
        omega

/-- Three events, two of them in the same frame. -/
example : Ordered [⟨1, .noteOn 0 60 (7 : Int)⟩, ⟨3, .noteOff 0 60⟩, ⟨3, .noteOn 0 61 7⟩] ∧
    (Pointer.new [⟨1, .noteOn 0 60 (7 : Int)⟩, ⟨3, .noteOff 0 60⟩, ⟨3, .noteOn 0 61 7⟩]).scan 0 4 =
      [[], [.noteOn 0 60 7], [], [.noteOff 0 60, .noteOn 0 61 7]] := by
  refine ⟨?_, by decide⟩
  simp [Ordered]

/-! ## C23 -/

/-- No block gets more events than fit: fewer than 512 notes and 1024 controller changes, injected ones included. -/
def Fits (events : List (Timed V)) (blocks : List (Nat × List (Ev V))) : Prop :=
  ∀ j n inj, blocks[j]? = some (n, inj) →
    (inj.filter isNote).length + ((due events ((blocks.take j).map Prod.fst).sum n).filter (fun e => isNote e.kind)).length < 512 ∧
    (inj.filter (fun e => !isNote e)).length + ((due events ((blocks.take j).map Prod.fst).sum n).filter (fun e => !isNote e.kind)).length < 1024

theorem fits_fed {events : List (Timed V)} {blocks : List (Nat × List (Ev V))} (h : Fits events blocks) :
    ∀ b ∈ fedAll events 0 blocks, b.notes.length < 512 ∧ b.ccs.length < 1024 := by
  intro b hb
  obtain ⟨j, hj, e⟩ := List.mem_iff_getElem.1 hb
  have hj' : j < blocks.length := by rw [fedAll_length] at hj; exact hj
  obtain ⟨n, inj, hg⟩ : ∃ n inj, blocks[j]? = some (n, inj) := ⟨_, _, List.getElem?_eq_getElem hj'⟩
  have := fedAll_get (events := events) blocks 0 j n inj hg
  rw [List.getElem?_eq_getElem hj, e] at this
  obtain ⟨f1, f2⟩ := h j n inj hg
  rw [Option.some.inj this, Nat.zero_add]
  simp only [fedAt, List.length_append, List.length_map, List.filter_reverse, List.length_reverse]
  exact ⟨f1, f2⟩

/-- **C23** For every ordered event list and every sequence of blocks: feeding never panics and the block that starts at
frame `offs` (the sum of the sizes before) gets exactly the events with `offs ≤ time < offs + n`, in order,
with times relative to its start, notes and controller changes in their own buffers (behind what was injected
for this block). -/
theorem events_in_their_block (events : List (Timed V)) (ho : Ordered events) (blocks : List (Nat × List (Ev V)))
    (hf : Fits events blocks) :
    ∃ fs, feedBlocks events 0 { win := Windowing.new, idx := 0 } blocks = some fs ∧ fs.length = blocks.length ∧
      ∀ j n inj, blocks[j]? = some (n, inj) → ∃ b, fs[j]? = some b ∧
        b.notes = (inj.reverse.filter isNote).map (fun e => ⟨0, e⟩) ++
          (due events ((blocks.take j).map Prod.fst).sum n).filter (fun e => isNote e.kind) ∧
        b.ccs = (inj.reverse.filter (fun e => !isNote e)).map (fun e => ⟨0, e⟩) ++
          (due events ((blocks.take j).map Prod.fst).sum n).filter (fun e => !isNote e.kind) ∧
        b.reported = inj.reverse ++ (due events ((blocks.take j).map Prod.fst).sum n).map (fun e => e.kind) := by
  refine ⟨fedAll events 0 blocks, ?_, fedAll_length _ _, ?_⟩
  · refine feedBlocks_spec ho blocks 0 _ (fun h => by simp [Windowing.new] at h) ?_ (fits_fed hf)
    simp only [Source.rest, Windowing.new]
    simp [List.filter_eq_self.2]
  · intro j n inj hj
    refine ⟨_, fedAll_get blocks 0 j n inj hj, ?_⟩
    simp [fedAt]

/-- The events a sequence of blocks is due, with absolute times. -/
def allDue (events : List (Timed V)) : Nat → List Nat → List (Timed V)
  | _, [] => []
  | offs, n :: ns => (due events offs n).map (fun e => { e with timing := e.timing + offs }) ++ allDue events (offs + n) ns

/-- **C23** The blocks taken together are due every event before the end exactly once, in order. -/
theorem each_event_once (events : List (Timed V)) (ho : Ordered events) (ns : List Nat) :
    allDue events 0 ns = events.filter (fun e => decide (e.timing < ns.sum)) := by
  have key : ∀ (ns : List Nat) (offs : Nat), allDue events offs ns =
      events.filter (fun e => decide (offs ≤ e.timing) && decide (e.timing < offs + ns.sum)) := by
    intro ns
    induction ns with
    | nil =>
      intro offs
      symm
      simp only [allDue]
      rw [List.filter_eq_nil_iff]
      intro e _
      simp only [Bool.and_eq_true, decide_eq_true_eq]
      rintro ⟨h1, h2⟩
      rw [List.sum_nil] at h2
      omega
    | cons n ns ih =>
      intro offs
      have hs : ∀ e : Timed V, decide (e.timing < offs + (n :: ns).sum) = decide (e.timing < offs + n + ns.sum) := by
        intro e; rw [List.sum_cons, Nat.add_assoc]
      simp only [allDue, ih, hs]
      have e1 : (due events offs n).map (fun e => { e with timing := e.timing + offs }) =
          events.filter (fun e => decide (offs ≤ e.timing) && decide (e.timing < offs + n)) := by
        unfold due
        rw [List.map_map]
        conv_rhs => rw [← List.map_id (events.filter (fun e => decide (offs ≤ e.timing) && decide (e.timing < offs + n)))]
        apply List.map_congr_left
        intro e he
        have := (List.mem_filter.1 he).2
        simp only [Bool.and_eq_true, decide_eq_true_eq] at this
        simp only [Function.comp, id]
        have h2 : e.timing - offs + offs = e.timing := by omega
        rw [h2]
      rw [e1]
      clear ih e1 hs
      induction events with
      | nil => rfl
      | cons a l ih =>
        obtain ⟨h1, h2⟩ := List.pairwise_cons.1 ho
        by_cases ha : a.timing < offs + n
        · have hneg : ¬ ((fun e : Timed V => decide (offs + n ≤ e.timing) && decide (e.timing < offs + n + ns.sum)) a = true) := by simp; omega
          by_cases ho' : offs ≤ a.timing
          · rw [List.filter_cons_of_pos (by simp; omega), List.filter_cons_of_neg (p := fun e : Timed V => decide (offs + n ≤ e.timing) && decide (e.timing < offs + n + ns.sum)) hneg, List.cons_append, ih h2,
              List.filter_cons_of_pos (by simp; omega)]
          · rw [List.filter_cons_of_neg (by simp; omega), List.filter_cons_of_neg (p := fun e : Timed V => decide (offs + n ≤ e.timing) && decide (e.timing < offs + n + ns.sum)) hneg, ih h2,
              List.filter_cons_of_neg (by simp; omega)]
        · have : (a :: l).filter (fun e => decide (offs ≤ e.timing) && decide (e.timing < offs + n)) = [] := by
            rw [List.filter_eq_nil_iff]
            intro x hx
            have : offs + n ≤ x.timing := by
              rcases List.mem_cons.1 hx with rfl | hx
              · omega
              · have := h1 x hx; omega
            simp; omega
          rw [this, List.nil_append]
          apply List.filter_congr
          intro x hx
          have : offs + n ≤ x.timing := by
            rcases List.mem_cons.1 hx with rfl | hx
            · omega
            · have := h1 x hx; omega
          rw [Bool.eq_iff_iff]
          simp only [Bool.and_eq_true, decide_eq_true_eq]
          omega
  rw [key ns 0]
  apply List.filter_congr
  intro e _
  simp

/-- The blocks of a run of `n` frames cover it, and none is longer than 128 frames. -/
theorem block_sizes_cover (n : Nat) : (blockSizes n n).sum = n ∧ ∀ k ∈ blockSizes n n, 0 < k ∧ k ≤ 128 := by
  have key : ∀ fuel n, n ≤ fuel → (blockSizes fuel n).sum = n ∧ ∀ k ∈ blockSizes fuel n, 0 < k ∧ k ≤ 128 := by
    intro fuel
    induction fuel with
    | zero => intro n h; obtain rfl : n = 0 := by omega
              simp [blockSizes]
    | succ fuel ih =>
      intro n h
      by_cases h0 : n = 0
      · subst h0; simp [blockSizes]
      · simp only [blockSizes, if_neg h0]
        obtain ⟨i1, i2⟩ := ih (n - if n ≥ 128 then 128 else n) (by split <;> omega)
        constructor
        · rw [List.sum_cons, i1]; split <;> omega
        · intro k hk
          rcases List.mem_cons.1 hk with rfl | hk
          · split <;> omega
          · exact i2 k hk
  exact key n n (Nat.le_refl _)

/-- Five events over three blocks, one of them on a block border, one behind the end. -/
def exEvents : List (Timed Int) :=
  [⟨0, .noteOn 0 60 1⟩, ⟨127, .cc 0 7 5⟩, ⟨128, .noteOff 0 60⟩, ⟨300, .noteOn 1 61 2⟩, ⟨301, .noteOff 1 61⟩]

example : Ordered exEvents ∧ Fits exEvents ((blockSizes 301 301).map (fun n => (n, []))) ∧
    (feedBlocks exEvents 0 { win := Windowing.new, idx := 0 } ((blockSizes 301 301).map (fun n => (n, [])))).map
      (fun fs => fs.map (fun b => (b.notes, b.ccs))) =
      some [([⟨0, .noteOn 0 60 1⟩], [⟨127, .cc 0 7 5⟩]), ([⟨0, .noteOff 0 60⟩], []), ([⟨44, .noteOn 1 61 2⟩], [])] := by
  refine ⟨by simp [Ordered, exEvents], ?_, by decide +kernel⟩
  intro j n inj hj
  have hlen : ∀ l : List (Timed Int), l.length ≤ exEvents.length → l.length < 512 ∧ l.length < 1024 := by
    intro l hl
    have : exEvents.length = 5 := rfl
    omega
  have hd : ∀ offs, (due exEvents offs n).length ≤ exEvents.length := by
    intro offs
    unfold due
    rw [List.length_map]
    exact List.length_filter_le _ _
  have hi : inj = [] := by
    rw [List.getElem?_map] at hj
    cases h : (blockSizes 301 301)[j]? with
    | none => simp [h] at hj
    | some x => simp [h] at hj; exact hj.2
  subst hi
  constructor
  · have := (hlen _ (Nat.le_trans (List.length_filter_le (fun e : Timed Int => isNote e.kind) _) (hd (((((blockSizes 301 301).map (fun n => (n, ([] : List (Ev Int))))).take j).map Prod.fst).sum)))).1
    simpa using this
  · have := (hlen _ (Nat.le_trans (List.length_filter_le (fun e : Timed Int => !isNote e.kind) _) (hd (((((blockSizes 301 301).map (fun n => (n, ([] : List (Ev Int))))).take j).map Prod.fst).sum)))).2
    simpa using this

/-- **C23** (negation) The bound on the number of events is needed: after 512 notes in one block the rest of them is late, and
the next block panics (in release builds the time wraps around). -/
theorem too_many_events_panic :
    feedBlocks (List.replicate 513 (⟨0, .noteOn 0 60 (1 : Int)⟩ : Timed Int)) 0 { win := Windowing.new, idx := 0 } [(128, []), (128, [])] = none := by
  decide +kernel

/-! ## C25 -/

section midip
variable [Add V] [Sub V] [Div V] [NatCast V] [OfNat V 0]

/-- The frames that a sequence of blocks of the node consists of: the events of each. -/
def framesOf (bs : List (NoteBlock V)) : List (List (Ev V)) :=
  bs.flatMap (fun b => (List.range b.nframes).map (fun i => at' b.notes i))

/-- The detune signal over a sequence of blocks. -/
def detOf (bs : List (NoteBlock V)) : List V := bs.flatMap (fun b => (List.range b.nframes).map b.det)

/-- **C25** In every frame of every sequence of blocks (whose events are clean in the sense of `Clean`): with no note on in this
frame the gate is high exactly if the note played last before this frame is still held; each note on in the
frame inverts that, so that a note on from silence is heard at once and a note on over a held note gives the
retrigger dip. Pitch and velocity are those of the last note on. -/
theorem gate_follows_note_partial (chan : Int) (bs : List (NoteBlock V)) (ho : ∀ b ∈ bs, Ordered b.notes)
    (hc : Clean (chan % 16).toNat (framesOf bs)) (f : Nat) (es : List (Ev V)) (hf : (framesOf bs)[f]? = some es) :
    ∃ o d, (MidiP.blocks chan MidiP.new bs).1[f]? = some o ∧ (detOf bs)[f]? = some d ∧
      (((es.filter (isOn (chan % 16).toNat)).length % 2 = 0 → (o.gate = true ↔ Held (chan % 16).toNat (before (framesOf bs) f))) ∧
       ((es.filter (isOn (chan % 16).toNat)).length % 2 = 1 → (o.gate = true ↔ ¬ Held (chan % 16).toNat (before (framesOf bs) f)))) ∧
      (∀ n v, LastOn (chan % 16).toNat (before (framesOf bs) (f + 1)) n v →
        o.vel = v ∧ o.freq = ((n : V) - ((69 : Nat) : V)) / ((120 : Nat) : V) + d) := by
  have hz : bs.flatMap (fun b => (List.range b.nframes).map (fun i => (at' b.notes i, b.det i))) = (framesOf bs).zip (detOf bs) := by
    unfold framesOf detOf
    clear ho hc hf
    induction bs with
    | nil => rfl
    | cons b bs ih =>
      simp only [List.flatMap_cons]
      rw [List.zip_append (by simp), ih]
      congr 1
      rw [List.zip_map']
  have hlen : (framesOf bs).length = (detOf bs).length := by
    unfold framesOf detOf
    clear ho hc hf hz
    induction bs with
    | nil => rfl
    | cons b bs ih => simp [ih]
  obtain ⟨hlt, _⟩ := List.getElem?_eq_some_iff.1 hf
  have hd : (detOf bs)[f]? = some ((detOf bs)[f]'(by omega)) := List.getElem?_eq_getElem _
  have hzip : ((framesOf bs).zip (detOf bs))[f]? = some (es, (detOf bs)[f]'(by omega)) := by
    rw [List.getElem?_zip_eq_some]; exact ⟨hf, hd⟩
  have hplay := play_get (chan % 16).toNat ((framesOf bs).zip (detOf bs)) MidiP.new f es _ hzip
  have htake : (((framesOf bs).zip (detOf bs)).take (f + 1)).map Prod.fst = (framesOf bs).take (f + 1) := by
    rw [List.map_take, List.map_fst_zip (by omega)]
  rw [htake] at hplay
  have hin := inFrame_get hc f es hf
  rw [← hz, ← blocks_play chan bs ho] at hplay
  refine ⟨_, _, hplay, hd, ⟨?_, ?_⟩, ?_⟩
  · intro hev
    have hp := hin.par
    simp only [MidiP.out, decide_eq_true_eq]
    rw [held_iff (v0 := (0 : V)), hp]
    cases (noteState (chan % 16).toNat (0 : V) (before (framesOf bs) f)).held <;> simp <;> omega
  · intro hodd
    have hp := hin.par
    simp only [MidiP.out, decide_eq_true_eq]
    rw [held_iff (v0 := (0 : V)), hp]
    cases (noteState (chan % 16).toNat (0 : V) (before (framesOf bs) f)).held <;> simp <;> omega
  · intro n v hl
    have hb : before (framesOf bs) (f + 1) = before (framesOf bs) f ++ es := by
      have h2 : (framesOf bs).take (f + 1) = (framesOf bs).take f ++ [(framesOf bs)[f]] := (List.take_append_getElem hlt).symm
      unfold before
      rw [h2, List.flatten_append, List.flatten_cons, List.flatten_nil, List.append_nil]
      rw [List.getElem?_eq_getElem hlt] at hf
      rw [Option.some.inj hf]
    rw [hb] at hl
    obtain ⟨l1, l2⟩ := noteState_last (v0 := (0 : V)) hl
    simp only [MidiP.out, hin.note, hin.vel, l1, l2, and_self]

/-- **C25** The whole way from the event list to the node: with blocks of any sizes, fed from an ordered event list, the
frames the node sees are the event list laid out in time, so `gate_follows_note_partial` talks about absolute
time. -/
theorem frames_are_absolute (events : List (Timed V)) (ns : List Nat) (dets : List (Nat → V)) (hl : dets.length = ns.length) :
    framesOf (((fedAll events 0 (ns.map (fun n => (n, [])))).zip (ns.zip dets)).map
      (fun x => ({ nframes := x.2.1, notes := x.1.notes, det := x.2.2 } : NoteBlock V))) =
    (List.range ns.sum).map (fun t => at' (events.filter (fun e => isNote e.kind)) t) := by
  have key : ∀ (ns : List Nat) (dets : List (Nat → V)) (offs : Nat), dets.length = ns.length →
      framesOf (((fedAll events offs (ns.map (fun n => (n, [])))).zip (ns.zip dets)).map
        (fun x => ({ nframes := x.2.1, notes := x.1.notes, det := x.2.2 } : NoteBlock V))) =
      (List.range ns.sum).map (fun t => at' (events.filter (fun e => isNote e.kind)) (offs + t)) := by
    intro ns
    induction ns with
    | nil => intro dets offs _; rfl
    | cons n ns ih =>
      intro dets offs h
      cases dets with
      | nil => simp at h
      | cons d dets =>
        simp only [List.map_cons, fedAll, List.zip_cons_cons, framesOf, List.flatMap_cons, List.sum_cons]
        have hih := ih dets (offs + n) (by simpa using h)
        unfold framesOf at hih
        rw [hih, List.range_add, List.map_append, List.map_map]
        congr 1
        · apply List.map_congr_left
          intro i hi
          have hi' := List.mem_range.1 hi
          simp only [fedAt, List.reverse_nil, List.filter_nil, List.map_nil, List.nil_append]
          have : (due events offs n).filter (fun e => isNote e.kind) = due (events.filter (fun e => isNote e.kind)) offs n := by
            unfold due
            rw [List.filter_map, List.filter_filter, List.filter_filter]
            congr 1
            apply List.filter_congr
            intro e _
            simp only [Function.comp]
            rw [Bool.and_comm]
          rw [this, at_due hi']
        · apply List.map_congr_left
          intro i _
          simp only [Function.comp, Nat.add_assoc]
  have := key ns dets 0 hl
  simpa using this

end midip

/-- A melody: a note, a legato change of note within one frame (off, then on), release. -/
def exNotes : List (NoteBlock Int) :=
  [{ nframes := 3, notes := [⟨1, .noteOn 2 60 5⟩], det := fun _ => 0 },
   { nframes := 4, notes := [⟨1, .noteOff 2 60⟩, ⟨1, .noteOn 2 64 6⟩, ⟨2, .noteOff 2 60⟩, ⟨3, .noteOff 2 64⟩], det := fun _ => 0 },
   { nframes := 1, notes := [], det := fun _ => 0 }]

example : (∀ b ∈ exNotes, Ordered b.notes) ∧
    (MidiP.blocks 18 MidiP.new exNotes).1.map (fun o => (o.gate, o.vel)) =
      [(false, 0), (true, 5), (true, 5), (true, 5), (false, 6), (true, 6), (true, 6), (false, 6)] := by
  refine ⟨?_, by decide +kernel⟩
  intro b hb
  simp only [exNotes, List.mem_cons, List.not_mem_nil, or_false] at hb
  rcases hb with rfl | rfl | rfl <;> simp [Ordered]

/-- The melody is clean. -/
theorem exNotes_clean : Clean 2 (framesOf exNotes) := by
  have hF : framesOf exNotes = [[], [.noteOn 2 60 5], [], [], [.noteOff 2 60, .noteOn 2 64 6], [.noteOff 2 60], [.noteOff 2 64], []] := by
    decide +kernel
  rw [hF]
  intro f es hes pre n mid m v post he
  have hno : ∀ (x : Ev Int), es = [x] → False := by
    intro x hx
    rw [hx] at he
    have := congrArg List.length he
    simp at this
    omega
  match f with
  | 0 => simp at hes; subst hes; simp at he
  | 1 => simp at hes; exact absurd hes.symm (fun h => hno _ h)
  | 2 => simp at hes; subst hes; simp at he
  | 3 => simp at hes; subst hes; simp at he
  | 4 =>
    simp at hes
    left
    rw [← hes] at he
    cases pre with
    | nil =>
      simp at he
      obtain ⟨rfl, _⟩ := he
      refine ⟨by simp, [], 5, [], by simp [before], by simp, by simp⟩
    | cons a pre =>
      have := congrArg List.length he
      simp at this
      omega
  | 5 => simp at hes; exact absurd hes.symm (fun h => hno _ h)
  | 6 => simp at hes; exact absurd hes.symm (fun h => hno _ h)
  | 7 => simp at hes; subst hes; simp at he
  | f + 8 => simp at hes

/-- **C25** (negation) Without the premise the gate gets lost: a second note off of a released note followed in the same frame
by a note on leaves a held note with a low gate. -/
theorem repeated_off_loses_gate :
    ∃ bs : List (NoteBlock Int), (∀ b ∈ bs, Ordered b.notes) ∧ Held 0 (before (framesOf bs) 8) ∧
      (MidiP.blocks 0 MidiP.new bs).1.map (fun o => o.gate) = [true, true, false, true, false, false, false, false, false] ∧
      ((framesOf bs)[8]?).map (fun es => es.length) = some 0 := by
  refine ⟨[{ nframes := 9, notes := [⟨0, .noteOn 0 60 5⟩, ⟨1, .noteOff 0 60⟩, ⟨3, .noteOff 0 60⟩, ⟨3, .noteOn 0 60 6⟩], det := fun _ => 0 }],
    ?_, ?_, by decide +kernel, by decide +kernel⟩
  · intro b hb
    rw [List.mem_singleton.1 hb]
    simp [Ordered]
  · rw [held_iff (v0 := (0 : Int))]
    decide +kernel

/-! ## C26 -/

/-- The targets a slew limiter gets over the frames, and what it makes of them. -/
def slewed (slew : S → V → V → V × S) : S → List (V × V) → List V
  | _, [] => []
  | s, (x, ms) :: r => (slew s x ms).1 :: slewed slew (slew s x ms).2 r

section midicc
variable [OfNat V 0]

/-- The frames of a sequence of blocks: events and slew parameter. -/
def ccFrames (bs : List (CCBlock V)) : List (List (Ev V) × V) :=
  bs.flatMap (fun b => (List.range b.nframes).map (fun i => (at' b.ccs i, b.ms i)))

/-- For each frame the last value of a controller so far (zero before the first), and the slew parameter. -/
def latest (chan cc : Nat) : List (Ev V) → List (List (Ev V) × V) → List (V × V)
  | _, [] => []
  | b, (es, ms) :: F => (lastCC chan cc 0 (b ++ es), ms) :: latest chan cc (b ++ es) F

/-- One frame. -/
def ccFrame (slew : S → V → V → V × S) (c : CCSettings) (s : MidiCC V S) (es : List (Ev V)) (ms : V) : (V × V × V) × MidiCC V S :=
  let s := es.foldl (MidiCC.event c) s
  let r1 := slew s.slew1 s.cur1 ms
  let r2 := slew s.slew2 s.cur2 ms
  let r3 := slew s.slew3 s.cur3 ms
  ((r1.1, r2.1, r3.1), { s with slew1 := r1.2, slew2 := r2.2, slew3 := r3.2 })

def ccPlay (slew : S → V → V → V × S) (c : CCSettings) : MidiCC V S → List (List (Ev V) × V) → List (V × V × V) × MidiCC V S
  | s, [] => ([], s)
  | s, (es, ms) :: F =>
    let r := ccFrame slew c s es ms
    (r.1 :: (ccPlay slew c r.2 F).1, (ccPlay slew c r.2 F).2)

theorem ccFrames_play (slew : S → V → V → V × S) (c : CCSettings) (ms : Nat → V) (n : Nat) : ∀ (t : Nat) (p : Pointer V) (s : MidiCC V S),
    MidiCC.frames slew c ms t n p s = ccPlay slew c s ((Pointer.scan t n p).zip ((List.range n).map (fun i => ms (t + i)))) := by
  induction n with
  | zero => intro t p s; rfl
  | succ n ih =>
    intro t p s
    simp only [MidiCC.frames, Pointer.scan]
    rw [List.range_succ_eq_map, List.map_cons, List.zip_cons_cons, List.map_map]
    simp only [ccPlay, ccFrame, ih]
    have e : (List.range n).map ((fun i => ms (t + i)) ∘ Nat.succ) = (List.range n).map (fun i => ms (t + 1 + i)) := by
      apply List.map_congr_left
      intro i _
      simp only [Function.comp, Nat.succ_eq_add_one]
      congr 1
      omega
    rw [e]
    rfl

theorem ccPlay_append (slew : S → V → V → V × S) (c : CCSettings) (F G : List (List (Ev V) × V)) : ∀ s : MidiCC V S,
    ccPlay slew c s (F ++ G) =
      ((ccPlay slew c s F).1 ++ (ccPlay slew c (ccPlay slew c s F).2 G).1, (ccPlay slew c (ccPlay slew c s F).2 G).2) := by
  induction F with
  | nil => intro s; rfl
  | cons x F ih =>
    intro s
    obtain ⟨es, d⟩ := x
    simp only [List.cons_append, ccPlay, ih]

theorem ccBlocks_play (slew : S → V → V → V × S) (c : CCSettings) (bs : List (CCBlock V)) (ho : ∀ b ∈ bs, Ordered b.ccs) :
    ∀ s : MidiCC V S, MidiCC.blocks slew c s bs = ccPlay slew c s (ccFrames bs) := by
  induction bs with
  | nil => intro s; rfl
  | cons b bs ih =>
    intro s
    have e : MidiCC.process slew s c b.ms b.ccs b.nframes =
        ccPlay slew c s ((List.range b.nframes).map (fun i => (at' b.ccs i, b.ms i))) := by
      unfold MidiCC.process
      rw [ccFrames_play, scan_at _ _ _ (ho b List.mem_cons_self) (fun _ _ => Nat.zero_le _) (fun _ _ => rfl), List.zip_map']
      congr 1
      apply List.map_congr_left
      intro i _
      simp [Pointer.new]
    simp only [MidiCC.blocks, e, ih (fun b hb => ho b (List.mem_cons_of_mem _ hb)), ccFrames, List.flatMap_cons, ccPlay_append]

theorem cc_events (c : CCSettings) (es : List (Ev V)) (h12 : (c.cc1 % 128).toNat ≠ (c.cc2 % 128).toNat)
    (h13 : (c.cc1 % 128).toNat ≠ (c.cc3 % 128).toNat) (h23 : (c.cc2 % 128).toNat ≠ (c.cc3 % 128).toNat) : ∀ s : MidiCC V S,
    es.foldl (MidiCC.event c) s =
      { s with cur1 := lastCC (c.chan % 16).toNat (c.cc1 % 128).toNat s.cur1 es
               cur2 := lastCC (c.chan % 16).toNat (c.cc2 % 128).toNat s.cur2 es
               cur3 := lastCC (c.chan % 16).toNat (c.cc3 % 128).toNat s.cur3 es } := by
  induction es with
  | nil => intro s; rfl
  | cons e es ih =>
    intro s
    rw [List.foldl_cons, ih]
    cases e with
    | noteOn a b v => rfl
    | noteOff a b => rfl
    | cc ch k v =>
      simp only [MidiCC.event, lastCC, List.foldl_cons]
      by_cases hch : ch = (c.chan % 16).toNat
      · by_cases h1 : k = (c.cc1 % 128).toNat
        · have h2 : k ≠ (c.cc2 % 128).toNat := by omega
          have h3 : k ≠ (c.cc3 % 128).toNat := by omega
          simp [hch, h1, h12, h13]
        · by_cases h2 : k = (c.cc2 % 128).toNat
          · have h3 : k ≠ (c.cc3 % 128).toNat := by omega
            simp [hch, h2, h23, Ne.symm h12]
          · by_cases h3 : k = (c.cc3 % 128).toNat
            · simp [hch, h3, Ne.symm h13, Ne.symm h23]
            · simp [hch, h1, h2, h3]
      · simp [hch]

/-- **C26** With three different controllers, each output is the slew limited sequence of the latest value of its controller on
the channel, frame by frame, over every sequence of blocks; other events have no influence. -/
theorem cc_follows_latest_partial (slew : S → V → V → V × S) (c : CCSettings) (s0 : S) (bs : List (CCBlock V))
    (ho : ∀ b ∈ bs, Ordered b.ccs) (h12 : (c.cc1 % 128).toNat ≠ (c.cc2 % 128).toNat)
    (h13 : (c.cc1 % 128).toNat ≠ (c.cc3 % 128).toNat) (h23 : (c.cc2 % 128).toNat ≠ (c.cc3 % 128).toNat) :
    (MidiCC.blocks slew c (MidiCC.new s0) bs).1.map (fun o => o.1) =
      slewed slew s0 (latest (c.chan % 16).toNat (c.cc1 % 128).toNat [] (ccFrames bs)) ∧
    (MidiCC.blocks slew c (MidiCC.new s0) bs).1.map (fun o => o.2.1) =
      slewed slew s0 (latest (c.chan % 16).toNat (c.cc2 % 128).toNat [] (ccFrames bs)) ∧
    (MidiCC.blocks slew c (MidiCC.new s0) bs).1.map (fun o => o.2.2) =
      slewed slew s0 (latest (c.chan % 16).toNat (c.cc3 % 128).toNat [] (ccFrames bs)) := by
  rw [ccBlocks_play slew c bs ho]
  have key : ∀ (F : List (List (Ev V) × V)) (b : List (Ev V)) (s : MidiCC V S),
      s.cur1 = lastCC (c.chan % 16).toNat (c.cc1 % 128).toNat 0 b → s.cur2 = lastCC (c.chan % 16).toNat (c.cc2 % 128).toNat 0 b →
      s.cur3 = lastCC (c.chan % 16).toNat (c.cc3 % 128).toNat 0 b →
      (ccPlay slew c s F).1.map (fun o => o.1) = slewed slew s.slew1 (latest (c.chan % 16).toNat (c.cc1 % 128).toNat b F) ∧
      (ccPlay slew c s F).1.map (fun o => o.2.1) = slewed slew s.slew2 (latest (c.chan % 16).toNat (c.cc2 % 128).toNat b F) ∧
      (ccPlay slew c s F).1.map (fun o => o.2.2) = slewed slew s.slew3 (latest (c.chan % 16).toNat (c.cc3 % 128).toNat b F) := by
    intro F
    induction F with
    | nil => intro b s _ _ _; exact ⟨rfl, rfl, rfl⟩
    | cons x F ih =>
      intro b s g1 g2 g3
      obtain ⟨es, ms⟩ := x
      have hev := cc_events c es h12 h13 h23 s
      have ha : ∀ k, lastCC (c.chan % 16).toNat k (lastCC (c.chan % 16).toNat k 0 b) es = lastCC (c.chan % 16).toNat k (0 : V) (b ++ es) := by
        intro k; unfold lastCC; rw [List.foldl_append]
      simp only [ccPlay, ccFrame, hev, List.map_cons, latest, slewed]
      rw [g1, g2, g3, ha, ha, ha]
      obtain ⟨i1, i2, i3⟩ := ih (b ++ es) { (es.foldl (MidiCC.event c) s) with slew1 := (slew s.slew1 (lastCC (c.chan % 16).toNat (c.cc1 % 128).toNat (0 : V) (b ++ es)) ms).2, slew2 := (slew s.slew2 (lastCC (c.chan % 16).toNat (c.cc2 % 128).toNat (0 : V) (b ++ es)) ms).2, slew3 := (slew s.slew3 (lastCC (c.chan % 16).toNat (c.cc3 % 128).toNat (0 : V) (b ++ es)) ms).2 }
        (by rw [hev]; simp only [g1, ha]) (by rw [hev]; simp only [g2, ha]) (by rw [hev]; simp only [g3, ha])
      rw [hev] at i1 i2 i3
      simp only [g1, g2, g3, ha] at i1 i2 i3
      rw [i1, i2, i3]
      exact ⟨rfl, rfl, rfl⟩
  exact key (ccFrames bs) [] (MidiCC.new s0) rfl rfl rfl

/-- **C26** (negation) If two outputs listen to the same controller only the first one follows it. -/
theorem same_controller_twice :
    (MidiCC.blocks (fun (_ : Unit) (x : Int) _ => (x, ())) ⟨0, 7, 7, 9⟩ (MidiCC.new ())
      [{ nframes := 2, ccs := [⟨0, .cc 0 7 33⟩], ms := fun _ => 0 }]).1 = [(33, 0, 0), (33, 0, 0)] := by decide

/-- Three controllers over two blocks; a foreign channel and a foreign controller are ignored. -/
example : (MidiCC.blocks (fun (_ : Unit) (x : Int) _ => (x, ())) ⟨0, 7, 8, 9⟩ (MidiCC.new ())
      [{ nframes := 2, ccs := [⟨0, .cc 0 8 33⟩, ⟨1, .cc 1 7 1⟩, ⟨1, .cc 0 9 5⟩], ms := fun _ => 0 },
       { nframes := 1, ccs := [⟨0, .cc 0 7 4⟩, ⟨0, .cc 0 7 6⟩], ms := fun _ => 0 }]).1 = [(0, 33, 0), (0, 33, 5), (6, 33, 5)] := by decide

end midicc

/-! ## C55 -/

/-- **C55** An event injected alone before a block is delivered in that block, in its first frame, before all other events of
its kind. -/
theorem injected_event_first_partial (events : List (Timed V)) (ho : Ordered events) (blocks : List (Nat × List (Ev V)))
    (hf : Fits events blocks) (j n : Nat) (e : Ev V) (hj : blocks[j]? = some (n, [e])) :
    ∃ fs b, feedBlocks events 0 { win := Windowing.new, idx := 0 } blocks = some fs ∧ fs[j]? = some b ∧
      ((isNote e = true ∧ ∃ r, b.notes = ⟨0, e⟩ :: r) ∨ (isNote e = false ∧ ∃ r, b.ccs = ⟨0, e⟩ :: r)) := by
  obtain ⟨fs, h1, _, h3⟩ := events_in_their_block events ho blocks hf
  obtain ⟨b, b1, b2, b3, _⟩ := h3 j n [e] hj
  refine ⟨fs, b, h1, b1, ?_⟩
  cases he : isNote e with
  | true => left; exact ⟨rfl, _, by rw [b2]; simp only [List.reverse_singleton, List.filter_cons, he, if_true, List.map_cons, List.cons_append]; rfl⟩
  | false => right; exact ⟨rfl, _, by rw [b3]; simp only [List.reverse_singleton, List.filter_cons, he, Bool.not_false, if_true, List.map_cons, List.cons_append]; rfl⟩

/-- **C55** (negation) Two events injected before the same block arrive in reverse order: a note on followed by its note off
leaves the note hanging. -/
theorem injected_note_hangs (F : Nat) :
    ((feedBlocks ([] : List (Timed Int)) 0 { win := Windowing.new, idx := 0 } [(4, [.noteOn 0 60 5, .noteOff 0 60])]).map
      (fun fs => fs.map (fun b => b.notes))) = some [[⟨0, .noteOff 0 60⟩, ⟨0, .noteOn 0 60 5⟩]] ∧
    (MidiP.blocks 0 MidiP.new [({ nframes := F, notes := [⟨0, .noteOff 0 60⟩, ⟨0, .noteOn 0 60 5⟩], det := fun _ => 0 } : NoteBlock Int)]).1.map
      (fun o => o.gate) = List.replicate F true := by
  refine ⟨by decide +kernel, ?_⟩
  rw [blocks_play]
  · simp only [List.flatMap_cons, List.flatMap_nil, List.append_nil]
    have key : ∀ (G : List (List (Ev Int) × Int)) (s : MidiP Int), (∀ x ∈ G, x.1 = []) → s.curGate = 1 → s.nextGate = 0 →
        (MidiP.play (0 % 16 : Int).toNat s G).1.map (fun o => o.gate) = List.replicate G.length true := by
      intro G
      induction G with
      | nil => intro s _ _ _; rfl
      | cons x G ih =>
        intro s hx h1 h2
        obtain ⟨es, d⟩ := x
        have := hx (es, d) List.mem_cons_self
        simp only at this
        subst this
        have hfs : s.frame (0 % 16 : Int).toNat [] = s := by
          simp only [MidiP.frame, List.foldl_nil, MidiP.frameStart, h2]
          rw [if_neg (by decide), if_neg (by decide)]
          cases s; simp_all
        simp only [MidiP.play, hfs, List.map_cons, List.length_cons, List.replicate_succ]
        rw [ih s (fun x hx' => hx x (List.mem_cons_of_mem _ hx')) h1 h2]
        simp [MidiP.out, h1]
    cases F with
    | zero => rfl
    | succ F =>
      rw [List.range_succ_eq_map, List.map_cons]
      simp only [MidiP.play, List.map_cons, List.replicate_succ]
      have hs : MidiP.frame (0 % 16 : Int).toNat (MidiP.new : MidiP Int)
          (at' [⟨0, .noteOff 0 60⟩, ⟨0, .noteOn 0 60 5⟩] 0) = { nextGate := 0, curNote := 60, curGate := 1, curVel := 5 } := by decide
      rw [hs]
      congr 1
      rw [key _ _ ?_ rfl rfl]
      · simp
      · intro x hx
        simp only [List.map_map, List.mem_map, List.mem_range, Function.comp] at hx
        obtain ⟨i, _, rfl⟩ := hx
        simp [at']
  · intro b hb
    rw [List.mem_singleton.1 hb]
    simp [Ordered]

end HexoDSP.MidiProps
