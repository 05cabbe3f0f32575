import Verif.Model.MidiSet
import Verif.Spec.MidiSet
import Verif.Lemmas.Midi
/-!
# The MIDI controller input with changing settings (C26)
-/

set_option linter.unusedSectionVars false

namespace HexoDSP.MidiSetProps
open HexoDSP.Midi HexoDSP.MidiSpec HexoDSP.MidiSet HexoDSP.MidiSetSpec

variable {V S : Type} [OfNat V 0]

/-- One frame. -/
def step (slew : S → V → V → V × S) (s : MidiCC V S × Bool) (f : Frame V) : (V × V × V) × MidiCC V S × Bool :=
  let s := f.es.foldl (event f.c) s
  let r1 := slew s.1.slew1 s.1.cur1 f.ms
  let r2 := slew s.1.slew2 s.1.cur2 f.ms
  let r3 := slew s.1.slew3 s.1.cur3 f.ms
  ((r1.1, r2.1, r3.1), { s.1 with slew1 := r1.2, slew2 := r2.2, slew3 := r3.2 }, s.2)

/-- All frames of a block. -/
def play (slew : S → V → V → V × S) : MidiCC V S × Bool → List (Frame V) → List (V × V × V) × MidiCC V S × Bool
  | s, [] => ([], s)
  | s, f :: F => ((step slew s f).1 :: (play slew (step slew s f).2 F).1, (play slew (step slew s f).2 F).2)

theorem frames_play (slew : S → V → V → V × S) (c : CCSettings) (ms : Nat → V) (k : Nat) :
    ∀ (t : Nat) (p : Pointer V) (s : MidiCC V S × Bool), frames slew c ms t k p s =
      play slew s (((Pointer.scan t k p).zip (List.range k)).map (fun x => ⟨c, x.1, ms (t + x.2)⟩)) := by
  induction k with
  | zero => intro t p n; rfl
  | succ k ih =>
    intro t p n
    simp only [frames, Pointer.scan]
    rw [List.range_succ_eq_map, List.zip_cons_cons, List.map_cons]
    simp only [play, step, Nat.add_zero, ih, List.zip_map_right, List.map_map]
    congr 2 <;>
    · refine congrArg _ ?_
      try refine congrArg _ ?_
      apply List.map_congr_left
      intro x _
      have : t + 1 + x.2 = t + x.2.succ := by omega
      simp [this]

theorem process_play (slew : S → V → V → V × S) (s : MidiCC V S) (c : CCSettings) (b : CCBlock V) (ho : Ordered b.ccs) :
    process slew s c b = play slew (s, false) (framesOf [(c, b)]) := by
  rw [process, frames_play, scan_at _ _ _ ho (fun _ _ => Nat.zero_le _) (fun _ _ => rfl), framesOf]
  simp only [List.flatMap_cons, List.flatMap_nil, List.append_nil]
  congr 1
  conv_lhs => rw [← List.map_id (List.range b.nframes), List.map_map, List.zip_map', List.map_map]
  apply List.map_congr_left
  intro i _
  simp [Pointer.new]

/-- The value of an output in the state. -/
def cur (s : MidiCC V S) : Nat → V
  | 0 => s.cur1
  | 1 => s.cur2
  | _ => s.cur3

/-- The slew limiter of an output. -/
def slewOf (s : MidiCC V S) : Nat → S
  | 0 => s.slew1
  | 1 => s.slew2
  | _ => s.slew3

/-- One output of the three. -/
def outOf (o : V × V × V) : Nat → V
  | 0 => o.1
  | 1 => o.2.1
  | _ => o.2.2

theorem event_cur (c : CCSettings) (s : MidiCC V S × Bool) (e : Ev V) (i : Nat) (hi : i < 3) :
    cur (event c s e).1 i = (taken c i e).getD (cur s.1 i) := by
  cases e with
  | noteOn a b v => rfl
  | noteOff a b => rfl
  | cc ch k v =>
    simp only [event, taken]
    by_cases hch : ch = (c.chan % 16).toNat
    · rw [if_neg (by simpa using hch)]
      obtain rfl | rfl | rfl : i = 0 ∨ i = 1 ∨ i = 2 := by omega
      · have : (ch = (c.chan % 16).toNat ∧ number c 0 = k ∧ ∀ j < 0, number c j ≠ k) ↔ k = (c.cc1 % 128).toNat := by
          simp [hch, number, eq_comm]
        simp only [this]
        split
        · rfl
        · split
          · rfl
          · split <;> rfl
      · have : (ch = (c.chan % 16).toNat ∧ number c 1 = k ∧ ∀ j < 1, number c j ≠ k) ↔
            (k = (c.cc2 % 128).toNat ∧ k ≠ (c.cc1 % 128).toNat) := by
          constructor
          · rintro ⟨-, h2, h3⟩; exact ⟨h2.symm, fun h => h3 0 (by omega) h.symm⟩
          · rintro ⟨h2, h3⟩
            refine ⟨hch, h2.symm, fun j hj => ?_⟩
            obtain rfl : j = 0 := by omega
            exact fun h => h3 h.symm
        simp only [this]
        by_cases h1 : k = (c.cc1 % 128).toNat
        · simp [h1, cur]
        · by_cases h2 : k = (c.cc2 % 128).toNat
          · rw [if_neg h1, if_pos h2, if_pos ⟨h2, h1⟩]; rfl
          · have h4 : ¬ (k = (c.cc2 % 128).toNat ∧ k ≠ (c.cc1 % 128).toNat) := fun h => h2 h.1
            rw [if_neg h1, if_neg h2, if_neg h4]
            split <;> rfl
      · have : (ch = (c.chan % 16).toNat ∧ number c 2 = k ∧ ∀ j < 2, number c j ≠ k) ↔
            (k = (c.cc3 % 128).toNat ∧ k ≠ (c.cc1 % 128).toNat ∧ k ≠ (c.cc2 % 128).toNat) := by
          constructor
          · rintro ⟨-, h2, h3⟩
            exact ⟨h2.symm, fun h => h3 0 (by omega) h.symm, fun h => h3 1 (by omega) h.symm⟩
          · rintro ⟨h2, h3, h4⟩
            refine ⟨hch, h2.symm, fun j hj => ?_⟩
            obtain rfl | rfl : j = 0 ∨ j = 1 := by omega
            · exact fun h => h3 h.symm
            · exact fun h => h4 h.symm
        simp only [this]
        by_cases h1 : k = (c.cc1 % 128).toNat
        · rw [if_pos h1, if_neg (fun h => h.2.1 h1)]; rfl
        · by_cases h2 : k = (c.cc2 % 128).toNat
          · rw [if_neg h1, if_pos h2, if_neg (fun h => h.2.2 h2)]; rfl
          · by_cases h3 : k = (c.cc3 % 128).toNat
            · rw [if_neg h1, if_neg h2, if_pos h3, if_pos ⟨h3, h1, h2⟩]; rfl
            · rw [if_neg h1, if_neg h2, if_neg h3, if_neg (fun h => h3 h.1)]; rfl
    · rw [if_pos hch, if_neg (fun h => hch h.1)]; rfl

theorem event_slew (c : CCSettings) (s : MidiCC V S × Bool) (e : Ev V) (i : Nat) : slewOf (event c s e).1 i = slewOf s.1 i := by
  cases e with
  | noteOn a b v => rfl
  | noteOff a b => rfl
  | cc ch k v =>
    simp only [event]
    match i with
    | 0 => repeat' (first | rfl | split)
    | 1 => repeat' (first | rfl | split)
    | _ + 2 => repeat' (first | rfl | split)

theorem event_flag (c : CCSettings) (s : MidiCC V S × Bool) (e : Ev V) :
    (event c s e).2 = true ↔ s.2 = true ∨ ∃ i < 3, (taken c i e).isSome := by
  cases e with
  | noteOn a b v => simp [event, taken]
  | noteOff a b => simp [event, taken]
  | cc ch k v =>
    simp only [event]
    by_cases hch : ch = (c.chan % 16).toNat
    · rw [if_neg (by simpa using hch)]
      by_cases h1 : k = (c.cc1 % 128).toNat
      · rw [if_pos h1]
        refine ⟨fun _ => Or.inr ⟨0, by omega, ?_⟩, fun _ => rfl⟩
        simp [taken, hch, number, h1]
      · rw [if_neg h1]
        by_cases h2 : k = (c.cc2 % 128).toNat
        · rw [if_pos h2]
          refine ⟨fun _ => Or.inr ⟨1, by omega, ?_⟩, fun _ => rfl⟩
          have : ∀ j < 1, number c j ≠ k := by
            intro j hj; obtain rfl : j = 0 := by omega
            exact fun h => h1 h.symm
          simp only [taken]
          rw [if_pos ⟨hch, h2.symm, this⟩]; rfl
        · rw [if_neg h2]
          by_cases h3 : k = (c.cc3 % 128).toNat
          · rw [if_pos h3]
            refine ⟨fun _ => Or.inr ⟨2, by omega, ?_⟩, fun _ => rfl⟩
            have : ∀ j < 2, number c j ≠ k := by
              intro j hj
              obtain rfl | rfl : j = 0 ∨ j = 1 := by omega
              · exact fun h => h1 h.symm
              · exact fun h => h2 h.symm
            simp only [taken]
            rw [if_pos ⟨hch, h3.symm, this⟩]; rfl
          · rw [if_neg h3]
            refine ⟨Or.inl, ?_⟩
            rintro (h | ⟨i, hi, h⟩)
            · exact h
            · exfalso
              simp only [taken] at h
              split at h
              · rename_i h'
                obtain rfl | rfl | rfl : i = 0 ∨ i = 1 ∨ i = 2 := by omega
                · exact h1 h'.2.1.symm
                · exact h2 h'.2.1.symm
                · exact h3 h'.2.1.symm
              · simp at h
    · rw [if_pos hch]
      refine ⟨Or.inl, ?_⟩
      rintro (h | ⟨i, hi, h⟩)
      · exact h
      · simp only [taken] at h
        rw [if_neg (fun h => hch h.1)] at h
        simp at h

theorem events_all (c : CCSettings) (es : List (Ev V)) (i : Nat) (hi : i < 3) : ∀ s : MidiCC V S × Bool,
    cur (es.foldl (event c) s).1 i = (es.filterMap (taken c i)).getLast?.getD (cur s.1 i) ∧
    slewOf (es.foldl (event c) s).1 i = slewOf s.1 i := by
  induction es with
  | nil => intro s; exact ⟨rfl, rfl⟩
  | cons e es ih =>
    intro s
    rw [List.foldl_cons, (ih _).1, (ih _).2, event_slew, event_cur c s e i hi, List.filterMap_cons]
    refine ⟨?_, rfl⟩
    cases taken c i e with
    | none => rfl
    | some v => simp [List.getLast?_cons]

theorem events_flag (c : CCSettings) (es : List (Ev V)) : ∀ s : MidiCC V S × Bool,
    (es.foldl (event c) s).2 = true ↔ s.2 = true ∨ ∃ e ∈ es, ∃ i < 3, (taken c i e).isSome := by
  induction es with
  | nil => intro s; simp
  | cons e es ih =>
    intro s
    rw [List.foldl_cons, ih, event_flag]
    simp only [List.mem_cons, exists_eq_or_imp, or_assoc]

theorem step_all (slew : S → V → V → V × S) (s : MidiCC V S × Bool) (f : Frame V) (i : Nat) (hi : i < 3) :
    cur (step slew s f).2.1 i = (f.es.filterMap (taken f.c i)).getLast?.getD (cur s.1 i) ∧
    slewOf (step slew s f).2.1 i = (slew (slewOf s.1 i) ((f.es.filterMap (taken f.c i)).getLast?.getD (cur s.1 i)) f.ms).2 ∧
    outOf (step slew s f).1 i = (slew (slewOf s.1 i) ((f.es.filterMap (taken f.c i)).getLast?.getD (cur s.1 i)) f.ms).1 := by
  obtain ⟨h1, h2⟩ := events_all f.c f.es i hi s
  rw [← h1, ← h2]
  obtain rfl | rfl | rfl : i = 0 ∨ i = 1 ∨ i = 2 := by omega
  · exact ⟨rfl, rfl, rfl⟩
  · exact ⟨rfl, rfl, rfl⟩
  · exact ⟨rfl, rfl, rfl⟩

theorem play_append (slew : S → V → V → V × S) (F H : List (Frame V)) : ∀ s : MidiCC V S × Bool,
    play slew s (F ++ H) = ((play slew s F).1 ++ (play slew (play slew s F).2 H).1, (play slew (play slew s F).2 H).2) := by
  induction F with
  | nil => intro n; rfl
  | cons x F ih => intro n; simp only [List.cons_append, play, ih]

theorem event_flag_free (c : CCSettings) (s : MidiCC V S) (b b' : Bool) (e : Ev V) : (event c (s, b) e).1 = (event c (s, b') e).1 := by
  cases e with
  | noteOn a b v => rfl
  | noteOff a b => rfl
  | cc ch k v =>
    simp only [event]
    repeat' (first | rfl | split)

theorem events_flag_free (c : CCSettings) (es : List (Ev V)) : ∀ (s s' : MidiCC V S × Bool), s.1 = s'.1 →
    (es.foldl (event c) s).1 = (es.foldl (event c) s').1 := by
  induction es with
  | nil => intro s s' h; exact h
  | cons e es ih =>
    rintro ⟨s, b⟩ ⟨s', b'⟩ h
    simp only at h
    subst h
    rw [List.foldl_cons, List.foldl_cons]
    exact ih _ _ (event_flag_free c s b b' e)

theorem play_flag_free (slew : S → V → V → V × S) (F : List (Frame V)) : ∀ (s s' : MidiCC V S × Bool), s.1 = s'.1 →
    (play slew s F).1 = (play slew s' F).1 ∧ (play slew s F).2.1 = (play slew s' F).2.1 := by
  induction F with
  | nil => intro s s' h; exact ⟨rfl, h⟩
  | cons f F ih =>
    intro s s' h
    have := events_flag_free f.c f.es s s' h
    have h1 : (step slew s f).1 = (step slew s' f).1 := by simp only [step, this]
    have h2 : (step slew s f).2.1 = (step slew s' f).2.1 := by simp only [step, this]
    obtain ⟨i1, i2⟩ := ih _ _ h2
    simp only [play]
    rw [h1, i1, i2]
    exact ⟨rfl, rfl⟩

theorem framesOf_cons (b : CCSettings × CCBlock V) (bs : List (CCSettings × CCBlock V)) : framesOf (b :: bs) = framesOf [b] ++ framesOf bs := by
  simp [framesOf]

theorem blocks_play (slew : S → V → V → V × S) (bs : List (CCSettings × CCBlock V)) (ho : ∀ b ∈ bs, Ordered b.2.ccs) :
    ∀ (s : MidiCC V S) (flag : Bool), (blocks slew s bs).1 = (play slew (s, flag) (framesOf bs)).1 := by
  induction bs with
  | nil => intro s flag; rfl
  | cons b bs ih =>
    intro s flag
    obtain ⟨c, b⟩ := b
    have hp := process_play slew s c b (ho (c, b) List.mem_cons_self)
    obtain ⟨p1, p2⟩ := play_flag_free slew (framesOf [(c, b)]) (s, false) (s, flag) rfl
    simp only [blocks]
    rw [framesOf_cons, play_append, hp, p1, p2, ih (fun b hb => ho b (List.mem_cons_of_mem _ hb)) _ (play slew (s, flag) (framesOf [(c, b)])).2.2]

theorem targets_cons (i : Nat) (f : Frame V) (F : List (Frame V)) (P : List (Frame V)) :
    ((List.range (f :: F).length).filterMap fun k => (f :: F)[k]?.map fun fr => (current i (P ++ (f :: F).take (k + 1)), fr.ms)) =
      (current i (P ++ [f]), f.ms) ::
        (List.range F.length).filterMap fun k => F[k]?.map fun fr => (current i ((P ++ [f]) ++ F.take (k + 1)), fr.ms) := by
  rw [List.length_cons, List.range_succ_eq_map, List.filterMap_cons]
  simp only [List.getElem?_cons_zero, Option.map_some, List.take_succ_cons, List.take_zero]
  congr 1
  rw [List.filterMap_map]
  congr 1
  funext k
  simp [Function.comp]

/-- **C26** For all settings, also equal controllers and settings that change from block to block: each output is its slew limiter,
given in each frame the value of the last event that the output took. An output takes the values of the controller
that it is set to in that frame, on the channel set in that frame, if no earlier output is set to the same
controller. -/
theorem cc_any_settings (slew : S → V → V → V × S) (s0 : S) (bs : List (CCSettings × CCBlock V)) (ho : ∀ b ∈ bs, Ordered b.2.ccs) :
    (blocks slew (MidiCC.new s0) bs).1.map (fun o => o.1) = limited slew s0 (targets 0 (framesOf bs)) ∧
    (blocks slew (MidiCC.new s0) bs).1.map (fun o => o.2.1) = limited slew s0 (targets 1 (framesOf bs)) ∧
    (blocks slew (MidiCC.new s0) bs).1.map (fun o => o.2.2) = limited slew s0 (targets 2 (framesOf bs)) := by
  rw [blocks_play slew bs ho _ false]
  have key : ∀ (i : Nat), i < 3 → ∀ (F P : List (Frame V)) (s : MidiCC V S × Bool), cur s.1 i = current i P →
      (play slew s F).1.map (fun o => outOf o i) = limited slew (slewOf s.1 i)
        ((List.range F.length).filterMap fun k => F[k]?.map fun fr => (current i (P ++ F.take (k + 1)), fr.ms)) := by
    intro i hi F
    induction F with
    | nil => intro P s _; rfl
    | cons f F ih =>
      intro P s hs
      obtain ⟨h1, h2, h3⟩ := step_all slew s f i hi
      have hc : (f.es.filterMap (taken f.c i)).getLast?.getD (cur s.1 i) = current i (P ++ [f]) := by
        rw [hs]
        unfold current
        rw [List.flatMap_append]
        simp only [List.flatMap_cons, List.flatMap_nil, List.append_nil, List.getLast?_append]
        cases (f.es.filterMap (taken f.c i)).getLast? <;> rfl
      rw [targets_cons]
      simp only [play, List.map_cons, limited]
      rw [h3, hc, ih (P ++ [f]) _ (by rw [h1, hc]), h2, hc]
  exact ⟨key 0 (by omega) (framesOf bs) [] _ rfl, key 1 (by omega) (framesOf bs) [] _ rfl, key 2 (by omega) (framesOf bs) [] _ rfl⟩

/-- **C26** The LED is on after a block exactly if an output took a value in it. -/
theorem led_says_taken (slew : S → V → V → V × S) (s : MidiCC V S) (c : CCSettings) (b : CCBlock V) (ho : Ordered b.ccs) :
    (process slew s c b).2.2 = true ↔ ∃ e ∈ b.ccs, e.timing < b.nframes ∧ ∃ i < 3, (taken c i e.kind).isSome := by
  rw [process_play slew s c b ho]
  have key : ∀ (F : List (Frame V)) (s : MidiCC V S × Bool),
      (play slew s F).2.2 = true ↔ s.2 = true ∨ ∃ f ∈ F, ∃ e ∈ f.es, ∃ i < 3, (taken f.c i e).isSome := by
    intro F
    induction F with
    | nil => intro s; simp [play]
    | cons f F ih =>
      intro s
      have : (step slew s f).2.2 = (f.es.foldl (event f.c) s).2 := rfl
      simp only [play]
      rw [ih, this, events_flag]
      simp only [List.mem_cons, exists_eq_or_imp, or_assoc]
  rw [key]
  constructor
  · rintro (h | ⟨f, hf, e, he, h⟩)
    · simp at h
    · simp only [framesOf, List.flatMap_cons, List.flatMap_nil, List.append_nil, List.mem_map, List.mem_range] at hf
      obtain ⟨t, ht, rfl⟩ := hf
      simp only [at', List.mem_map, List.mem_filter, decide_eq_true_eq] at he
      obtain ⟨x, ⟨hx, rfl⟩, rfl⟩ := he
      exact ⟨x, hx, ht, h⟩
  · rintro ⟨x, hx, ht, h⟩
    refine Or.inr ⟨⟨c, at' b.ccs x.timing, b.ms x.timing⟩, ?_, x.kind, ?_, h⟩
    · simp only [framesOf, List.flatMap_cons, List.flatMap_nil, List.append_nil, List.mem_map, List.mem_range]
      exact ⟨_, ht, rfl⟩
    · simp only [at', List.mem_map, List.mem_filter, decide_eq_true_eq]
      exact ⟨x, ⟨hx, rfl⟩, rfl⟩

/-- Controllers 7, 8, 7 in the first block, 1, 7, 3 on another channel in the second. -/
def exBlocks : List (CCSettings × CCBlock Int) :=
  [(⟨0, 7, 8, 7⟩, ⟨2, [⟨0, .cc 0 7 33⟩, ⟨1, .cc 0 8 5⟩], fun _ => 0⟩),
   (⟨1, 1, 7, 3⟩, ⟨2, [⟨0, .cc 0 7 1⟩, ⟨1, .cc 1 7 6⟩], fun _ => 0⟩),
   (⟨1, 1, 7, 3⟩, ⟨1, [⟨0, .cc 1 2 1⟩], fun _ => 0⟩)]

example : blocks (fun (_ : Unit) (x : Int) _ => (x, ())) (MidiCC.new ()) exBlocks =
      ([(33, 0, 0), (33, 5, 0), (33, 5, 0), (33, 6, 0), (33, 6, 0)], [true, true, false]) ∧
    targets 1 (framesOf exBlocks) = [(0, 0), (5, 0), (5, 0), (6, 0), (6, 0)] ∧ (∀ b ∈ exBlocks, Ordered b.2.ccs) := by
  refine ⟨by decide +kernel, by decide +kernel, ?_⟩
  simp [exBlocks, Ordered]

end HexoDSP.MidiSetProps
