import Verif.Lemmas.Feedback
/-!
# The feedback nodes (C29)
-/

set_option linter.unusedSectionVars false

namespace HexoDSP.FeedbackProps
open HexoDSP.Feedback HexoDSP.FeedbackSpec

variable {V : Type} [OfNat V 0] [Mul V]

/-- The number of samples of the delay the nodes use, whatever the sample rate of the engine. -/
theorem delay_is_138 : delayCount 44100 = 138 := by
  unfold delayCount
  have : ⌊(44100 : ℚ) * (314 / 100) / 1000⌋ = 138 := by rw [Int.floor_eq_iff]; norm_num
  rw [this]; rfl

theorem line_new {i : Nat} : Line (delayCount 44100) i ([] : List V) 0 ((World.new : World V).newWr i |>.newRd i) := by
  refine ⟨⟨SFB.new 44100, delayCount 44100, ?_, ?_, holds_new⟩, ?_⟩
  · simp [World.newRd, World.newWr, World.new, World.shared, upd]
  · simp [World.newRd, World.newWr, World.new, World.shared, upd, SFB.new]
  · simp [World.newRd, upd]

/-- **C29** With both nodes created together and the reader running before the writer (as in every patch where the reader
leads to the writer), for every partition into blocks of at most 128 samples: the output is the written signal
delayed by 138 samples and multiplied with the volume, except that the very first sample is lost. -/
theorem delayed_signal_partial (i : Nat) (bs : List (Block V)) (hok : ∀ b ∈ bs, b.Ok) :
    ∃ w o, World.new.run (.newWr i :: .newRd i :: readerFirst i bs) = some (w, o) ∧
      ∀ n vol, (volume bs)[n]? = some vol →
        (heard i o)[n]? = some (if n = 138 then 0 * vol else delayed 138 (signal bs) n * vol) := by
  obtain ⟨w, e⟩ := run_RF (d := delayCount 44100) (by rw [delay_is_138]; omega) bs (line_new (V := V) (i := i))
  refine ⟨w, _, by simp only [World.run, World.step, e, Option.map_some, List.nil_append]; rfl, ?_⟩
  intro n vol hv
  have hh : heard i ((outRF (delayCount 44100) ([] : List V) 0 bs).map (fun v => (i, v))) = outRF (delayCount 44100) [] 0 bs := by
    simp [heard, List.filterMap_map]
  rw [hh]
  obtain ⟨hlt, _⟩ := List.getElem?_eq_some_iff.1 hv
  obtain ⟨s, s1, s2, s3, s4⟩ := outRF_get (delayCount 44100) bs ([] : List V) 0 n hok hlt
  rw [s4, hv, Option.map_some, delay_is_138, List.nil_append, Nat.zero_add]
  have hl : ((signal bs).take s).length = s := by rw [List.length_take]; omega
  congr 1
  by_cases h1 : n ≤ 138
  · rw [slotVal_zero]
    · by_cases h2 : n = 138
      · rw [if_pos h2]
      · rw [if_neg h2, delayed, if_pos (by omega)]
    · intro k' a b e'
      rw [hl] at b
      rcases Nat.lt_or_ge n 138 with h3 | h3
      · rw [Nat.mod_eq_of_lt h3, Nat.mod_eq_of_lt (by omega)] at e'; omega
      · obtain rfl : n = 138 := by omega
        rw [Nat.mod_self, Nat.mod_eq_of_lt (by omega)] at e'; omega
  · rw [if_neg (by omega), delayed, if_neg (by omega)]
    have hk : n - 138 < ((signal bs).take s).length := by omega
    rw [slotVal_eq hk (by omega) (j := n % 138)]
    · rw [List.getElem_take, List.getElem?_eq_getElem (by omega)]; rfl
    · have := Nat.add_mod_right (n - 138) 138
      rw [Nat.sub_add_cancel (by omega)] at this
      exact this.symm
    · intro k' a b
      have e2 : n % 138 = (n - 138) % 138 := by
        have := Nat.add_mod_right (n - 138) 138
        rw [Nat.sub_add_cancel (by omega)] at this
        exact this
      rw [e2]
      exact mod_gap a (by omega)

/-- **C29** (negation) If the writer runs first there is no delay at all. -/
theorem writer_first_no_delay (i : Nat) (bs : List (Block V)) (hok : ∀ b ∈ bs, b.Ok) :
    ∃ w o, World.new.run (.newWr i :: .newRd i :: writerFirst i bs) = some (w, o) ∧
      ∀ n vol s, (volume bs)[n]? = some vol → (signal bs)[n]? = some s → 1 ≤ n → (heard i o)[n]? = some (s * vol) := by
  obtain ⟨w, e⟩ := run_WF (d := delayCount 44100) (by rw [delay_is_138]; omega) bs (line_new (V := V) (i := i))
  refine ⟨w, _, by simp only [World.run, World.step, e, Option.map_some, List.nil_append]; rfl, ?_⟩
  intro n vol x hv hx h1
  have hh : heard i ((outWF (delayCount 44100) ([] : List V) 0 bs).map (fun v => (i, v))) = outWF (delayCount 44100) [] 0 bs := by
    simp [heard, List.filterMap_map]
  rw [hh]
  obtain ⟨hlt, _⟩ := List.getElem?_eq_some_iff.1 hv
  obtain ⟨s, s1, s2, s3, s4⟩ := outWF_get (delayCount 44100) bs ([] : List V) 0 n hok hlt
  rw [s4, hv, Option.map_some, delay_is_138, List.nil_append, Nat.zero_add]
  have hl : ((signal bs).take s).length = s := by rw [List.length_take]; omega
  rw [slotVal_eq (k := n) (by omega) h1 rfl (fun k' a b => mod_gap a (by omega)), List.getElem_take]
  obtain ⟨_, hx2⟩ := List.getElem?_eq_some_iff.1 hx
  rw [hx2]

/-- **C29** (negation) If the reader is created later than the writer, after `m` samples, the delay is `m` modulo 138 (if that is at
least a block). -/
theorem late_reader_other_delay (i : Nat) (pre : List V) (bs : List (Block V)) (hok : ∀ b ∈ bs, b.Ok) (hm : 128 ≤ pre.length % 138) :
    ∃ w o, World.new.run (.newWr i :: .write i pre :: .newRd i :: readerFirst i bs) = some (w, o) ∧
      ∀ n vol, (volume bs)[n]? = some vol → 1 ≤ n → pre.length % 138 ≤ n →
        (heard i o)[n]? = some (delayed (pre.length % 138) (signal bs) n * vol) := by
  have hd : 1 < delayCount 44100 := by rw [delay_is_138]; omega
  have hline0 : Line (delayCount 44100) i ([] : List V) 0 ((World.new : World V).newWr i |>.newRd i) := line_new
  obtain ⟨f, p, e1, h1⟩ := holds_writeAll hd pre (holds_new (V := V))
  have hw0 : ((World.new : World V).newWr i).step (.write i pre) =
      some ({ (World.new : World V).newWr i with feedback := upd ((World.new : World V).newWr i).feedback i (some f), wr := upd ((World.new : World V).newWr i).wr i (some p) }, []) := by
    have a1 : ((World.new : World V).newWr i).feedback i = some (SFB.new 44100) := by simp [World.newWr, World.new, World.shared, upd]
    have a2 : ((World.new : World V).newWr i).wr i = some (delayCount 44100) := by simp [World.newWr, World.new, World.shared, upd, SFB.new]
    simp only [World.step, a1, a2, e1, Option.map_some]
  have hline : Line (delayCount 44100) i pre 0 (World.newRd { (World.new : World V).newWr i with feedback := upd ((World.new : World V).newWr i).feedback i (some f), wr := upd ((World.new : World V).newWr i).wr i (some p) } i) := by
    refine ⟨⟨f, p, ?_, ?_, by simpa using h1⟩, ?_⟩
    · simp [World.newRd, World.shared, upd]
    · simp [World.newRd, upd]
    · simp [World.newRd, upd]
  obtain ⟨w, e⟩ := run_RF hd bs hline
  have hrd : ∀ (w : World V), w.step (.newRd i) = some (w.newRd i, []) := fun _ => rfl
  have hwr : ∀ (w : World V), w.step (.newWr i) = some (w.newWr i, []) := fun _ => rfl
  refine ⟨w, _, by simp only [World.run, hwr, hw0, hrd, e, Option.map_some, List.nil_append]; rfl, ?_⟩
  intro n vol hv hn1 hn2
  have hh : heard i ((outRF (delayCount 44100) pre 0 bs).map (fun v => (i, v))) = outRF (delayCount 44100) pre 0 bs := by
    simp [heard, List.filterMap_map]
  rw [hh]
  obtain ⟨hlt, _⟩ := List.getElem?_eq_some_iff.1 hv
  obtain ⟨s, s1, s2, s3, s4⟩ := outRF_get (delayCount 44100) bs pre 0 n hok hlt
  rw [s4, hv, Option.map_some, delay_is_138, Nat.zero_add]
  have hl : ((signal bs).take s).length = s := by rw [List.length_take]; omega
  have hmlt : pre.length % 138 < 138 := Nat.mod_lt _ (by omega)
  have hpre : pre.length % 138 ≤ pre.length := Nat.mod_le _ _
  have hk : pre.length + n - pre.length % 138 < (pre ++ (signal bs).take s).length := by rw [List.length_append, hl]; omega
  have hmod : (pre.length + n - pre.length % 138) % 138 = n % 138 := by omega
  rw [slotVal_eq hk (by omega) hmod]
  · rw [delayed, if_neg (by omega), List.getElem_append_right (by omega), List.getElem_take, List.getElem?_eq_getElem (by omega)]
    simp only [Option.getD_some]
    congr 3
    omega
  · intro k' a b
    rw [← hmod]
    rw [List.length_append, hl] at b
    exact mod_gap a (by omega)

/-- **C29** (negation) The delay is 138 samples at every sample rate, not 3.14 ms: at 96 kHz 3.14 ms are 301 samples. -/
theorem delay_ignores_sample_rate : delayCount 96000 = 301 ∧
    ∀ (w : World V) (i : Nat), w.feedback i = none → (w.shared i).delay = 138 := by
  constructor
  · unfold delayCount
    have : ⌊(96000 : ℚ) * (314 / 100) / 1000⌋ = 301 := by rw [Int.floor_eq_iff]; norm_num
    rw [this]; rfl
  · intro w i h
    simp only [World.shared, h, Option.getD_none, SFB.new]
    exact delay_is_138

/-- **C29** What is heard of instance `i` depends only on the operations on instance `i`: a reader hears the writer with the same
number and no other. -/
theorem instances_independent (i : Nat) (ops : List (Op V)) (w : World V) (o : List (Nat × V)) (h : World.new.run ops = some (w, o)) :
    ∃ w' o', World.new.run (ops.filter (fun op => decide (inst op = i))) = some (w', o') ∧ heard i o = heard i o' :=
  run_filter i ops ⟨rfl, rfl, rfl⟩ h

/-- **C29** Creating a writer again does not disturb the signal in flight: whatever a reader outputs next is the same. -/
theorem new_writer_keeps_signal (w : World V) (i j : Nat) (vol : List V) (h : w.feedback i ≠ none) :
    ((w.newWr j).step (.read i vol)).map Prod.snd = (w.step (.read i vol)).map Prod.snd := by
  have e : (w.newWr j).feedback i = w.feedback i := by
    simp only [World.newWr, upd]
    split
    · next h' =>
      subst h'
      cases hf : w.feedback i with
      | none => exact absurd hf h
      | some f => simp [World.shared, hf]
    · rfl
  have e2 : (w.newWr j).rd i = w.rd i := rfl
  simp only [World.step, e, e2]
  cases w.feedback i with
  | none => rfl
  | some f =>
    cases w.rd i with
    | none => rfl
    | some p => simp only; cases readAll f p vol <;> rfl

theorem readAll_zero : ∀ (vol : List V) (p : Nat), p < 138 → ∃ q, q < 138 ∧ readAll (SFB.new 44100 : SFB V) p vol = some (vol.map (0 * ·), q)
  | [], p, hp => ⟨p, hp, rfl⟩
  | v :: vol, p, hp => by
    have e : (SFB.new 44100 : SFB V).read p = some (0, (p + 1) % 138) := by
      unfold SFB.read SFB.new
      simp only [delay_is_138]
      rw [List.getElem?_eq_getElem (by rw [List.length_replicate]; omega), List.getElem_replicate]
      rfl
    obtain ⟨q, hq, h⟩ := readAll_zero vol ((p + 1) % 138) (Nat.mod_lt _ (by omega))
    exact ⟨q, hq, by simp [readAll, e, h]⟩

/-- **C29** A reader without a writer plays silence, one sample for each frame. -/
theorem reader_alone (i : Nat) (vols : List (List V)) :
    ∃ w o, World.new.run (.newRd i :: vols.map (Op.read i)) = some (w, o) ∧ heard i o = vols.flatten.map (0 * ·) := by
  have key : ∀ (vols : List (List V)) (w : World V) (p : Nat), w.feedback i = some (SFB.new 44100) → w.rd i = some p → p < 138 →
      ∃ w' o, w.run (vols.map (Op.read i)) = some (w', o) ∧ heard i o = vols.flatten.map (0 * ·) := by
    intro vols
    induction vols with
    | nil => exact fun w p _ _ _ => ⟨w, [], rfl, rfl⟩
    | cons v vols ih =>
      intro w p h1 h2 h3
      obtain ⟨q, hq, h4⟩ := readAll_zero v p h3
      obtain ⟨w', o, h5, h6⟩ := ih { w with rd := upd w.rd i (some q) } q h1 (by simp [upd]) hq
      refine ⟨w', (v.map (0 * ·)).map (fun v => (i, v)) ++ o, ?_, ?_⟩
      · simp only [List.map_cons, World.run, World.step, h1, h2, h4, Option.map_some, h5]
      · rw [heard, List.filterMap_append]
        change _ ++ heard i o = _
        rw [h6]
        simp [List.filterMap_map, Function.comp_def]
  obtain ⟨w, o, h1, h2⟩ := key vols (World.new.newRd i) 0 (by simp [World.newRd, World.shared, World.new, upd]) (by simp [World.newRd, upd]) (by omega)
  exact ⟨w, o, by simp only [World.run, World.step, h1, Option.map_some, List.nil_append], h2⟩

/-- **C29** It does not matter which of the two is created first. -/
theorem created_in_any_order (i : Nat) (ops : List (Op V)) : World.new.run (.newWr i :: .newRd i :: ops) = World.new.run (.newRd i :: .newWr i :: ops) := by
  have : ((World.new : World V).newWr i).newRd i = (World.new.newRd i).newWr i := by
    simp [World.newRd, World.newWr, World.shared, World.new, upd]
  simp only [World.run, World.step, this]

/-- Two blocks of 128 samples and one of 10, volume two: 1, 2, 3, ... comes back from sample 139 on. -/
def exBlocks : List (Block Int) :=
  [⟨List.replicate 128 2, (List.range 128).map (fun (i : Nat) => (i : Int) + 1)⟩, ⟨List.replicate 128 2, List.replicate 128 0⟩,
   ⟨List.replicate 10 2, List.replicate 10 7⟩]

example : (∀ b ∈ exBlocks, b.Ok) ∧ (volume exBlocks)[140]? = some 2 ∧ delayed 138 (signal exBlocks) 140 = 3 := by
  refine ⟨?_, by decide +kernel, by decide +kernel⟩
  intro b hb
  simp only [exBlocks, List.mem_cons, List.not_mem_nil, or_false] at hb
  rcases hb with rfl | rfl | rfl <;> simp [Block.Ok]

end HexoDSP.FeedbackProps
