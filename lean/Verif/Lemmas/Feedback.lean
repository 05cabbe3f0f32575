import Verif.Spec.Feedback
import Mathlib.Data.List.Induction
set_option linter.unusedSectionVars false

namespace HexoDSP.FeedbackProps
open HexoDSP.Feedback HexoDSP.FeedbackSpec

variable {V : Type} [OfNat V 0] [Mul V]

/-- The content of slot `j` after `W` was written: the last sample whose number is at least one and congruent to
`j`. -/
def slotVal (d : Nat) : List V → Nat → V := fun W j =>
  (((List.range W.length).reverse.find? (fun k => decide (1 ≤ k ∧ k % d = j))).bind (fun k => W[k]?)).getD 0

theorem slotVal_nil (d j : Nat) : slotVal d ([] : List V) j = 0 := rfl

theorem slotVal_snoc (d : Nat) (W : List V) (s : V) (j : Nat) :
    slotVal d (W ++ [s]) j = if 1 ≤ W.length ∧ W.length % d = j then s else slotVal d W j := by
  unfold slotVal
  rw [List.length_append, List.length_singleton, List.range_succ, List.reverse_append, List.reverse_singleton,
    List.singleton_append, List.find?_cons]
  by_cases h : 1 ≤ W.length ∧ W.length % d = j
  · simp [h]
  · rw [if_neg h]
    simp only [h, decide_false]
    cases hf : (List.range W.length).reverse.find? (fun k => decide (1 ≤ k ∧ k % d = j)) with
    | none => rfl
    | some k =>
      have := List.mem_of_find?_eq_some hf
      have hk : k < W.length := by simpa using this
      simp only [Option.bind_some]
      rw [List.getElem?_append_left hk]

theorem slotVal_eq {d : Nat} {W : List V} {j k : Nat} (hk : k < W.length) (h1 : 1 ≤ k) (hj : k % d = j)
    (hl : ∀ k', k < k' → k' < W.length → k' % d ≠ j) : slotVal d W j = W[k] := by
  induction W using List.reverseRecOn with
  | nil => simp at hk
  | append_singleton W s ih =>
    rw [slotVal_snoc]
    have hlen : (W ++ [s]).length = W.length + 1 := by simp
    by_cases h : k = W.length
    · subst h
      rw [if_pos ⟨h1, hj⟩]
      simp
    · have hkW : k < W.length := by omega
      have := hl W.length hkW (by omega)
      rw [if_neg (by tauto), ih hkW (fun k' a b => hl k' a (by omega)), List.getElem_append_left]

theorem slotVal_zero {d : Nat} {W : List V} {j : Nat} (hl : ∀ k', 1 ≤ k' → k' < W.length → k' % d ≠ j) : slotVal d W j = 0 := by
  induction W using List.reverseRecOn with
  | nil => rfl
  | append_singleton W s ih =>
    rw [slotVal_snoc]
    have hlen : (W ++ [s]).length = W.length + 1 := by simp
    rw [if_neg ?_, ih (fun k' a b => hl k' a (by omega))]
    rintro ⟨a, b⟩
    exact hl W.length a (by omega) b

/-- The buffer and write pointer after `W` was written. -/
structure Holds (d : Nat) (W : List V) (f : SFB V) (p : Nat) : Prop where
  delay : f.delay = d
  length : f.buffer.length = 3 * d
  slot : ∀ j, j < d → f.buffer[j]? = some (slotVal d W j)
  ptr : p = if W.length = 0 then d else W.length % d

theorem holds_new : Holds (delayCount 44100) ([] : List V) (SFB.new 44100) (delayCount 44100) := by
  constructor
  · rfl
  · simp [SFB.new]
  · intro j hj
    rw [slotVal_nil, SFB.new, List.getElem?_replicate]
    rw [if_pos (by omega)]
  · rfl

theorem holds_write {d : Nat} (hd : 1 < d) {W : List V} {f : SFB V} {p : Nat} (h : Holds d W f p) (s : V) :
    ∃ f' p', f.write p s = some (f', p') ∧ Holds d (W ++ [s]) f' p' := by
  have hpl : p < f.buffer.length := by
    rw [h.ptr, h.length]
    split
    · omega
    · have := Nat.mod_lt W.length (show 0 < d by omega); omega
  refine ⟨{ f with buffer := f.buffer.set p s }, (p + 1) % f.delay, by rw [SFB.write, if_pos hpl], h.delay, by simp [h.length], ?_, ?_⟩
  · intro j hj
    simp only
    rw [slotVal_snoc]
    by_cases h0 : W.length = 0
    · rw [if_neg (by omega), List.getElem?_set_ne, h.slot j hj]
      rw [h.ptr, if_pos h0]; omega
    · have hp := h.ptr
      rw [if_neg h0] at hp
      by_cases hw : W.length % d = j
      · rw [if_pos ⟨by omega, hw⟩, ← hw, ← hp, List.getElem?_set_self hpl]
      · rw [if_neg (by tauto), List.getElem?_set_ne (by omega), h.slot j hj]
  · simp only [List.length_append, List.length_singleton]
    rw [if_neg (by omega), h.delay, h.ptr]
    split
    · rename_i h0
      rw [h0, Nat.zero_add, Nat.add_mod_left]
    · rw [Nat.mod_add_mod]

theorem holds_writeAll {d : Nat} (hd : 1 < d) (sig : List V) : ∀ {W : List V} {f : SFB V} {p : Nat}, Holds d W f p →
    ∃ f' p', writeAll f p sig = some (f', p') ∧ Holds d (W ++ sig) f' p' := by
  induction sig with
  | nil => intro W f p h; exact ⟨f, p, rfl, by rw [List.append_nil]; exact h⟩
  | cons s sig ih =>
    intro W f p h
    obtain ⟨f1, p1, e1, h1⟩ := holds_write hd h s
    obtain ⟨f2, p2, e2, h2⟩ := ih h1
    refine ⟨f2, p2, by simp only [writeAll, e1, e2], ?_⟩
    rw [List.append_assoc] at h2
    exact h2

theorem holds_readAll {d : Nat} (hd : 1 < d) {W : List V} {f : SFB V} {p : Nat} (h : Holds d W f p) (vol : List V) : ∀ r : Nat,
    readAll f (r % d) vol = some ((List.range vol.length).zipWith (fun i v => slotVal d W ((r + i) % d) * v) vol, (r + vol.length) % d) := by
  induction vol with
  | nil => intro r; simp [readAll]
  | cons v vol ih =>
    intro r
    have hr : r % d < d := Nat.mod_lt _ (by omega)
    have e : f.read (r % d) = some (slotVal d W (r % d), (r + 1) % d) := by
      rw [SFB.read, h.slot _ hr, h.delay, Option.map_some, Nat.mod_add_mod]
    simp only [readAll, e, ih (r + 1), Option.map_some, List.length_cons]
    rw [List.range_succ_eq_map, List.zipWith_cons_cons, List.zipWith_map_left]
    simp only [Nat.add_zero, Nat.succ_eq_add_one, Nat.add_assoc, Nat.add_comm 1]

/-! ## The world -/

/-- What is true of instance `i` after `W` was written and `r` samples read. -/
structure Line (d : Nat) (i : Nat) (W : List V) (r : Nat) (w : World V) : Prop where
  wr : ∃ f p, w.feedback i = some f ∧ w.wr i = some p ∧ Holds d W f p
  rd : w.rd i = some (r % d)

theorem step_write {d : Nat} (hd : 1 < d) {i : Nat} {W : List V} {r : Nat} {w : World V} (h : Line d i W r w) (sig : List V) :
    ∃ w', w.step (.write i sig) = some (w', []) ∧ Line d i (W ++ sig) r w' := by
  obtain ⟨f, p, hf, hp, hh⟩ := h.wr
  obtain ⟨f', p', e, hh'⟩ := holds_writeAll hd sig hh
  refine ⟨{ w with feedback := upd w.feedback i (some f'), wr := upd w.wr i (some p') }, by simp only [World.step, hf, hp, e, Option.map_some], ⟨f', p', ?_, ?_, hh'⟩, h.rd⟩
  · simp [upd]
  · simp [upd]

theorem step_read {d : Nat} (hd : 1 < d) {i : Nat} {W : List V} {r : Nat} {w : World V} (h : Line d i W r w) (vol : List V) :
    ∃ w', w.step (.read i vol) =
        some (w', ((List.range vol.length).zipWith (fun k v => slotVal d W ((r + k) % d) * v) vol).map (fun v => (i, v))) ∧
      Line d i W (r + vol.length) w' := by
  obtain ⟨f, p, hf, hp, hh⟩ := h.wr
  refine ⟨{ w with rd := upd w.rd i (some ((r + vol.length) % d)) }, by simp only [World.step, hf, h.rd, holds_readAll hd hh, Option.map_some], ⟨f, p, hf, hp, hh⟩, ?_⟩
  simp [upd]

/-- Samples heard with the reader running first, starting after `W` written and `r` read. -/
def outRF (d : Nat) : List V → Nat → List (Block V) → List V
  | _, _, [] => []
  | W, r, b :: bs => (List.range b.vol.length).zipWith (fun k v => slotVal d W ((r + k) % d) * v) b.vol ++
      outRF d (W ++ b.sig) (r + b.vol.length) bs

/-- The same with the writer running first. -/
def outWF (d : Nat) : List V → Nat → List (Block V) → List V
  | _, _, [] => []
  | W, r, b :: bs => (List.range b.vol.length).zipWith (fun k v => slotVal d (W ++ b.sig) ((r + k) % d) * v) b.vol ++
      outWF d (W ++ b.sig) (r + b.vol.length) bs

theorem run_RF {d : Nat} (hd : 1 < d) {i : Nat} (bs : List (Block V)) : ∀ {W : List V} {r : Nat} {w : World V}, Line d i W r w →
    ∃ w', w.run (readerFirst i bs) = some (w', (outRF d W r bs).map (fun v => (i, v))) := by
  induction bs with
  | nil => intro W r w _; exact ⟨w, rfl⟩
  | cons b bs ih =>
    intro W r w h
    obtain ⟨w1, e1, h1⟩ := step_read hd h b.vol
    obtain ⟨w2, e2, h2⟩ := step_write hd h1 b.sig
    obtain ⟨w3, e3⟩ := ih h2
    refine ⟨w3, ?_⟩
    unfold readerFirst at e3
    simp only [readerFirst, List.flatMap_cons, List.cons_append, List.nil_append, World.run, e1, e2, e3, Option.map_some, outRF,
      List.map_append]

theorem run_WF {d : Nat} (hd : 1 < d) {i : Nat} (bs : List (Block V)) : ∀ {W : List V} {r : Nat} {w : World V}, Line d i W r w →
    ∃ w', w.run (writerFirst i bs) = some (w', (outWF d W r bs).map (fun v => (i, v))) := by
  induction bs with
  | nil => intro W r w _; exact ⟨w, rfl⟩
  | cons b bs ih =>
    intro W r w h
    obtain ⟨w1, e1, h1⟩ := step_write hd h b.sig
    obtain ⟨w2, e2, h2⟩ := step_read hd h1 b.vol
    obtain ⟨w3, e3⟩ := ih h2
    refine ⟨w3, ?_⟩
    unfold writerFirst at e3
    simp only [writerFirst, List.flatMap_cons, List.cons_append, List.nil_append, World.run, e1, e2, e3, Option.map_some, outWF,
      List.map_append]

theorem zip_at {g : Nat → V} (vol : List V) (n : Nat) :
    ((List.range vol.length).zipWith (fun k v => g k * v) vol)[n]? = (vol[n]?).map (fun v => g n * v) := by
  rw [List.getElem?_zipWith]
  by_cases h : n < vol.length
  · rw [List.getElem?_range h, List.getElem?_eq_getElem h]; rfl
  · rw [List.getElem?_eq_none (by simpa using h), List.getElem?_eq_none (by simpa using h)]; rfl

/-- With the reader first, sample `n` of the output is the content of its slot after everything written in the blocks
before. -/
theorem outRF_get (d : Nat) (bs : List (Block V)) : ∀ (W : List V) (r n : Nat), (∀ b ∈ bs, b.Ok) →
    n < (volume bs).length → ∃ s, s ≤ n ∧ n < s + 128 ∧ s ≤ (signal bs).length ∧
      (outRF d W r bs)[n]? = ((volume bs)[n]?).map (fun v => slotVal d (W ++ (signal bs).take s) ((r + n) % d) * v) := by
  induction bs with
  | nil => intro W r n _ h; simp [volume] at h
  | cons b bs ih =>
    intro W r n hok h
    obtain ⟨hb1, hb2⟩ := hok b List.mem_cons_self
    have hv : volume (b :: bs) = b.vol ++ volume bs := rfl
    have hs : signal (b :: bs) = b.sig ++ signal bs := rfl
    have hlen : ((List.range b.vol.length).zipWith (fun k v => slotVal d W ((r + k) % d) * v) b.vol).length = b.vol.length := by simp
    by_cases hn : n < b.vol.length
    · refine ⟨0, Nat.zero_le _, by omega, Nat.zero_le _, ?_⟩
      simp only [outRF, List.take_zero, List.append_nil]
      rw [List.getElem?_append_left (by rw [hlen]; exact hn), hv, List.getElem?_append_left hn]
      exact zip_at (g := fun k => slotVal d W ((r + k) % d)) b.vol n
    · rw [hv, List.length_append] at h
      obtain ⟨s, s1, s2, s3, s4⟩ := ih (W ++ b.sig) (r + b.vol.length) (n - b.vol.length) (fun b hb => hok b (List.mem_cons_of_mem _ hb)) (by omega)
      refine ⟨b.sig.length + s, by omega, by omega, by rw [hs, List.length_append]; omega, ?_⟩
      simp only [outRF]
      rw [List.getElem?_append_right (by rw [hlen]; omega), hlen, s4, hv, List.getElem?_append_right (by omega), hs,
        List.take_length_add_append, List.append_assoc]
      have : r + b.vol.length + (n - b.vol.length) = r + n := by omega
      rw [this]

/-- With the writer first, it is the content after this block, too. -/
theorem outWF_get (d : Nat) (bs : List (Block V)) : ∀ (W : List V) (r n : Nat), (∀ b ∈ bs, b.Ok) →
    n < (volume bs).length → ∃ s, n < s ∧ s ≤ n + 128 ∧ s ≤ (signal bs).length ∧
      (outWF d W r bs)[n]? = ((volume bs)[n]?).map (fun v => slotVal d (W ++ (signal bs).take s) ((r + n) % d) * v) := by
  induction bs with
  | nil => intro W r n _ h; simp [volume] at h
  | cons b bs ih =>
    intro W r n hok h
    obtain ⟨hb1, hb2⟩ := hok b List.mem_cons_self
    have hv : volume (b :: bs) = b.vol ++ volume bs := rfl
    have hs : signal (b :: bs) = b.sig ++ signal bs := rfl
    have hlen : ((List.range b.vol.length).zipWith (fun k v => slotVal d (W ++ b.sig) ((r + k) % d) * v) b.vol).length = b.vol.length := by simp
    by_cases hn : n < b.vol.length
    · refine ⟨b.sig.length, by omega, by omega, by rw [hs, List.length_append]; omega, ?_⟩
      simp only [outWF]
      rw [List.getElem?_append_left (by rw [hlen]; exact hn), hv, List.getElem?_append_left hn, hs, List.take_left]
      exact zip_at (g := fun k => slotVal d (W ++ b.sig) ((r + k) % d)) b.vol n
    · rw [hv, List.length_append] at h
      obtain ⟨s, s1, s2, s3, s4⟩ := ih (W ++ b.sig) (r + b.vol.length) (n - b.vol.length) (fun b hb => hok b (List.mem_cons_of_mem _ hb)) (by omega)
      refine ⟨b.sig.length + s, by omega, by omega, by rw [hs, List.length_append]; omega, ?_⟩
      simp only [outWF]
      rw [List.getElem?_append_right (by rw [hlen]; omega), hlen, s4, hv, List.getElem?_append_right (by omega), hs,
        List.take_length_add_append, List.append_assoc]
      have : r + b.vol.length + (n - b.vol.length) = r + n := by omega
      rw [this]

theorem sig_vol_length (bs : List (Block V)) (h : ∀ b ∈ bs, b.Ok) : (signal bs).length = (volume bs).length := by
  induction bs with
  | nil => rfl
  | cons b bs ih =>
    simp only [signal, volume, List.flatMap_cons, List.length_append]
    have := ih (fun b hb => h b (List.mem_cons_of_mem _ hb))
    unfold signal volume at this
    rw [this, (h b List.mem_cons_self).1]

/-- No other number between `k` and `k + d` is congruent to `k`. -/
theorem mod_gap {d k k' : Nat} (h1 : k < k') (h2 : k' < k + d) : k' % d ≠ k % d := by
  intro e
  have h := Nat.sub_mod_eq_zero_of_mod_eq e
  rw [Nat.mod_eq_of_lt (by omega)] at h
  omega

/-! ## Independence of the instances -/

/-- Two worlds agree on instance `i`. -/
def Same (i : Nat) (w v : World V) : Prop := w.feedback i = v.feedback i ∧ w.wr i = v.wr i ∧ w.rd i = v.rd i

theorem step_same {i : Nat} {w v w' : World V} {op : Op V} {o : List (Nat × V)} (h : Same i w v) (hi : inst op = i)
    (e : w.step op = some (w', o)) : ∃ v', v.step op = some (v', o) ∧ Same i w' v' := by
  obtain ⟨h1, h2, h3⟩ := h
  cases op with
  | newWr j =>
    simp only [inst] at hi; subst hi
    simp only [World.step, Option.some.injEq, Prod.mk.injEq] at e ⊢
    obtain ⟨rfl, rfl⟩ := e
    exact ⟨_, ⟨rfl, rfl⟩, by simp [World.newWr, World.shared, upd, h1], by simp [World.newWr, World.shared, upd, h1], by simp [World.newWr, h3]⟩
  | newRd j =>
    simp only [inst] at hi; subst hi
    simp only [World.step, Option.some.injEq, Prod.mk.injEq] at e ⊢
    obtain ⟨rfl, rfl⟩ := e
    exact ⟨_, ⟨rfl, rfl⟩, by simp [World.newRd, World.shared, upd, h1], by simp [World.newRd, h2], by simp [World.newRd, upd]⟩
  | write j sig =>
    simp only [inst] at hi; subst hi
    simp only [World.step] at e ⊢
    rw [← h1, ← h2]
    cases hf : w.feedback j with
    | none => simp only [hf, Option.some.injEq, Prod.mk.injEq] at e; obtain ⟨rfl, rfl⟩ := e; exact ⟨v, rfl, h1, h2, h3⟩
    | some f =>
      cases hp : w.wr j with
      | none => simp only [hf, hp, Option.some.injEq, Prod.mk.injEq] at e; obtain ⟨rfl, rfl⟩ := e; exact ⟨v, rfl, h1, h2, h3⟩
      | some p =>
        simp only [hf, hp] at e ⊢
        cases hw : writeAll f p sig with
        | none => simp [hw] at e
        | some x =>
          simp only [hw, Option.map_some, Option.some.injEq, Prod.mk.injEq] at e ⊢
          obtain ⟨rfl, rfl⟩ := e
          exact ⟨_, ⟨rfl, rfl⟩, by simp [upd], by simp [upd], h3⟩
  | read j vol =>
    simp only [inst] at hi; subst hi
    simp only [World.step] at e ⊢
    rw [← h1, ← h3]
    cases hf : w.feedback j with
    | none => simp only [hf, Option.some.injEq, Prod.mk.injEq] at e; obtain ⟨rfl, rfl⟩ := e; exact ⟨v, rfl, h1, h2, h3⟩
    | some f =>
      cases hp : w.rd j with
      | none => simp only [hf, hp, Option.some.injEq, Prod.mk.injEq] at e; obtain ⟨rfl, rfl⟩ := e; exact ⟨v, rfl, h1, h2, h3⟩
      | some p =>
        simp only [hf, hp] at e ⊢
        cases hw : readAll f p vol with
        | none => simp [hw] at e
        | some x =>
          simp only [hw, Option.map_some, Option.some.injEq, Prod.mk.injEq] at e ⊢
          obtain ⟨rfl, rfl⟩ := e
          exact ⟨_, ⟨rfl, rfl⟩, h1, h2, by simp [upd]⟩

theorem step_other {i : Nat} {w w' : World V} {op : Op V} {o : List (Nat × V)} (hi : inst op ≠ i)
    (e : w.step op = some (w', o)) : Same i w w' ∧ heard i o = [] := by
  cases op with
  | newWr j =>
    simp only [inst] at hi
    simp only [World.step, Option.some.injEq, Prod.mk.injEq] at e
    obtain ⟨rfl, rfl⟩ := e
    refine ⟨⟨?_, ?_, ?_⟩, rfl⟩ <;> simp [World.newWr, upd, Ne.symm hi]
  | newRd j =>
    simp only [inst] at hi
    simp only [World.step, Option.some.injEq, Prod.mk.injEq] at e
    obtain ⟨rfl, rfl⟩ := e
    refine ⟨⟨?_, ?_, ?_⟩, rfl⟩ <;> simp [World.newRd, upd, Ne.symm hi]
  | write j sig =>
    simp only [inst] at hi
    simp only [World.step] at e
    cases hf : w.feedback j with
    | none => simp only [hf, Option.some.injEq, Prod.mk.injEq] at e; obtain ⟨rfl, rfl⟩ := e; exact ⟨⟨rfl, rfl, rfl⟩, rfl⟩
    | some f =>
      cases hp : w.wr j with
      | none => simp only [hf, hp, Option.some.injEq, Prod.mk.injEq] at e; obtain ⟨rfl, rfl⟩ := e; exact ⟨⟨rfl, rfl, rfl⟩, rfl⟩
      | some p =>
        simp only [hf, hp] at e
        cases hw : writeAll f p sig with
        | none => simp [hw] at e
        | some x =>
          simp only [hw, Option.map_some, Option.some.injEq, Prod.mk.injEq] at e
          obtain ⟨rfl, rfl⟩ := e
          refine ⟨⟨?_, ?_, ?_⟩, rfl⟩ <;> simp [upd, Ne.symm hi]
  | read j vol =>
    simp only [inst] at hi
    simp only [World.step] at e
    cases hf : w.feedback j with
    | none => simp only [hf, Option.some.injEq, Prod.mk.injEq] at e; obtain ⟨rfl, rfl⟩ := e; exact ⟨⟨rfl, rfl, rfl⟩, rfl⟩
    | some f =>
      cases hp : w.rd j with
      | none => simp only [hf, hp, Option.some.injEq, Prod.mk.injEq] at e; obtain ⟨rfl, rfl⟩ := e; exact ⟨⟨rfl, rfl, rfl⟩, rfl⟩
      | some p =>
        simp only [hf, hp] at e
        cases hw : readAll f p vol with
        | none => simp [hw] at e
        | some x =>
          simp only [hw, Option.map_some, Option.some.injEq, Prod.mk.injEq] at e
          obtain ⟨rfl, rfl⟩ := e
          refine ⟨⟨rfl, rfl, by simp [upd, Ne.symm hi]⟩, ?_⟩
          simp [heard, hi]

theorem same_trans {i : Nat} {a b c : World V} (h : Same i a b) (g : Same i b c) : Same i a c :=
  ⟨h.1.trans g.1, h.2.1.trans g.2.1, h.2.2.trans g.2.2⟩

theorem same_symm {i : Nat} {a b : World V} (h : Same i a b) : Same i b a := ⟨h.1.symm, h.2.1.symm, h.2.2.symm⟩

theorem heard_append (i : Nat) (a b : List (Nat × V)) : heard i (a ++ b) = heard i a ++ heard i b := by
  simp [heard]

theorem run_filter (i : Nat) (ops : List (Op V)) : ∀ {w v w' : World V} {o : List (Nat × V)}, Same i w v →
    w.run ops = some (w', o) →
    ∃ v' o', v.run (ops.filter (fun op => decide (inst op = i))) = some (v', o') ∧ heard i o = heard i o' := by
  induction ops with
  | nil =>
    intro w v w' o _ e
    simp only [World.run, Option.some.injEq, Prod.mk.injEq] at e
    obtain ⟨rfl, rfl⟩ := e
    exact ⟨v, [], rfl, rfl⟩
  | cons op ops ih =>
    intro w v w' o h e
    simp only [World.run] at e
    cases hs : w.step op with
    | none => simp [hs] at e
    | some x =>
      obtain ⟨w1, o1⟩ := x
      simp only [hs] at e
      cases hr : w1.run ops with
      | none => simp [hr] at e
      | some y =>
        obtain ⟨w2, o2⟩ := y
        simp only [hr, Option.map_some, Option.some.injEq, Prod.mk.injEq] at e
        obtain ⟨rfl, rfl⟩ := e
        by_cases hi : inst op = i
        · obtain ⟨v1, e1, g⟩ := step_same h hi hs
          obtain ⟨v2, o', e2, ho⟩ := ih g hr
          refine ⟨v2, o1 ++ o', ?_, by rw [heard_append, heard_append, ho]⟩
          rw [List.filter_cons_of_pos (by simpa using hi)]
          simp only [World.run, e1, e2, Option.map_some]
        · obtain ⟨g, ho1⟩ := step_other hi hs
          obtain ⟨v2, o', e2, ho⟩ := ih (same_trans (same_symm g) h) hr
          refine ⟨v2, o', ?_, by rw [heard_append, ho1, List.nil_append, ho]⟩
          rw [List.filter_cons_of_neg (by simpa using hi)]
          exact e2

end HexoDSP.FeedbackProps
