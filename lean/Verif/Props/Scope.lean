import Verif.Spec.Scope
import Mathlib.Data.List.Basic
import Mathlib.Data.Nat.Bitwise
/-!
# The scope handle (C30)
-/

set_option linter.unusedSectionVars false

namespace HexoDSP.ScopeProps
open HexoDSP.Scope HexoDSP.ScopeSpec

variable {V : Type} [OfNat V 0]

/-- The handle shows what the specification says. -/
structure Shows (h : Handle V) (ops : List (Op V)) : Prop where
  len : h.bufs.length = 3
  lens : ∀ (b : Nat) (l : List (V × V)), h.bufs[b]? = some l → l.length = 512
  slot : ∀ (b k : Nat), b < 3 → k < 512 → (h.bufs[b]?).bind (fun l => l[k]?) = some (shown b k ops)
  og : h.offsGain.length = 3
  ogv : ∀ (b : Nat), b < 3 → h.offsGain[b]? = some (offsGain b ops)
  act : h.active.length = 3
  actv : ∀ (b : Nat), b < 3 → h.active[b]? = some (active b ops)
  thr : h.getThreshold = threshold ops

theorem shows_new : Shows (Handle.new : Handle V) [] where
  len := rfl
  lens := by
    intro b l h
    simp only [Handle.new, List.getElem?_replicate] at h
    split at h
    · rw [← Option.some.inj h, List.length_replicate]
    · cases h
  slot := by
    intro b k hb hk
    simp only [Handle.new, List.getElem?_replicate, if_pos hb, Option.bind_some, if_pos hk]
    rfl
  og := rfl
  ogv := by intro b hb; simp only [Handle.new, List.getElem?_replicate, if_pos hb]; rfl
  act := rfl
  actv := by intro b hb; simp only [Handle.new, List.getElem?_replicate, if_pos hb]; rfl
  thr := rfl

theorem setSlot_spec (h : Handle V) (hl : h.bufs.length = 3) (hls : ∀ (b : Nat) (l : List (V × V)), h.bufs[b]? = some l → l.length = 512)
    (b i : Nat) (hb : b < 3) (hi : i < 512) (v : V × V) :
    ∃ h', h.setSlot b i v = some h' ∧ h'.bufs.length = 3 ∧ (∀ (b : Nat) (l : List (V × V)), h'.bufs[b]? = some l → l.length = 512) ∧
      h'.active = h.active ∧ h'.offsGain = h.offsGain ∧ h'.threshold = h.threshold ∧
      ∀ (b' k : Nat), b' < 3 → k < 512 → (h'.bufs[b']?).bind (fun l => l[k]?) =
        if b' = b ∧ k = i then some v else (h.bufs[b']?).bind (fun l => l[k]?) := by
  have hb' : b < h.bufs.length := by omega
  have hg : h.bufs[b]? = some h.bufs[b] := List.getElem?_eq_getElem hb'
  have hlen := hls b _ hg
  refine ⟨{ h with bufs := h.bufs.set b (h.bufs[b].set i v) }, ?_, by simp [hl], ?_, rfl, rfl, rfl, ?_⟩
  · simp only [Handle.setSlot, hg]
    rw [if_pos (by omega)]
  · intro c l hc
    simp only at hc
    by_cases h0 : c = b
    · subst h0
      rw [List.getElem?_set_self hb'] at hc
      rw [← Option.some.inj hc]; simp [hlen]
    · rw [List.getElem?_set_ne (Ne.symm h0)] at hc
      exact hls c l hc
  · intro c k hc hk
    simp only
    by_cases h0 : c = b
    · subst h0
      rw [List.getElem?_set_self hb', Option.bind_some, hg, Option.bind_some]
      by_cases h1 : k = i
      · subst h1
        rw [List.getElem?_set_self (by omega)]; simp
      · rw [List.getElem?_set_ne (Ne.symm h1)]; simp [h1]
    · rw [List.getElem?_set_ne (Ne.symm h0)]; simp [h0]

theorem fill_spec (b : Nat) (v : V) (n : Nat) : ∀ (h : Handle V) (i : Nat), h.bufs.length = 3 →
    (∀ (b : Nat) (l : List (V × V)), h.bufs[b]? = some l → l.length = 512) → i + n ≤ 512 →
    ∃ h', h.fill b v i n = some h' ∧ h'.bufs.length = 3 ∧ (∀ (b : Nat) (l : List (V × V)), h'.bufs[b]? = some l → l.length = 512) ∧
      h'.active = h.active ∧ h'.offsGain = h.offsGain ∧ h'.threshold = h.threshold ∧
      ∀ (b' k : Nat), b' < 3 → k < 512 → (h'.bufs[b']?).bind (fun l => l[k]?) =
        if b % 3 = b' ∧ i ≤ k ∧ k < i + n then some (v, v) else (h.bufs[b']?).bind (fun l => l[k]?) := by
  induction n with
  | zero =>
    intro h i hl hls hin
    refine ⟨h, rfl, hl, hls, rfl, rfl, rfl, ?_⟩
    intro b' k _ _
    rw [if_neg (by omega)]
  | succ n ih =>
    intro h i hl hls hin
    obtain ⟨h1, e1, l1, ls1, a1, o1, t1, s1⟩ := setSlot_spec h hl hls (b % 3) (i % 512) (by omega) (by omega) (v, v)
    obtain ⟨h2, e2, l2, ls2, a2, o2, t2, s2⟩ := ih h1 (i + 1) l1 ls1 (by omega)
    refine ⟨h2, by simp only [Handle.fill, e1, e2], l2, ls2, a2.trans a1, o2.trans o1, t2.trans t1, ?_⟩
    intro b' k hb hk
    rw [s2 b' k hb hk, s1 b' k hb hk, Nat.mod_eq_of_lt (show i < 512 by omega)]
    by_cases h3 : b % 3 = b'
    · by_cases h4 : k = i
      · rw [if_neg (by omega), if_pos ⟨h3.symm, h4⟩, if_pos ⟨h3, by omega, by omega⟩]
      · by_cases h5 : i + 1 ≤ k ∧ k < i + 1 + n
        · rw [if_pos ⟨h3, h5.1, h5.2⟩, if_pos ⟨h3, by omega, by omega⟩]
        · rw [if_neg (by omega), if_neg (by omega), if_neg (by omega)]
    · rw [if_neg (by omega), if_neg (by omega), if_neg (by omega)]

theorem shows_step {h : Handle V} {ops : List (Op V)} (hs : Shows h ops) (op : Op V) :
    ∃ h', h.step op = some h' ∧ Shows h' (ops ++ [op]) := by
  cases op with
  | write b i v =>
    obtain ⟨h1, e1, l1, ls1, a1, o1, t1, s1⟩ := setSlot_spec h hs.len hs.lens (b % 3) (i % 512) (by omega) (by omega) v
    refine ⟨h1, e1, l1, ls1, ?_, by rw [o1]; exact hs.og, ?_, by rw [a1]; exact hs.act, ?_, ?_⟩
    · intro b' k hb hk
      rw [s1 b' k hb hk, hs.slot b' k hb hk]
      simp only [shown, List.foldl_append, List.foldl_cons, List.foldl_nil, after]
      by_cases h3 : b % 3 = b' <;> by_cases h4 : i % 512 = k <;> simp [h3, h4] <;> omega
    · intro b' hb; rw [o1, hs.ogv b' hb]; simp [offsGain]
    · intro b' hb; rw [a1, hs.actv b' hb]; simp [active]
    · have := hs.thr; simp only [Handle.getThreshold, t1] at this ⊢; rw [this]; simp [threshold]
  | over b i c v =>
    by_cases hi : i ≤ 512
    · obtain ⟨h1, e1, l1, ls1, a1, o1, t1, s1⟩ := fill_spec b v (min (i + c) 512 - i) h i hs.len hs.lens (by omega)
      refine ⟨h1, e1, l1, ls1, ?_, by rw [o1]; exact hs.og, ?_, by rw [a1]; exact hs.act, ?_, ?_⟩
      · intro b' k hb hk
        rw [s1 b' k hb hk, hs.slot b' k hb hk]
        simp only [shown, List.foldl_append, List.foldl_cons, List.foldl_nil, after]
        by_cases h3 : b % 3 = b' ∧ i ≤ k ∧ k < i + c
        · rw [if_pos h3, if_pos ⟨h3.1, h3.2.1, by omega⟩]
        · rw [if_neg h3, if_neg (by omega)]
      · intro b' hb; rw [o1, hs.ogv b' hb]; simp [offsGain]
      · intro b' hb; rw [a1, hs.actv b' hb]; simp [active]
      · have := hs.thr; simp only [Handle.getThreshold, t1] at this ⊢; rw [this]; simp [threshold]
    · have e0 : min (i + c) 512 - i = 0 := by omega
      refine ⟨h, by simp only [Handle.step, Handle.writeOversampled, e0, Handle.fill], hs.len, hs.lens, ?_, hs.og, ?_, hs.act, ?_, ?_⟩
      · intro b' k hb hk
        rw [hs.slot b' k hb hk]
        simp only [shown, List.foldl_append, List.foldl_cons, List.foldl_nil, after]
        rw [if_neg (by omega)]
      · intro b' hb; rw [hs.ogv b' hb]; simp [offsGain]
      · intro b' hb; rw [hs.actv b' hb]; simp [active]
      · rw [hs.thr]; simp [threshold]
  | offsGain b o g =>
    refine ⟨{ h with offsGain := h.offsGain.set (b % 3) (o, g) }, ?_, hs.len, hs.lens, ?_, by simp [hs.og], ?_, hs.act, ?_, ?_⟩
    · simp only [Handle.step, Handle.setOffsGain]; rw [if_pos (by rw [hs.og]; omega)]
    · intro b' k hb hk
      rw [hs.slot b' k hb hk]; simp [shown, after]
    · intro b' hb
      simp only [offsGain, List.foldl_append, List.foldl_cons, List.foldl_nil]
      by_cases h3 : b % 3 = b'
      · rw [if_pos h3, h3, List.getElem?_set_self (by rw [hs.og]; exact hb)]
      · rw [if_neg h3, List.getElem?_set_ne h3, hs.ogv b' hb]; rfl
    · intro b' hb; rw [hs.actv b' hb]; simp [active]
    · have := hs.thr; simp only [Handle.getThreshold] at this ⊢; rw [this]; simp [threshold]
  | threshold t =>
    refine ⟨h.setThreshold t, rfl, ?_, ?_, ?_, ?_, ?_, ?_, ?_, ?_⟩
    · cases t <;> exact hs.len
    · cases t <;> exact hs.lens
    · intro b' k hb hk
      have : (h.setThreshold t).bufs = h.bufs := by cases t <;> rfl
      rw [this, hs.slot b' k hb hk]; simp [shown, after]
    · cases t <;> exact hs.og
    · intro b' hb
      have : (h.setThreshold t).offsGain = h.offsGain := by cases t <;> rfl
      rw [this, hs.ogv b' hb]; simp [offsGain]
    · cases t <;> exact hs.act
    · intro b' hb
      have : (h.setThreshold t).active = h.active := by cases t <;> rfl
      rw [this, hs.actv b' hb]; simp [active]
    · simp only [threshold, List.foldl_append, List.foldl_cons, List.foldl_nil]
      cases t <;> rfl
  | active m =>
    refine ⟨h.setActive m, rfl, hs.len, hs.lens, ?_, hs.og, ?_, by simp [Handle.setActive, hs.act], ?_, ?_⟩
    · intro b' k hb hk
      have : (h.setActive m).bufs = h.bufs := rfl
      rw [this, hs.slot b' k hb hk]; simp [shown, after]
    · intro b' hb
      have : (h.setActive m).offsGain = h.offsGain := rfl
      rw [this, hs.ogv b' hb]; simp [offsGain]
    · intro b' hb
      simp only [active, List.foldl_append, List.foldl_cons, List.foldl_nil, Handle.setActive]
      have hlen := hs.act
      have bit : ∀ j, m.testBit j = decide (m &&& 2 ^ j > 0) := by
        intro j
        rw [Nat.and_two_pow]
        have : (2 : Nat) ^ j > 0 := Nat.two_pow_pos j
        cases m.testBit j
        · simp
        · simpa using this
      match b', hb with
      | 0, _ =>
        rw [List.getElem?_set_ne (by omega), List.getElem?_set_ne (by omega), List.getElem?_set_self (by omega), bit 0]; rfl
      | 1, _ => rw [List.getElem?_set_ne (by omega), List.getElem?_set_self (by simp; omega), bit 1]; rfl
      | 2, _ => rw [List.getElem?_set_self (by simp; omega), bit 2]; rfl
    · have : (h.setActive m).getThreshold = h.getThreshold := rfl
      rw [this, hs.thr]; simp [threshold]

theorem shows_run (ops : List (Op V)) : ∀ (h : Handle V) (pre : List (Op V)), Shows h pre → ∃ h', h.run ops = some h' ∧ Shows h' (pre ++ ops) := by
  induction ops with
  | nil => intro h pre hs; exact ⟨h, rfl, by simpa using hs⟩
  | cons op ops ih =>
    intro h pre hs
    obtain ⟨h1, e1, s1⟩ := shows_step hs op
    obtain ⟨h2, e2, s2⟩ := ih h1 _ s1
    exact ⟨h2, by simp only [Handle.run, e1, Option.bind_some, e2], by simpa using s2⟩

/-- **C30** After every history of calls with any indices nothing panics, and reading signal `b` at index `i` (any numbers) gives what
the last call that reaches that slot wrote: a plain write its pair at `i` modulo 512, an oversampled write its value in the slots
`idx .. idx + copies` up to the end of the buffer (it does not wrap around). -/
theorem read_last_write (ops : List (Op V)) (b i : Nat) :
    ∃ h, Handle.new.run ops = some h ∧ h.read b i = some (shown (b % 3) (i % 512) ops) := by
  obtain ⟨h, e, s⟩ := shows_run ops Handle.new [] shows_new
  refine ⟨h, e, ?_⟩
  have := s.slot (b % 3) (i % 512) (by omega) (by omega)
  simpa [Handle.read] using this

/-- **C30** Offset and gain, threshold and the active flags read back as last set. -/
theorem settings_last_set (ops : List (Op V)) (b : Nat) :
    ∃ h, Handle.new.run ops = some h ∧ h.getOffsGain b = some (offsGain (b % 3) ops) ∧ h.getThreshold = threshold ops ∧
      h.isActive b = some (active (b % 3) ops) := by
  obtain ⟨h, e, s⟩ := shows_run ops Handle.new [] shows_new
  refine ⟨h, e, ?_, ?_, ?_⟩
  · simpa [Handle.getOffsGain] using s.ogv (b % 3) (by omega)
  · simpa using s.thr
  · simpa [Handle.isActive] using s.actv (b % 3) (by omega)

/-- An oversampled write over the end, overwritten in part by a plain write with a large index. -/
example : shown 1 511 [.over 4 510 9 (7 : Int), .write 1 1023 (1, 2)] = (1, 2) ∧
    shown 1 510 [.over 4 510 9 (7 : Int), .write 1 1023 (1, 2)] = (7, 7) ∧
    shown 1 0 [.over 4 510 9 (7 : Int), .write 1 1023 (1, 2)] = (0, 0) := by decide

example : (Handle.new.run [.over 4 510 9 (7 : Int), .write 1 1023 (1, 2), .active 5]).bind (fun h => h.read 7 510) = some (7, 7) := by
  decide +kernel

end HexoDSP.ScopeProps
