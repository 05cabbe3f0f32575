import Verif.Spec.RustNode

/-!
The invariant of the hand-over of application code to `Rust1x1` nodes.
-/

namespace HexoDSP.RustNode

variable {Code In Out : Type}

/-- The code a buffer will be accessed with. -/
def Buf.eff (b : Buf Code) : Code := b.pending.getD b.cur

/-- What holds between a world with `k` nodes made, of which all ever made are `M`, and what the
history says of every node. -/
structure Sync (L : Lang Code In Out) (M : List Nat) (w : World Code) (k : Nat)
    (P : Nat → Playing Code In) : Prop where
  len : w.nodes.length = k
  node : ∀ (n b : Nat), w.nodes[n]? = some b →
    b < w.next ∧ (w.heap b).eff = after L (P n).code (P n).ins
  inj : ∀ (n m b : Nat), w.nodes[n]? = some b → w.nodes[m]? = some b → n = m
  unused : ∀ id, w.handles id = none → ∀ n, n < k → M[n]? ≠ some id
  taken : ∀ id i, w.handles id = some ⟨i, none⟩ → ∃ n, n < k ∧ M[n]? = some id ∧
    (∀ m, n < m → m < k → M[m]? ≠ some id) ∧ w.nodes[n]? = some i
  kept : ∀ id i o, w.handles id = some ⟨i, some o⟩ → o = i ∧ i < w.next ∧
    (∀ n, n < k → M[n]? ≠ some id) ∧ (∀ n : Nat, w.nodes[n]? ≠ some i) ∧
    ∀ n, k ≤ n → M[n]? = some id → (∀ m, m < n → M[m]? ≠ some id) →
      (w.heap i).eff = (P n).code
  apart : ∀ id id' i o o', w.handles id = some ⟨i, some o⟩ → w.handles id' = some ⟨i, o'⟩ → id = id'
  later : ∀ n, k ≤ n → (P n).ins = []
  empty : ∀ n id, k ≤ n → M[n]? = some id →
    (w.handles id = none ∨ ∃ m, m < n ∧ M[m]? = some id) → (P n).code = L.dummy

theorem inv_init (L : Lang Code In Out) (M : List Nat) :
    Sync L M (World.init L) 0 (fun _ => (⟨L.dummy, []⟩ : Playing Code In)) := by
  constructor <;> simp [World.init]

/-- Making sure there is a handle keeps the invariant, and gives a handle. -/
theorem inv_ensure {L : Lang Code In Out} {M : List Nat} {w : World Code} {k : Nat}
    {P : Nat → Playing Code In} (h : Sync L M w k P) (id : Nat) :
    Sync L M (w.ensure L id).1 k P ∧
      (w.ensure L id).1.handles id = some (w.ensure L id).2 ∧
      (w.ensure L id).1.nodes = w.nodes := by
  unfold World.ensure
  cases hh : w.handles id with
  | some x => exact ⟨h, hh, rfl⟩
  | none =>
    refine ⟨?_, by simp, rfl⟩
    have hn : ∀ (n b : Nat), w.nodes[n]? = some b → b ≠ w.next := fun n b hb =>
      Nat.ne_of_lt (h.node n b hb).1
    have hold : ∀ id' i o, w.handles id' = some ⟨i, o⟩ → i < w.next := by
      intro id' i o ho
      cases o with
      | none => obtain ⟨n, _, _, _, hb⟩ := h.taken id' i ho; exact (h.node n i hb).1
      | some o => exact (h.kept id' i o ho).2.1
    constructor
    · exact h.len
    · intro n b hb
      refine ⟨Nat.lt_succ_of_lt (h.node n b hb).1, ?_⟩
      simp only [hn n b hb, if_false]
      exact (h.node n b hb).2
    · exact h.inj
    · intro id' hid'
      by_cases e : id' = id
      · simp [e] at hid'
      · simp only [e, if_false] at hid'; exact h.unused id' hid'
    · intro id' i hid'
      by_cases e : id' = id
      · simp [e] at hid'
      · simp only [e, if_false] at hid'; exact h.taken id' i hid'
    · intro id' i o hid'
      by_cases e : id' = id
      · subst e
        simp only [if_true, Option.some.injEq, Handle.mk.injEq] at hid'
        obtain ⟨rfl, rfl⟩ := hid'
        refine ⟨rfl, Nat.lt_succ_self _, h.unused id' hh, fun n hb => hn n _ hb rfl, ?_⟩
        intro n hk hM _
        simp only [if_true]
        rw [h.empty n id' hk hM (Or.inl hh)]
        rfl
      · simp only [e, if_false] at hid'
        obtain ⟨a, b, c, d, f⟩ := h.kept id' i o hid'
        refine ⟨a, Nat.lt_succ_of_lt b, c, d, ?_⟩
        intro n hk hM hf
        simp only [Nat.ne_of_lt b, if_false]
        exact f n hk hM hf
    · intro a a' i o o' ha ha'
      by_cases e : a = id <;> by_cases e' : a' = id
      · rw [e, e']
      · simp only [e, if_true, Option.some.injEq, Handle.mk.injEq] at ha
        simp only [e', if_false] at ha'
        have := hold _ _ _ ha'
        omega
      · simp only [e', if_true, Option.some.injEq, Handle.mk.injEq] at ha'
        simp only [e, if_false] at ha
        have := hold _ _ _ ha
        omega
      · simp only [e, if_false] at ha
        simp only [e', if_false] at ha'
        exact h.apart _ _ _ _ _ ha ha'
    · exact h.later
    · intro n id' hk hM ho
      refine h.empty n id' hk hM ?_
      rcases ho with ho | ho
      · by_cases e : id' = id
        · simp [e] at ho
        · simp only [e, if_false] at ho; exact Or.inl ho
      · exact Or.inr ho

open Classical in
/-- Sending code. -/
theorem inv_send {L : Lang Code In Out} {M : List Nat} {w : World Code} {k : Nat}
    {P : Nat → Playing Code In} (h : Sync L M w k P) (id : Nat) (c : Code) :
    Sync L M (w.send L id c) k (fun n => if Receives M k id n then ⟨c, []⟩ else P n) := by
  obtain ⟨h1, hh, _⟩ := inv_ensure h id
  unfold World.send
  obtain ⟨w1, h0⟩ : { x : World Code × Handle // x = w.ensure L id } := ⟨_, rfl⟩
  rw [← h0] at h1 hh ⊢
  clear h0
  obtain ⟨w1, hd⟩ := w1
  simp only at h1 hh ⊢
  obtain ⟨i, o⟩ := hd
  clear h
  -- who receives
  have hrec : ∀ (n b : Nat), w1.nodes[n]? = some b → (Receives M k id n ↔ b = i) := by
    intro n b hb
    have hnk : n < k := h1.len ▸ (List.getElem?_eq_some_iff.1 hb).1
    cases o with
    | none =>
      obtain ⟨m, hm, hM, hl, hbm⟩ := h1.taken id i hh
      constructor
      · rintro ⟨hMn, ⟨_, hl'⟩ | ⟨hk, _⟩⟩
        · have : n = m := by
            rcases Nat.lt_trichotomy n m with h' | h' | h'
            · exact absurd hM (hl' m h' hm)
            · exact h'
            · exact absurd hMn (hl n h' hnk)
          subst this
          rw [hb] at hbm
          exact Option.some.inj hbm
        · omega
      · rintro rfl
        have := h1.inj n m b hb hbm
        subst this
        exact ⟨hM, Or.inl ⟨hm, hl⟩⟩
    | some o =>
      obtain ⟨_, _, hno, hni, _⟩ := h1.kept id i o hh
      constructor
      · rintro ⟨hMn, _⟩; exact absurd hMn (hno n hnk)
      · rintro rfl; exact absurd hb (hni n)
  constructor
  · exact h1.len
  · intro n b hb
    refine ⟨(h1.node n b hb).1, ?_⟩
    by_cases e : b = i
    · simp only [e, if_true, if_pos ((hrec n b hb).2 e)]
      rfl
    · simp only [e, if_false, if_neg (fun hr => e ((hrec n b hb).1 hr))]
      exact (h1.node n b hb).2
  · exact h1.inj
  · exact h1.unused
  · exact h1.taken
  · intro id' j o' hid'
    obtain ⟨a, b, c', d, f⟩ := h1.kept id' j o' hid'
    refine ⟨a, b, c', d, ?_⟩
    intro n hk hM hf
    by_cases e : j = i
    · subst e
      have hid : id' = id := h1.apart id' id j o' o hid' hh
      subst hid
      have : Receives M k id' n := ⟨hM, Or.inr ⟨hk, hf⟩⟩
      simp only [if_true, if_pos this]
      rfl
    · have : ¬Receives M k id n := by
        rintro ⟨hM', _⟩
        have hid : id = id' := by rw [hM'] at hM; exact Option.some.inj hM
        subst hid
        rw [hh] at hid'
        simp only [Option.some.injEq, Handle.mk.injEq] at hid'
        exact e hid'.1.symm
      simp only [e, if_false, if_neg this]
      exact f n hk hM hf
  · exact h1.apart
  · intro n hk
    show (if Receives M k id n then (⟨c, []⟩ : Playing Code In) else P n).ins = []
    split
    · rfl
    · exact h1.later n hk
  · intro n id' hk hM ho
    have : ¬Receives M k id n := by
      rintro ⟨hM', ⟨hlt, _⟩ | ⟨_, hf⟩⟩
      · omega
      · have hid : id = id' := by rw [hM'] at hM; exact Option.some.inj hM
        subst hid
        rcases ho with ho | ⟨m, hm, hmM⟩
        · simp only at ho; rw [hh] at ho; simp at ho
        · exact hf m hm hmM
    show (if Receives M k id n then (⟨c, []⟩ : Playing Code In) else P n).code = L.dummy
    rw [if_neg this]
    exact h1.empty n id' hk hM ho

/-- Making a node. -/
theorem inv_make {L : Lang Code In Out} {M : List Nat} {w : World Code} {k : Nat}
    {P : Nat → Playing Code In} (h : Sync L M w k P) (id : Nat) (hid : M[k]? = some id) :
    Sync L M (w.make L id) (k + 1) P := by
  obtain ⟨h1, hh, _⟩ := inv_ensure h id
  unfold World.make
  obtain ⟨w1, h0⟩ : { x : World Code × Handle // x = w.ensure L id } := ⟨_, rfl⟩
  rw [← h0] at h1 hh ⊢
  clear h0
  obtain ⟨w1, hd⟩ := w1
  simp only at h1 hh ⊢
  obtain ⟨i, o⟩ := hd
  clear h
  have hold : ∀ id' i o, w1.handles id' = some ⟨i, o⟩ → i < w1.next := by
    intro id' i o ho
    cases o with
    | none => obtain ⟨n, _, _, _, hb⟩ := h1.taken id' i ho; exact (h1.node n i hb).1
    | some o => exact (h1.kept id' i o ho).2.1
  have happ : ∀ (x n b : Nat), (w1.nodes ++ [x])[n]? = some b →
      (n < k ∧ w1.nodes[n]? = some b) ∨ (n = k ∧ b = x) := by
    intro x n b hb
    rw [List.getElem?_append] at hb
    split at hb
    · exact Or.inl ⟨h1.len ▸ ‹_›, hb⟩
    · right
      rename_i hn
      have := List.getElem?_eq_some_iff.1 hb
      obtain ⟨hl, hb⟩ := this
      have hl' : n - w1.nodes.length = 0 := by simpa using hl
      have hlen := h1.len
      simp only [List.getElem_singleton] at hb
      exact ⟨by omega, hb.symm⟩
  have hin : ∀ (x : Nat), (w1.nodes ++ [x])[k]? = some x := by
    intro x
    rw [← h1.len]; simp
  have hin' : ∀ (x n b : Nat), w1.nodes[n]? = some b → (w1.nodes ++ [x])[n]? = some b := by
    intro x n b hb
    rw [List.getElem?_append_left (List.getElem?_eq_some_iff.1 hb).1, hb]
  cases o with
  | some o =>
    obtain ⟨rfl, hio, hno, hni, hval⟩ := h1.kept id i o hh
    have hfirst : ∀ m, m < k → M[m]? ≠ some id := hno
    simp only
    constructor
    · simp [h1.len]
    · intro n b hb
      rcases happ _ n b hb with ⟨_, hb⟩ | ⟨rfl, rfl⟩
      · exact h1.node n b hb
      · refine ⟨hio, ?_⟩
        show (w1.heap b).eff = _
        rw [hval n (Nat.le_refl _) hid hfirst, h1.later n (Nat.le_refl _)]
        rfl
    · intro n m b hb hb'
      rcases happ _ n b hb with ⟨_, hb⟩ | ⟨rfl, rfl⟩ <;>
        rcases happ _ m _ hb' with ⟨_, hb'⟩ | ⟨rfl, hx⟩
      · exact h1.inj n m b hb hb'
      · exact absurd (hx ▸ hb) (hni n)
      · exact absurd hb' (hni m)
      · rfl
    · intro id' hid' n hn
      by_cases e : id' = id
      · simp [e] at hid'
      · simp only [e, if_false] at hid'
        rcases Nat.lt_succ_iff_lt_or_eq.1 hn with hn | rfl
        · exact h1.unused id' hid' n hn
        · rw [hid]; simpa using Ne.symm e
    · intro id' j hid'
      by_cases e : id' = id
      · simp only [e, if_true, Option.some.injEq, Handle.mk.injEq] at hid'
        refine ⟨k, Nat.lt_succ_self _, e ▸ hid, fun m h1 h2 => by omega, ?_⟩
        rw [hid'.1]
        have := hin j
        rw [hid'.1] at *
        exact this
      · simp only [e, if_false] at hid'
        obtain ⟨n, a, b, c, d⟩ := h1.taken id' j hid'
        refine ⟨n, Nat.lt_succ_of_lt a, b, ?_, hin' _ _ _ d⟩
        intro m hm hm'
        rcases Nat.lt_succ_iff_lt_or_eq.1 hm' with hm' | rfl
        · exact c m hm hm'
        · rw [hid]; simpa using Ne.symm e
    · intro id' j o' hid'
      by_cases e : id' = id
      · simp [e] at hid'
      · simp only [e, if_false] at hid'
        obtain ⟨a, b, c, d, f⟩ := h1.kept id' j o' hid'
        refine ⟨a, b, ?_, ?_, ?_⟩
        · intro n hn
          rcases Nat.lt_succ_iff_lt_or_eq.1 hn with hn | rfl
          · exact c n hn
          · rw [hid]; simpa using Ne.symm e
        · intro n hb
          rcases happ _ n _ hb with ⟨_, hb⟩ | ⟨_, hb⟩
          · exact d n hb
          · subst hb; exact e (h1.apart id' id _ _ _ hid' hh)
        · intro n hk; exact f n (by omega)
    · intro a a' j o o' ha ha'
      by_cases e : a = id <;> by_cases e' : a' = id
      · rw [e, e']
      · simp [e] at ha
      · simp only [e', if_true, Option.some.injEq, Handle.mk.injEq] at ha'
        simp only [e, if_false] at ha
        obtain ⟨rfl, _⟩ := ha'
        exact absurd (h1.apart a id _ _ _ ha hh) e
      · simp only [e, if_false] at ha
        simp only [e', if_false] at ha'
        exact h1.apart _ _ _ _ _ ha ha'
    · intro n hn; exact h1.later n (by omega)
    · intro n id' hn hM ho
      refine h1.empty n id' (by omega) hM ?_
      rcases ho with ho | ho
      · by_cases e : id' = id
        · simp [e] at ho
        · simp only [e, if_false] at ho; exact Or.inl ho
      · exact Or.inr ho
  | none =>
    obtain ⟨n0, hn0, hM0, hl0, hb0⟩ := h1.taken id i hh
    have hn : ∀ (n b : Nat), w1.nodes[n]? = some b → b ≠ w1.next := fun n b hb =>
      Nat.ne_of_lt (h1.node n b hb).1
    simp only
    constructor
    · simp [h1.len]
    · intro n b hb
      rcases happ _ n b hb with ⟨_, hb⟩ | ⟨rfl, rfl⟩
      · refine ⟨Nat.lt_succ_of_lt (h1.node n b hb).1, ?_⟩
        simp only [hn n b hb, if_false]
        exact (h1.node n b hb).2
      · refine ⟨Nat.lt_succ_self _, ?_⟩
        simp only [if_true]
        rw [h1.empty n id (Nat.le_refl _) hid (Or.inr ⟨n0, hn0, hM0⟩), h1.later n (Nat.le_refl _)]
        rfl
    · intro n m b hb hb'
      rcases happ _ n b hb with ⟨_, hb⟩ | ⟨rfl, rfl⟩ <;>
        rcases happ _ m _ hb' with ⟨_, hb'⟩ | ⟨rfl, hx⟩
      · exact h1.inj n m b hb hb'
      · exact absurd hx (hn n _ hb)
      · exact absurd rfl (hn m _ hb')
      · rfl
    · intro id' hid' n hn
      by_cases e : id' = id
      · simp [e] at hid'
      · simp only [e, if_false] at hid'
        rcases Nat.lt_succ_iff_lt_or_eq.1 hn with hn | rfl
        · exact h1.unused id' hid' n hn
        · rw [hid]; simpa using Ne.symm e
    · intro id' j hid'
      by_cases e : id' = id
      · simp only [e, if_true, Option.some.injEq, Handle.mk.injEq] at hid'
        refine ⟨k, Nat.lt_succ_self _, e ▸ hid, fun m h1 h2 => by omega, ?_⟩
        rw [← hid'.1]
        exact hin _
      · simp only [e, if_false] at hid'
        obtain ⟨n, a, b, c, d⟩ := h1.taken id' j hid'
        refine ⟨n, Nat.lt_succ_of_lt a, b, ?_, hin' _ _ _ d⟩
        intro m hm hm'
        rcases Nat.lt_succ_iff_lt_or_eq.1 hm' with hm' | rfl
        · exact c m hm hm'
        · rw [hid]; simpa using Ne.symm e
    · intro id' j o' hid'
      by_cases e : id' = id
      · simp [e] at hid'
      · simp only [e, if_false] at hid'
        obtain ⟨a, b, c, d, f⟩ := h1.kept id' j o' hid'
        refine ⟨a, Nat.lt_succ_of_lt b, ?_, ?_, ?_⟩
        · intro n hn
          rcases Nat.lt_succ_iff_lt_or_eq.1 hn with hn | rfl
          · exact c n hn
          · rw [hid]; simpa using Ne.symm e
        · intro n hb
          rcases happ _ n _ hb with ⟨_, hb⟩ | ⟨_, hb⟩
          · exact d n hb
          · omega
        · intro n hk hM hf
          simp only [Nat.ne_of_lt b, if_false]
          exact f n (by omega) hM hf
    · intro a a' j o o' ha ha'
      by_cases e : a = id <;> by_cases e' : a' = id
      · rw [e, e']
      · simp [e] at ha
      · simp only [e', if_true, Option.some.injEq, Handle.mk.injEq] at ha'
        simp only [e, if_false] at ha
        have := hold _ _ _ ha
        omega
      · simp only [e, if_false] at ha
        simp only [e', if_false] at ha'
        exact h1.apart _ _ _ _ _ ha ha'
    · intro n hn; exact h1.later n (by omega)
    · intro n id' hn hM ho
      refine h1.empty n id' (by omega) hM ?_
      rcases ho with ho | ho
      · by_cases e : id' = id
        · simp [e] at ho
        · simp only [e, if_false] at ho; exact Or.inl ho
      · exact Or.inr ho

theorem after_snoc (L : Lang Code In Out) (c : Code) (ins : List In) (i : In) :
    after L c (ins ++ [i]) = (L.process (after L c ins) i).1 := by
  simp [after]

open Classical in
/-- Running a node for a block. -/
theorem inv_block {L : Lang Code In Out} {M : List Nat} {w : World Code} {k : Nat}
    {P : Nat → Playing Code In} (h : Sync L M w k P) (m : Nat) (i : In) :
    Sync L M (w.block L m i).1 k
      (fun n => if m = n ∧ n < k then ⟨(P n).code, (P n).ins ++ [i]⟩ else P n) := by
  unfold World.block
  cases hm : w.nodes[m]? with
  | none =>
    have : k ≤ m := by rw [← h.len]; exact List.getElem?_eq_none_iff.1 hm
    have hP : (fun n => if m = n ∧ n < k then (⟨(P n).code, (P n).ins ++ [i]⟩ : Playing Code In)
        else P n) = P := by
      funext n
      exact if_neg (by omega)
    rw [hP]
    exact h
  | some b0 =>
    have hmk : m < k := by rw [← h.len]; exact (List.getElem?_eq_some_iff.1 hm).1
    have hge : ∀ n, k ≤ n → (if m = n ∧ n < k then
        (⟨(P n).code, (P n).ins ++ [i]⟩ : Playing Code In) else P n) = P n := fun n hn =>
      if_neg (by omega)
    constructor
    · exact h.len
    · intro n b hb
      refine ⟨(h.node n b hb).1, ?_⟩
      have hnk : n < k := by rw [← h.len]; exact (List.getElem?_eq_some_iff.1 hb).1
      by_cases e : m = n
      · subst e
        have : b = b0 := by rw [hm] at hb; exact (Option.some.inj hb).symm
        subst this
        simp only [hmk, and_self, if_true, after_snoc]
        rw [← (h.node m b hb).2]
        rfl
      · have : b ≠ b0 := fun hbb => e (h.inj m n b0 hm (hbb ▸ hb))
        simp only [e, this, false_and, if_false]
        exact (h.node n b hb).2
    · exact h.inj
    · exact h.unused
    · exact h.taken
    · intro id j o hid
      obtain ⟨a, b, c, d, f⟩ := h.kept id j o hid
      refine ⟨a, b, c, d, ?_⟩
      intro n hk hM hf
      have : j ≠ b0 := fun hj => d m (hj ▸ hm)
      simp only [hge n hk, this, if_false]
      exact f n hk hM hf
    · exact h.apart
    · intro n hk; simp only [hge n hk]; exact h.later n hk
    · intro n id hk hM ho; simp only [hge n hk]; exact h.empty n id hk hM ho

open Classical in
/-- A whole history. -/
theorem inv_run {L : Lang Code In Out} {M : List Nat} (es : List (Ev Code In)) :
    ∀ {w : World Code} {k : Nat} {P : Nat → Playing Code In}, Sync L M w k P →
      (∀ n id, (makes es)[n]? = some id → M[k + n]? = some id) →
      Sync L M (World.run L w es).1 (k + (makes es).length) (fun n => playing M n k (P n) es) := by
  induction es with
  | nil => intro w k P h _; exact h
  | cons e es ih =>
    intro w k P h hM
    cases e with
    | send id c => exact ih (inv_send h id c) hM
    | make id =>
      have h1 := inv_make h id (hM 0 id rfl)
      have h2 := ih h1 (fun n id' hn => by
        have := hM (n + 1) id' hn
        rwa [show k + 1 + n = k + (n + 1) by omega])
      have : k + 1 + (makes es).length = k + (makes (Ev.make id :: es)).length := by
        simp only [makes, List.length_cons]; omega
      rw [this] at h2
      exact h2
    | block m i => exact ih (inv_block h m i) hM
    | rate n r => exact ih h hM
    | reset n => exact ih h hM

end HexoDSP.RustNode
