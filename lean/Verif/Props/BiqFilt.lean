import Verif.Spec.BiqFilt
import Mathlib.Tactic.Linarith
import Mathlib.Tactic.NormNum
import Mathlib.Data.List.Induction
/-!
# The biquad filter node (C94)
-/

namespace HexoDSP.BiqFiltProps
open HexoDSP.BiqFilt HexoDSP.BiqFiltSpec

variable {C M X : Type}

def after (E : Ext C M X) (c : C) : M → List X → M
  | m, [] => m
  | m, x :: xs => after E c (E.tick c m x).2 xs

theorem response_length (E : Ext C M X) (c : C) (xs : List X) : ∀ m, (response E c m xs).length = xs.length := by
  induction xs with
  | nil => intro m; rfl
  | cons x xs ih => intro m; simp only [response, List.length_cons, ih]

theorem loop_zero (E : Ext C M X) (xs : List X) : ∀ cs, loop E 0 cs xs = some (xs, cs) := by
  induction xs with
  | nil => intro cs; rfl
  | cons x xs ih => intro cs; simp only [loop, through, ih, Option.map_some]

/-- Frame by frame through all filters is the same as filter by filter for the whole signal. -/
theorem loop_cons (E : Ext C M X) (k : Nat) (c : C) (xs : List X) : ∀ (m : M) (cs : List (C × M)),
    loop E (k + 1) ((c, m) :: cs) xs =
      (loop E k cs (response E c m xs)).map (fun r => (r.1, (c, after E c m xs) :: r.2)) := by
  induction xs with
  | nil => intro m cs; rfl
  | cons x xs ih =>
    intro m cs
    simp only [loop, through, response, after]
    cases through E k cs (E.tick c m x).1 with
    | none => rfl
    | some r =>
      obtain ⟨y, cs'⟩ := r
      simp only [Option.map_some]
      rw [ih]
      cases loop E k cs' (response E c (E.tick c m x).2 xs) <;> rfl

theorem loop_nil_none (E : Ext C M X) (k : Nat) {xs : List X} (h : xs ≠ []) : loop E (k + 1) ([] : List (C × M)) xs = none := by
  cases xs with
  | nil => exact absurd rfl h
  | cons x xs => rfl

/-- The memories after a signal has passed the first filters of the chain. -/
def afters (E : Ext C M X) (c : C) : Nat → List M → List X → List M
  | 0, ms, _ => ms
  | _ + 1, [], _ => []
  | k + 1, m :: ms, xs => after E c m xs :: afters E c k ms (response E c m xs)

theorem afters_length (E : Ext C M X) (c : C) (k : Nat) : ∀ (ms : List M) (xs : List X), (afters E c k ms xs).length = ms.length := by
  induction k with
  | zero => intro ms xs; rfl
  | succ k ih =>
    intro ms xs
    cases ms with
    | nil => rfl
    | cons m ms => simp only [afters, List.length_cons, ih]

theorem loop_chain (E : Ext C M X) (c : C) (k : Nat) : ∀ (ms : List M) (xs : List X), k ≤ ms.length →
    loop E k (ms.map (fun m => (c, m))) xs = some (chain E c (ms.take k) xs, (afters E c k ms xs).map (fun m => (c, m))) := by
  induction k with
  | zero => intro ms xs _; rw [loop_zero]; rfl
  | succ k ih =>
    intro ms xs h
    cases ms with
    | nil => simp at h
    | cons m ms =>
      rw [List.map_cons, loop_cons, ih ms _ (by simpa using h)]
      rfl

theorem loop_crash (E : Ext C M X) (k : Nat) : ∀ (cs : List (C × M)) (xs : List X), cs.length < k → xs ≠ [] → loop E k cs xs = none := by
  induction k with
  | zero => intro cs xs h; omega
  | succ k ih =>
    intro cs xs h hx
    cases cs with
    | nil => exact loop_nil_none E k hx
    | cons c cs =>
      obtain ⟨c, m⟩ := c
      rw [loop_cons, ih cs _ (by simpa using h)]
      · rfl
      · intro h0
        have := congrArg List.length h0
        rw [response_length] at this
        exact hx (List.length_eq_zero_iff.1 this)

theorem after_append (E : Ext C M X) (c : C) (a b : List X) : ∀ m, after E c m (a ++ b) = after E c (after E c m a) b := by
  induction a with
  | nil => intro m; rfl
  | cons x a ih => intro m; simp only [List.cons_append, after, ih]

theorem response_append (E : Ext C M X) (c : C) (a b : List X) : ∀ m, response E c m (a ++ b) =
    response E c m a ++ response E c (after E c m a) b := by
  induction a with
  | nil => intro m; rfl
  | cons x a ih => intro m; simp only [List.cons_append, response, ih, after]

theorem chain_append (E : Ext C M X) (c : C) (k : Nat) : ∀ (ms : List M) (a b : List X),
    chain E c (ms.take k) (a ++ b) = chain E c (ms.take k) a ++ chain E c ((afters E c k ms a).take k) b := by
  induction k with
  | zero => intro ms a b; rfl
  | succ k ih =>
    intro ms a b
    cases ms with
    | nil => rfl
    | cons m ms =>
      simp only [afters, List.take_succ_cons]
      have h1 : ∀ (m : M) (l : List M) (xs : List X), chain E c (m :: l) xs = chain E c l (response E c m xs) := fun _ _ _ => rfl
      rw [h1, h1, h1, response_append, ih]

theorem chain_nil (E : Ext C M X) (c : C) (ms : List M) : chain E c ms [] = [] := by
  induction ms with
  | nil => rfl
  | cons m ms ih => exact ih

/-- What holds of the node between the blocks: four filters with the coefficients of a block that has been played, or none has been. -/
structure Inv (E : Ext C M X) (sr : ℚ) (pre : List (Block X)) (n : Node C M) : Prop where
  srate : n.srate = sr
  len : n.cascade.length = 4
  last : ∀ b, pre.getLast? = some b → ∃ a ∈ pre, Near a b ∧ n.otype = asU8 a.ftype ∧ n.ofreq = clampFreq a.freq ∧ n.oq = a.q ∧ n.ogain = a.gain ∧
    ∃ ms : List M, ms.length = 4 ∧ n.cascade = ms.map (fun m => (design E sr a, m))
  first : pre = [] → n.ofreq = -2

theorem clampFreq_nonneg (x : ℚ) : 0 ≤ clampFreq x := by
  unfold clampFreq
  split
  · exact le_rfl
  · rename_i h
    split
    · norm_num
    · exact not_lt.1 h

theorem near_refl (b : Block X) : Near b b := by simp [Near]

theorem update_inv {E : Ext C M X} {sr : ℚ} {pre : List (Block X)} {n : Node C M} (h : Inv E sr pre n) (b : Block X) :
    ∃ a ∈ pre ++ [b], Near a b ∧ (n.update E b).otype = asU8 a.ftype ∧ (n.update E b).ofreq = clampFreq a.freq ∧ (n.update E b).oq = a.q ∧
      (n.update E b).ogain = a.gain ∧ (n.update E b).srate = sr ∧
      ∃ ms : List M, ms.length = 4 ∧ (n.update E b).cascade = ms.map (fun m => (design E sr a, m)) := by
  unfold Node.update
  simp only
  split
  · refine ⟨b, by simp, near_refl b, rfl, rfl, rfl, rfl, h.srate, List.replicate 4 E.m0, by simp, ?_⟩
    simp only [h.srate]
    rw [List.map_replicate]
    have : n.cascade.map (fun _ => (if asU8 b.ftype = 1 then E.resonator sr (clampFreq b.freq) b.q else E.butter sr (clampFreq b.freq), E.m0)) =
        List.replicate 4 (design E sr b, E.m0) := by
      rw [List.eq_replicate_iff]
      refine ⟨by rw [List.length_map, h.len], ?_⟩
      intro x hx
      obtain ⟨_, _, rfl⟩ := List.mem_map.1 hx
      rfl
    exact this
  · rename_i hc
    simp only [not_or, gt_iff_lt, not_lt, not_not, ne_eq] at hc
    obtain ⟨h1, h2, h3, h4⟩ := hc
    cases hl : pre.getLast? with
    | none =>
      have hp : pre = [] := List.getLast?_eq_none_iff.1 hl
      rw [h.first hp] at h2
      have := clampFreq_nonneg b.freq
      rw [abs_of_nonneg (by linarith)] at h2
      linarith
    | some c =>
      obtain ⟨a, ha, _, e1, e2, e3, e4, ms, hm1, hm2⟩ := h.last c hl
      refine ⟨a, by simp [ha], ⟨?_, ?_, ?_, ?_⟩, e1, e2, e3, e4, h.srate, ms, hm1, hm2⟩
      · rw [h1, e1]
      · rw [← e2]; exact h2
      · rw [← e3]; exact h3
      · rw [← e4]; exact h4

/-- One block of a node that has played `pre`. -/
theorem process_spec {E : Ext C M X} {sr : ℚ} {pre : List (Block X)} {n : Node C M} (h : Inv E sr pre n) (b : Block X) (hs : stages b ≤ 4) :
    ∃ a ∈ pre ++ [b], Near a b ∧ ∃ ms : List M, ms.length = 4 ∧ (n.update E b).cascade = ms.map (fun m => (design E sr a, m)) ∧
      ∃ n', n.process E b = some (chain E (design E sr a) (ms.take (stages b)) b.inp, n') ∧ Inv E sr (pre ++ [b]) n' ∧
        n' = { n.update E b with cascade := (afters E (design E sr a) (stages b) ms b.inp).map (fun m => (design E sr a, m)) } := by
  obtain ⟨a, ha, hn, e1, e2, e3, e4, e5, ms, hm, hcas⟩ := update_inv h b
  refine ⟨a, ha, hn, ms, hm, hcas, _, ?_, ?_, rfl⟩
  · unfold Node.process
    simp only
    have hk : (if asU8 b.ftype = 1 then 0 else asU8 b.order) + 1 = stages b := by unfold stages; split <;> rfl
    rw [hk, hcas, loop_chain E _ _ ms b.inp (by omega)]
    rfl
  · constructor
    · exact e5
    · simp [afters_length, hm]
    · intro b' hb'
      have : b' = b := by simpa using hb'.symm
      subst this
      exact ⟨a, ha, hn, e1, e2, e3, e4, _, by rw [afters_length, hm], rfl⟩
    · intro h0; simp at h0

theorem process_crash {E : Ext C M X} {sr : ℚ} {pre : List (Block X)} {n : Node C M} (h : Inv E sr pre n) (b : Block X) (hs : 4 < stages b)
    (hb : b.inp ≠ []) : n.process E b = none := by
  obtain ⟨a, ha, hn, e1, e2, e3, e4, e5, ms, hm, hcas⟩ := update_inv h b
  unfold Node.process
  simp only
  have hk : (if asU8 b.ftype = 1 then 0 else asU8 b.order) + 1 = stages b := by unfold stages; split <;> rfl
  rw [hk, hcas, loop_crash E _ _ _ (by simp; omega) hb]
  rfl

/-- A node as the engine makes it: `new`, then `set_sample_rate`. -/
def made (E : Ext C M X) (sr : ℚ) : Node C M := (Node.new E).setSampleRate E sr

theorem inv_made (E : Ext C M X) (sr : ℚ) : Inv E sr [] (made E sr) :=
  ⟨rfl, by simp [made, Node.setSampleRate, Node.new], fun b h => by simp at h, fun _ => rfl⟩

theorem run_append (E : Ext C M X) (a b : List (Block X)) : ∀ n : Node C M, n.run E (a ++ b) =
    (n.run E a).bind (fun r => (r.2.run E b).map (fun q => (r.1 ++ q.1, q.2))) := by
  induction a with
  | nil => intro n; simp [Node.run]
  | cons x a ih =>
    intro n
    simp only [List.cons_append, Node.run]
    cases n.process E x with
    | none => rfl
    | some r =>
      simp only [ih]
      cases (r.2.run E a) with
      | none => rfl
      | some q =>
        simp only [Option.bind_some, Option.map_some]
        cases q.2.run E b <;> rfl

theorem run_inv (E : Ext C M X) (sr : ℚ) (bs : List (Block X)) : ∀ (pre : List (Block X)) (n : Node C M), Inv E sr pre n →
    ∀ ys n', n.run E bs = some (ys, n') → (∀ b ∈ bs, b.inp ≠ []) → Inv E sr (pre ++ bs) n' ∧ ys.length = bs.length := by
  induction bs with
  | nil => intro pre n h ys n' hr _; simp only [Node.run, Option.some.injEq, Prod.mk.injEq] at hr; obtain ⟨rfl, rfl⟩ := hr; simpa using h
  | cons b bs ih =>
    intro pre n h ys n' hr hne
    by_cases hs : stages b ≤ 4
    · obtain ⟨a, _, _, ms, _, _, n1, hp, hi, _⟩ := process_spec h b hs
      simp only [Node.run, hp, Option.map_eq_some_iff] at hr
      obtain ⟨⟨q1, q2⟩, hq, he⟩ := hr
      simp only [Prod.mk.injEq] at he
      obtain ⟨rfl, rfl⟩ := he
      have := ih (pre ++ [b]) n1 hi q1 q2 hq (fun b' hb' => hne b' (List.mem_cons_of_mem _ hb'))
      simpa using this
    · rw [Node.run, process_crash h b (by omega) (hne b (by simp))] at hr
      simp at hr

/-- A node that has just been told a sample rate makes its coefficients anew. -/
theorem update_told {E : Ext C M X} {n n' : Node C M} (hl : n.cascade.length = n'.cascade.length) (hs : n.srate = n'.srate) (ho : n.otype = 99)
    (ho' : n'.otype = 99) (b : Block X) (hb : asU8 b.ftype ≠ 99) : n.update E b = n'.update E b := by
  have hc : ∀ x : C × M, n.cascade.map (fun _ => x) = n'.cascade.map (fun _ => x) := fun x => by
    rw [List.map_const', List.map_const', hl]
  have h1 : asU8 b.ftype ≠ n.otype := by rw [ho]; exact hb
  have h2 : asU8 b.ftype ≠ n'.otype := by rw [ho']; exact hb
  simp only [Node.update, hc, hs]
  rw [if_pos (Or.inl h1), if_pos (Or.inl h2)]

/-! ### The theorems -/

/-- **C94** A node that is told another sample rate goes on as a new node made for that rate: whatever it has played before, nothing of it is
heard any more and all coefficients are those for the new rate. -/
theorem new_rate (E : Ext C M X) (sr sr' : ℚ) (pre : List (Block X)) (hne : ∀ c ∈ pre, c.inp ≠ []) (ys : List (List X)) (n : Node C M)
    (hr : (made E sr).run E pre = some (ys, n)) (b : Block X) (bs : List (Block X)) (hb : asU8 b.ftype ≠ 99) :
    ((n.setSampleRate E sr').run E (b :: bs)).map Prod.fst = ((made E sr').run E (b :: bs)).map Prod.fst := by
  have hi := (run_inv E sr pre [] _ (inv_made E sr) ys n hr hne).1
  have hu : (n.setSampleRate E sr').update E b = (made E sr').update E b := by
    refine update_told (n := n.setSampleRate E sr') (n' := made E sr') ?_ rfl rfl rfl b hb
    simp [Node.setSampleRate, made, Node.new, hi.len]
  simp only [Node.run, Node.process, hu]

/-- **C94** The node runs on without a fault exactly when every block asks for at most four filters: the resonator, or an order setting of 0 to 3
(`as u8`). So all settings the user interface offers are safe. -/
theorem no_fault_iff (E : Ext C M X) (sr : ℚ) (bs : List (Block X)) (hne : ∀ b ∈ bs, b.inp ≠ []) :
    ((made E sr).run E bs).isSome = true ↔ ∀ b ∈ bs, stages b ≤ 4 := by
  have key : ∀ (bs pre : List (Block X)) (n : Node C M), Inv E sr pre n → (∀ b ∈ bs, b.inp ≠ []) →
      ((n.run E bs).isSome = true ↔ ∀ b ∈ bs, stages b ≤ 4) := by
    intro bs
    induction bs with
    | nil => intro pre n _ _; simp [Node.run]
    | cons b bs ih =>
      intro pre n h hne
      by_cases hs : stages b ≤ 4
      · obtain ⟨a, _, _, ms, _, _, n1, hp, hi, _⟩ := process_spec h b hs
        rw [Node.run, hp]
        simp only [Option.isSome_map]
        rw [ih _ n1 hi (fun b' hb' => hne b' (List.mem_cons_of_mem _ hb'))]
        simp [hs]
      · rw [Node.run, process_crash h b (by omega) (hne b (by simp))]
        simp [hs]
  exact key bs [] _ (inv_made E sr) hne

/-- **C94** The expectation that no setting stops the audio thread is false: with the Butterworth filter an order setting of 4 makes the next block
panic, whatever was played before. -/
theorem order_panics (E : Ext C M X) (sr : ℚ) (pre : List (Block X)) (b : Block X) (hb : b.inp ≠ []) (ht : b.ftype = 0) (ho : b.order = 4)
    (hne : ∀ b ∈ pre, b.inp ≠ []) : (made E sr).run E (pre ++ [b]) = none := by
  rw [← Option.not_isSome_iff_eq_none, no_fault_iff E sr _ (by
    intro c hc
    rcases List.mem_append.1 hc with h | h
    · exact hne c h
    · rw [List.mem_singleton.1 h]; exact hb)]
  intro h
  have := h b (by simp)
  rw [stages, ht, ho] at this
  exact absurd this (by decide)

/-- **C94** In every block the signal goes through a chain of equal filters, as many as the order says, whose coefficients belong to parameters
that differ from those at the start of the block by at most a ten thousandth. -/
theorem current (E : Ext C M X) (sr : ℚ) (pre : List (Block X)) (b : Block X) (hne : ∀ c ∈ pre, c.inp ≠ []) (hb : b.inp ≠ [])
    {ys : List (List X)} {n : Node C M} (hr : (made E sr).run E (pre ++ [b]) = some (ys, n)) :
    ∃ a ∈ pre ++ [b], Near a b ∧ ∃ ms : List M, ms.length = stages b ∧ ys.getLast? = some (chain E (design E sr a) ms b.inp) := by
  have hall : ∀ c ∈ pre ++ [b], c.inp ≠ [] := by
    intro c hc
    rcases List.mem_append.1 hc with h | h
    · exact hne c h
    · rw [List.mem_singleton.1 h]; exact hb
  have hs : stages b ≤ 4 := (no_fault_iff E sr _ hall).1 (by rw [hr]; rfl) b (by simp)
  rw [run_append] at hr
  cases hp : (made E sr).run E pre with
  | none => rw [hp] at hr; simp at hr
  | some q =>
    obtain ⟨q1, q2⟩ := q
    rw [hp] at hr
    simp only [Option.bind_some, Option.map_eq_some_iff] at hr
    obtain ⟨⟨z1, z2⟩, hz, he⟩ := hr
    simp only [Prod.mk.injEq] at he
    obtain ⟨rfl, rfl⟩ := he
    have hi := (run_inv E sr pre [] _ (inv_made E sr) q1 q2 hp hne).1
    rw [List.nil_append] at hi
    obtain ⟨a, ha, hn, ms, hm, _, n', hp', _, _⟩ := process_spec hi b hs
    simp only [Node.run, hp', Option.map_some, Option.some.injEq, Prod.mk.injEq] at hz
    obtain ⟨rfl, rfl⟩ := hz
    refine ⟨a, ha, hn, ms.take (stages b), by rw [List.length_take]; omega, ?_⟩
    rw [List.getLast?_append]; rfl

/-- **C94** From a block on that moves a parameter by more than a ten thousandth or selects another type, and for as long as the parameters stay
within a ten thousandth of that block's, the node sounds like a new chain of filters with the coefficients for the parameters of that block;
where the block boundaries lie makes no difference. -/
theorem stretch (E : Ext C M X) (sr : ℚ) (pre : List (Block X)) (b : Block X) (bs : List (Block X)) (hmove : Moved pre b)
    (hnear : ∀ c ∈ bs, Near b c ∧ stages c = stages b) (hne : ∀ c ∈ pre ++ b :: bs, c.inp ≠ []) {ys : List (List X)} {n : Node C M}
    (hr : (made E sr).run E (pre ++ b :: bs) = some (ys, n)) :
    (ys.drop pre.length).flatten =
      chain E (design E sr b) (List.replicate (stages b) E.m0) ((b :: bs).map (fun c => c.inp)).flatten := by
  have hst := (no_fault_iff E sr _ hne).1 (by rw [hr]; rfl)
  have hs : stages b ≤ 4 := hst b (by simp)
  rw [run_append] at hr
  cases hp : (made E sr).run E pre with
  | none => rw [hp] at hr; simp at hr
  | some q =>
    obtain ⟨q1, q2⟩ := q
    rw [hp] at hr
    simp only [Option.bind_some, Option.map_eq_some_iff] at hr
    obtain ⟨⟨z1, z2⟩, hz, he⟩ := hr
    simp only [Prod.mk.injEq] at he
    obtain ⟨rfl, rfl⟩ := he
    obtain ⟨hi, hlen⟩ := run_inv E sr pre [] _ (inv_made E sr) q1 q2 hp (fun c hc => hne c (by simp [hc]))
    rw [List.nil_append] at hi
    rw [List.drop_left' hlen]
    -- the first block starts afresh
    have hupd : q2.update E b =
        ⟨(List.replicate 4 E.m0).map (fun m => (design E sr b, m)), q2.srate, clampFreq b.freq, b.q, b.gain, asU8 b.ftype⟩ := by
      have hcond : asU8 b.ftype ≠ q2.otype ∨ |clampFreq b.freq - q2.ofreq| > 1/10000 ∨ |b.q - q2.oq| > 1/10000 ∨ |b.gain - q2.ogain| > 1/10000 := by
        cases hl : pre.getLast? with
        | none =>
          right; left
          rw [hi.first (List.getLast?_eq_none_iff.1 hl)]
          have := clampFreq_nonneg b.freq
          rw [abs_of_nonneg (by linarith)]
          linarith
        | some c =>
          obtain ⟨a, ha, hac, e1, e2, e3, e4, _⟩ := hi.last c hl
          rcases hmove with h | h | h | h
          · left
            rw [e1, hac.1]
            exact (h c hl).symm
          · right; left; rw [e2]; exact h a ha
          · right; right; left; rw [e3]; exact h a ha
          · right; right; right; rw [e4]; exact h a ha
      unfold Node.update
      simp only
      rw [if_pos hcond]
      congr 1
      rw [List.map_replicate, List.eq_replicate_iff]
      refine ⟨by rw [List.length_map, hi.len], ?_⟩
      intro x hx
      obtain ⟨_, _, rfl⟩ := List.mem_map.1 hx
      simp only [hi.srate, design]
    have hk : (if asU8 b.ftype = 1 then 0 else asU8 b.order) + 1 = stages b := by unfold stages; split <;> rfl
    -- the blocks that follow change nothing
    have key : ∀ (bs : List (Block X)) (ms : List M) (n : Node C M), ms.length = 4 → n.cascade = ms.map (fun m => (design E sr b, m)) →
        n.otype = asU8 b.ftype → n.ofreq = clampFreq b.freq → n.oq = b.q → n.ogain = b.gain → (∀ c ∈ bs, Near b c ∧ stages c = stages b) →
        ∀ z, n.run E bs = some z →
          z.1.flatten = chain E (design E sr b) (ms.take (stages b)) (bs.map (fun c => c.inp)).flatten := by
      intro bs
      induction bs with
      | nil =>
        intro ms n _ _ _ _ _ _ _ z hz
        simp only [Node.run, Option.some.injEq] at hz
        subst hz
        simp [chain_nil]
      | cons c bs ih =>
        intro ms n hm h0 h1 h2 h3 h4 hnear z hz
        obtain ⟨⟨n1, n2, n3, n4⟩, hcs⟩ := hnear c (by simp)
        have hu : n.update E c = n := by
          unfold Node.update
          simp only
          rw [if_neg]
          simp only [not_or, gt_iff_lt, not_lt, not_not, ne_eq]
          refine ⟨by rw [h1, n1], by rw [h2]; exact n2, by rw [h3]; exact n3, by rw [h4]; exact n4⟩
        have hk' : (if asU8 c.ftype = 1 then 0 else asU8 c.order) + 1 = stages b := by rw [← hcs]; unfold stages; split <;> rfl
        have hproc : n.process E c = some (chain E (design E sr b) (ms.take (stages b)) c.inp,
            { n with cascade := (afters E (design E sr b) (stages b) ms c.inp).map (fun m => (design E sr b, m)) }) := by
          unfold Node.process
          simp only
          rw [hu, hk', h0, loop_chain E _ _ ms c.inp (by omega)]
          rfl
        simp only [Node.run, hproc, Option.map_eq_some_iff] at hz
        obtain ⟨w, hw, rfl⟩ := hz
        have := ih (afters E (design E sr b) (stages b) ms c.inp)
          { n with cascade := (afters E (design E sr b) (stages b) ms c.inp).map (fun m => (design E sr b, m)) }
          (by rw [afters_length, hm]) rfl h1 h2 h3 h4
          (fun c' hc' => hnear c' (List.mem_cons_of_mem _ hc')) w hw
        simp only [List.flatten_cons, List.map_cons]
        rw [this, chain_append]
    have hproc : q2.process E b = some (chain E (design E sr b) ((List.replicate 4 E.m0).take (stages b)) b.inp,
        { q2.update E b with cascade := (afters E (design E sr b) (stages b) (List.replicate 4 E.m0) b.inp).map (fun m => (design E sr b, m)) }) := by
      unfold Node.process
      simp only
      rw [hk, hupd, loop_chain E _ _ _ b.inp (by simpa using hs)]
      rfl
    simp only [Node.run, hproc, Option.map_eq_some_iff] at hz
    obtain ⟨w, hw, he⟩ := hz
    have := key bs (afters E (design E sr b) (stages b) (List.replicate 4 E.m0) b.inp) _ (by rw [afters_length]; simp) rfl
      (by rw [hupd]) (by rw [hupd]) (by rw [hupd]) (by rw [hupd]) hnear w hw
    have he := congrArg Prod.fst he
    simp only at he
    rw [← he]
    simp only [List.flatten_cons, List.map_cons]
    rw [this]
    have ht : List.replicate (stages b) E.m0 = (List.replicate 4 E.m0).take (stages b) := by
      rw [List.take_replicate, min_eq_left hs]
    rw [ht, chain_append]

/-- Put the same gain into all blocks. -/
def withGain (g : ℚ) (b : Block X) : Block X := { b with gain := g }

/-- **C94** The expectation that the gain input makes the output louder is false: two nodes that get the same blocks except for the constant value
of the gain sound the same. -/
theorem gain_ignored (E : Ext C M X) (sr g g' : ℚ) (bs : List (Block X)) :
    ((made E sr).run E (bs.map (withGain g))).map (fun r => r.1) = ((made E sr).run E (bs.map (withGain g'))).map (fun r => r.1) := by
  -- two nodes that differ only in the remembered gain, each having its own
  have key : ∀ (bs : List (Block X)) (n : Node C M),
      (({ n with ogain := g } : Node C M).run E (bs.map (withGain g))).map (fun r => r.1) =
      (({ n with ogain := g' } : Node C M).run E (bs.map (withGain g'))).map (fun r => r.1) := by
    intro bs
    induction bs with
    | nil => intro n; rfl
    | cons b bs ih =>
      intro n
      have hu : ∃ n1 : Node C M, ∀ x : ℚ, ({ n with ogain := x } : Node C M).update E (withGain x b) = { n1 with ogain := x } := by
        by_cases hc : asU8 b.ftype ≠ n.otype ∨ |clampFreq b.freq - n.ofreq| > 1/10000 ∨ |b.q - n.oq| > 1/10000
        · refine ⟨n.update E (withGain n.ogain b), fun x => ?_⟩
          have c1 : asU8 b.ftype ≠ n.otype ∨ |clampFreq b.freq - n.ofreq| > 1/10000 ∨ |b.q - n.oq| > 1/10000 ∨ |x - x| > 1/10000 := by tauto
          have c2 : asU8 b.ftype ≠ n.otype ∨ |clampFreq b.freq - n.ofreq| > 1/10000 ∨ |b.q - n.oq| > 1/10000 ∨ |n.ogain - n.ogain| > 1/10000 := by tauto
          unfold Node.update withGain
          simp only
          rw [if_pos c1, if_pos c2]
        · refine ⟨n, fun x => ?_⟩
          unfold Node.update withGain
          simp only
          rw [if_neg]
          intro h
          have : ¬ |x - x| > 1/10000 := by rw [sub_self, abs_zero]; norm_num
          tauto
      obtain ⟨n1, hu⟩ := hu
      have hp : ∀ x : ℚ, ({ n with ogain := x } : Node C M).process E (withGain x b) =
          (loop E ((if asU8 b.ftype = 1 then 0 else asU8 b.order) + 1) n1.cascade b.inp).map
            (fun r => (r.1, { ({ n1 with cascade := r.2 } : Node C M) with ogain := x })) := by
        intro x
        unfold Node.process
        rw [hu x]
        rfl
      simp only [List.map_cons, Node.run]
      rw [hp g, hp g']
      cases loop E ((if asU8 b.ftype = 1 then 0 else asU8 b.order) + 1) n1.cascade b.inp with
      | none => rfl
      | some r =>
        simp only [Option.map_some]
        have := ih { n1 with cascade := r.2 }
        simp only at this
        revert this
        cases (({ ({ n1 with cascade := r.2 } : Node C M) with ogain := g } : Node C M).run E (bs.map (withGain g))) <;>
          cases (({ ({ n1 with cascade := r.2 } : Node C M) with ogain := g' } : Node C M).run E (bs.map (withGain g'))) <;> simp
  cases bs with
  | nil => rfl
  | cons b bs =>
    -- the first block always computes coefficients
    have hu : ∀ x : ℚ, (made E sr).update E (withGain x b) = { (made E sr).update E (withGain 0 b) with ogain := x } := by
      intro x
      have hc : |clampFreq b.freq - (made E sr).ofreq| > 1/10000 := by
        have := clampFreq_nonneg b.freq
        have h2 : (made E sr).ofreq = -2 := rfl
        rw [h2, abs_of_nonneg (by linarith)]
        linarith
      unfold Node.update withGain
      simp only
      rw [if_pos (Or.inr (Or.inl hc)), if_pos (Or.inr (Or.inl hc))]
    generalize (made E sr).update E (withGain 0 b) = n1 at hu
    have hp : ∀ x : ℚ, (made E sr).process E (withGain x b) =
        (loop E ((if asU8 b.ftype = 1 then 0 else asU8 b.order) + 1) n1.cascade b.inp).map
          (fun r => (r.1, { ({ n1 with cascade := r.2 } : Node C M) with ogain := x })) := by
      intro x
      unfold Node.process
      rw [hu x]
      rfl
    simp only [List.map_cons, Node.run]
    rw [hp g, hp g']
    cases loop E ((if asU8 b.ftype = 1 then 0 else asU8 b.order) + 1) n1.cascade b.inp with
    | none => rfl
    | some r =>
      simp only [Option.map_some]
      have := key bs { n1 with cascade := r.2 }
      simp only at this
      revert this
      cases (({ ({ n1 with cascade := r.2 } : Node C M) with ogain := g } : Node C M).run E (bs.map (withGain g))) <;>
        cases (({ ({ n1 with cascade := r.2 } : Node C M) with ogain := g' } : Node C M).run E (bs.map (withGain g'))) <;> simp

/-! ### A concrete run -/

/-- A filter that adds up its input, weighted with its coefficient. -/
def exE : Ext ℚ ℚ ℚ where
  resonator _ f q := f + q
  butter _ f := f
  tick c m x := (m + c * x, m + c * x)
  c0 := 0
  m0 := 0

def exB (t o : ℤ) (f g : ℚ) (xs : List ℚ) : Block ℚ := ⟨t, o, f, 1/2, g, xs⟩

/-- Two filters with coefficient 2; a tiny move of the frequency changes nothing, a large one empties the memories. -/
example : ((made exE 44100).run exE [exB 0 1 2 1 [1, 0], exB 0 1 (2 + 1/20000) 1 [0], exB 0 1 3 1 [1, 0]]).map (fun r => r.1) =
    some [[4, 8], [12], [9, 18]] := by decide +kernel

/-- Moving the gain empties the memories as well, and does nothing else. -/
example : ((made exE 44100).run exE [exB 0 1 2 1 [1, 0], exB 0 1 2 2 [1, 0]]).map (fun r => r.1) = some [[4, 8], [4, 8]] := by decide +kernel

example : ((made exE 44100).run exE [exB 0 3 2 1 [1, 0], exB 0 4 2 1 [1]]).map (fun r => r.1) = none := by decide +kernel

example : Moved [exB 0 1 2 1 [1, 0], exB 0 1 (2 + 1/20000) 1 [0]] (exB 0 1 3 1 [1, 0]) ∧ Near (exB 0 1 2 1 [1, 0]) (exB 0 1 (2 + 1/20000) 1 [0]) ∧
    stages (exB 0 1 2 1 [1, 0]) = 2 := by
  refine ⟨Or.inr (Or.inl ?_), ⟨rfl, ?_, ?_, ?_⟩, rfl⟩
  · intro a ha
    simp only [List.mem_cons, List.not_mem_nil, or_false] at ha
    rcases ha with rfl | rfl <;> (simp only [exB]; decide +kernel)
  · simp only [exB]; decide +kernel
  · simp only [exB]; decide +kernel
  · simp only [exB]; decide +kernel

end HexoDSP.BiqFiltProps
