import Verif.Spec.CodeNode
/-! **C115** The `Code` node plays the user's code. -/

namespace HexoDSP.CodeNodeProps
open CodeNode CodeNodeSpec

variable {B J : Type}

theorem loop_spec (E : Ext B J) (fs : List Frame) : ∀ (s : B) (ret s1 : ℚ),
    (loop E s ret s1 fs).1 = after E s fs ∧ (loop E s ret s1 fs).2.2.2.length = fs.length ∧
      (∀ k f, fs[k]? = some f → (loop E s ret s1 fs).2.2.2[k]? = some (outputs (code E (after E s (fs.take k)) f).2)) ∧
      (loop E s ret s1 fs).2.1 = (((loop E s ret s1 fs).2.2.2.getLast?).map Out.sig).getD ret ∧
      (loop E s ret s1 fs).2.2.1 = (((loop E s ret s1 fs).2.2.2.getLast?).map Out.sig1).getD s1 := by
  induction fs with
  | nil => intro s ret s1; exact ⟨rfl, rfl, fun k f h => by simp at h, rfl, rfl⟩
  | cons f fs ih =>
    intro s ret s1
    obtain ⟨h1, h2, h3, h4, h5⟩ := ih (code E s f).1 (code E s f).2.2.2 (code E s f).2.1
    have hl : ∀ (o : Out) (l : List Out) (g : Out → ℚ), ((o :: l).getLast?.map g) = some ((l.getLast?.map g).getD (g o)) := by
      intro o l g
      cases l with
      | nil => rfl
      | cons a l =>
        rw [List.getLast?_cons_cons]
        cases hx : (a :: l).getLast? with
        | none => simp at hx
        | some y => rfl
    refine ⟨h1, by simp only [loop, List.length_cons]; exact congrArg (· + 1) h2, fun k g hk => ?_, ?_, ?_⟩
    · cases k with
      | zero => simp only [List.getElem?_cons_zero, Option.some.injEq] at hk; subst hk; rfl
      | succ k =>
        rw [List.getElem?_cons_succ] at hk
        exact h3 k g hk
    · show _ = (Option.map Out.sig ((⟨_, _, _⟩ : Out) :: _).getLast?).getD ret
      rw [hl]; exact h4
    · show _ = (Option.map Out.sig1 ((⟨_, _, _⟩ : Out) :: _).getLast?).getD s1
      rw [hl]; exact h5

theorem loop_append (E : Ext B J) (xs ys : List Frame) : ∀ (s : B) (ret s1 : ℚ),
    loop E s ret s1 (xs ++ ys) =
      let a := loop E s ret s1 xs
      let b := loop E a.1 a.2.1 a.2.2.1 ys
      (b.1, b.2.1, b.2.2.1, a.2.2.2 ++ b.2.2.2) := by
  induction xs with
  | nil => intro s ret s1; rfl
  | cons f xs ih =>
    intro s ret s1
    simp only [List.cons_append, loop]
    rw [ih]

theorem loop_init (E : Ext B J) {fs : List Frame} (h : fs ≠ []) (s : B) (a b c d : ℚ) : loop E s a b fs = loop E s c d fs := by
  cases fs with
  | nil => exact absurd rfl h
  | cons f fs => rfl

/-- **C115** A block plays the programs that were sent before it, the last one sent in the end; frame `k` is what the code makes of the inputs of that
frame and of what it did in the frames before. The node then shows the last returned value and the last first signal. -/
theorem block_plays (E : Ext B J) (n : Node B J) (b : Backend B J) (hb : n.backend = some b) (fs : List Frame) :
    ∃ outs, (n.process E fs).2 = some outs ∧ outs.length = fs.length ∧
      (∀ k f, fs[k]? = some f → outs[k]? = some (outputs (code E (after E (b.waiting.foldl E.take b.state) (fs.take k)) f).2)) ∧
      (n.process E fs).1.backend = some ⟨after E (b.waiting.foldl E.take b.state) fs, []⟩ ∧
      (∀ o, outs.getLast? = some o → (n.process E fs).1.led = o.sig ∧ (n.process E fs).1.phase = o.sig1) := by
  unfold Node.process
  rw [hb]
  simp only [Backend.update]
  obtain ⟨h1, h2, h3, h4, h5⟩ := loop_spec E fs (b.waiting.foldl E.take b.state) 0 0
  refine ⟨_, rfl, h2, h3, by rw [h1], fun o ho => ?_⟩
  rw [h4, h5, ho]
  exact ⟨rfl, rfl⟩

/-- **C115** A program sent to the node is taken at the next block, whatever happens in between, and all its frames are played with it. -/
theorem sent_is_played (E : Ext B J) (n : Node B J) (b : Backend B J) (hb : n.backend = some b) (j : J) (f : Frame) (fs : List Frame) :
    ∃ o rest, ((n.send j).process E (f :: fs)).2 = some (o :: rest) ∧ o = outputs (code E (E.take (b.waiting.foldl E.take b.state) j) f).2 := by
  obtain ⟨outs, h1, h2, h3, -⟩ := block_plays E (n.send j) ⟨b.state, b.waiting ++ [j]⟩ (by unfold Node.send; rw [hb]; rfl) (f :: fs)
  cases outs with
  | nil => simp at h2
  | cons o rest =>
    refine ⟨o, rest, h1, ?_⟩
    have := h3 0 f rfl
    simp only [List.getElem?_cons_zero, Option.some.injEq, List.take_zero, List.foldl_append, List.foldl_cons, List.foldl_nil] at this
    exact this

/-- **C115** Cutting a block in two changes nothing that is heard then or later, and nothing that is shown in the end. -/
theorem cut_anywhere (E : Ext B J) (xs ys : List Frame) (hy : ys ≠ []) (post : List (Ev J)) : ∀ (pre : List (Ev J)) (n : Node B J),
    (n.run E (pre ++ .block xs :: .block ys :: post)).1 = (n.run E (pre ++ .block (xs ++ ys) :: post)).1 ∧
      heard (n.run E (pre ++ .block xs :: .block ys :: post)).2 = heard (n.run E (pre ++ .block (xs ++ ys) :: post)).2 := by
  have base : ∀ n : Node B J, ((n.process E xs).1.process E ys).1 = (n.process E (xs ++ ys)).1 ∧
      (n.process E xs).2.getD [] ++ ((n.process E xs).1.process E ys).2.getD [] = (n.process E (xs ++ ys)).2.getD [] := by
    intro n
    cases hb : n.backend with
    | none => simp [Node.process, hb]
    | some b =>
      simp only [Node.process, hb, Backend.update, List.foldl_nil]
      rw [loop_append]
      simp only
      rw [loop_init E hy _ 0 0]
      exact ⟨rfl, rfl⟩
  intro pre
  induction pre with
  | nil =>
    intro n
    obtain ⟨h1, h2⟩ := base n
    refine ⟨?_, ?_⟩
    · show (((n.process E xs).1.process E ys).1.run E post).1 = _
      rw [h1]; rfl
    · show heard ((n.process E xs).2 :: ((n.process E xs).1.process E ys).2 :: (((n.process E xs).1.process E ys).1.run E post).2) = _
      rw [h1]
      show _ = heard ((n.process E (xs ++ ys)).2 :: ((n.process E (xs ++ ys)).1.run E post).2)
      simp only [heard, List.flatMap_cons]
      rw [← h2, List.append_assoc]
  | cons e pre ih =>
    intro n
    cases e with
    | block fs =>
      obtain ⟨h1, h2⟩ := ih (n.process E fs).1
      refine ⟨h1, ?_⟩
      simp only [List.cons_append, Node.run, heard, List.flatMap_cons] at h2 ⊢
      rw [h2]
    | send j => exact ih _
    | reset => exact ih _
    | rate r => exact ih _

/-- **C115** (history) What is heard of a whole history of blocks, programs sent, resets and changes of the sample rate. -/
theorem whole_history (E : Ext B J) (es : List (Ev J)) : ∀ (n : Node B J) (b : Backend B J), n.backend = some b →
    heard (n.run E es).2 = history E b.state b.waiting es := by
  induction es with
  | nil => intro n b _; rfl
  | cons e es ih =>
    intro n b hb
    cases e with
    | block fs =>
      obtain ⟨outs, h1, h2, h3, h4, -⟩ := block_plays E n b hb fs
      have h5 : outs = fs.mapIdx (fun k f => outputs (code E (after E (b.waiting.foldl E.take b.state) (fs.take k)) f).2) := by
        apply List.ext_getElem?
        intro k
        rw [List.getElem?_mapIdx]
        cases hf : fs[k]? with
        | none => rw [Option.map_none]; rw [List.getElem?_eq_none_iff] at hf ⊢; rw [h2]; exact hf
        | some f => rw [h3 k f hf]; rfl
      have h6 := ih (n.process E fs).1 _ h4
      simp only [Node.run, heard, List.flatMap_cons, h1, Option.getD_some, history, ← h5]
      exact congrArg _ h6
    | send j => exact ih (n.send j) ⟨b.state, b.waiting ++ [j]⟩ (by unfold Node.send; rw [hb]; rfl)
    | reset => exact ih (n.reset E) ⟨E.clear b.state, b.waiting⟩ (by unfold Node.reset; rw [hb]; rfl)
    | rate r => exact ih (n.setSampleRate E r) ⟨E.rate b.state r, b.waiting⟩ (by unfold Node.setSampleRate; rw [hb]; rfl)

/-- **C115** Without a backend nothing is ever written, whatever is called. -/
theorem no_backend (E : Ext B J) (es : List (Ev J)) : ∀ n : Node B J, n.backend = none → ∀ o ∈ (n.run E es).2, o = none := by
  induction es with
  | nil => intro n _ o ho; cases ho
  | cons e es ih =>
    intro n hn o ho
    cases e with
    | block fs =>
      have hp : n.process E fs = (n, none) := by unfold Node.process; rw [hn]
      simp only [Node.run, hp] at ho
      rcases List.mem_cons.1 ho with h | h
      · exact h
      · exact ih n hn o h
    | send j => exact ih _ (by simp [Node.send, hn]) o ho
    | reset => exact ih _ (by simp [Node.reset, hn]) o ho
    | rate r => exact ih _ (by simp [Node.setSampleRate, hn]) o ho

/-! ## Examples -/

/-- The state is a program and a counter: program 0 returns the counter, other programs add the first input. -/
def exE : Ext (Nat × ℚ) Nat :=
  ⟨fun s j => (j, s.2), fun s a b al be de ga => ((s.1, s.2 + 1), (a + al, b + be, if s.1 = 0 then s.2 else s.2 + a + de - ga)), fun s _ => s, fun s => (s.1, 0)⟩

def exF (x : ℚ) : Frame := ⟨x, 0, 0, 1, 0, 0⟩
def exN : Node (Nat × ℚ) Nat := ⟨some ⟨(0, 0), []⟩, 48000, 0, 0⟩

/-- Two frames of the first program, then a new one is sent, then two more: the hypotheses of the theorems are met. -/
example : (exN.run exE [.block [exF 10, exF 10], .send 1, .block [exF 10, exF 20], .reset, .block [exF 0]]).2 =
    [some [⟨0, 10, 1⟩, ⟨1, 10, 1⟩], some [⟨12, 10, 1⟩, ⟨23, 20, 1⟩], some [⟨0, 0, 1⟩]] ∧
    (exN.run exE [.block [exF 10, exF 10], .send 1, .block [exF 10, exF 20]]).1.led = 23 := by decide +kernel

/-- The block with the new program cut in two sounds the same. -/
example : heard (exN.run exE [.send 1, .block [exF 10], .block [exF 20]]).2 = heard (exN.run exE [.send 1, .block [exF 10, exF 20]]).2 ∧
    heard (exN.run exE [.send 1, .block [exF 10, exF 20]]).2 = [⟨10, 10, 1⟩, ⟨21, 20, 1⟩] := by decide +kernel

end HexoDSP.CodeNodeProps
