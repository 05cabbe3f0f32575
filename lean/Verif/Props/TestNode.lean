import Verif.Spec.TestNode
/-! **C113** The test node. -/

namespace HexoDSP.TestNodeProps
open TestNode TestNodeSpec

variable {P : Type}

theorem loop_idle (E : Ext P) (a : Arg) (k : Nat) : ∀ (s : P) {t : Int}, ¬ 0 < t →
    (loop E a s t k).1 = (frames E s k).1 ∧ (loop E a s t k).2.map Out.tsig = (frames E s k).2 := by
  induction k with
  | zero => intro s t _; exact ⟨rfl, rfl⟩
  | succ k ih =>
    intro s t ht
    unfold loop frames
    simp only [gt_iff_lt, if_neg ht]
    obtain ⟨h1, h2⟩ := ih (E.next s).2 ht
    exact ⟨h1, by rw [List.map_cons, h2]⟩

theorem loop_fire (E : Ext P) (a : Arg) (k : Nat) (s : P) {t : Int} (ht : 0 < t) (hk : 0 < k) :
    (loop E a s t k).1 = (frames E (E.trigger s) k).1 ∧ (loop E a s t k).2.map Out.tsig = (frames E (E.trigger s) k).2 := by
  cases k with
  | zero => omega
  | succ k =>
    unfold loop frames
    simp only [gt_iff_lt, if_pos ht]
    obtain ⟨h1, h2⟩ := loop_idle E a k (E.next (E.trigger s)).2 (t := 0) (by omega)
    exact ⟨h1, by rw [List.map_cons, h2]⟩

theorem process_tsig (E : Ext P) (n : Node P) {a : Arg} (hk : 0 < a.nframes) :
    (n.process E a).1 = ⟨(frames E (if !n.trigger && Down a then E.trigger n.trigSig else n.trigSig) a.nframes).1, n.trigger || Down a⟩ ∧
      (n.process E a).2.map Out.tsig = (frames E (if !n.trigger && Down a then E.trigger n.trigSig else n.trigSig) a.nframes).2 := by
  obtain ⟨s, tr⟩ := n
  unfold Node.process Down
  cases tr with
  | true =>
    have := loop_idle E a a.nframes s (t := 0) (by omega)
    simp only [Bool.not_true, Bool.false_and, Bool.false_eq_true, if_false, if_true, Bool.true_or]
    exact ⟨by rw [this.1], this.2⟩
  | false =>
    by_cases h : 0 < int a.trig
    · have := loop_fire E a a.nframes s h hk
      simp only [Bool.not_false, Bool.true_and, gt_iff_lt, h, decide_true, if_true, Bool.false_or]
      exact ⟨by rw [this.1], this.2⟩
    · have := loop_idle E a a.nframes s h
      simp only [Bool.not_false, Bool.true_and, gt_iff_lt, h, decide_false, Bool.false_eq_true, if_false, Bool.false_or]
      by_cases h0 : int a.trig = 0
      · rw [if_pos (by simp [h0])]; exact ⟨by rw [this.1], this.2⟩
      · rw [if_neg (by simp [h0])]; exact ⟨by rw [this.1], this.2⟩

/-- **C113** In every history the generator behind `tsig` is started in the first block in which the button is down, at its first frame, and never again. -/
theorem only_first_press (E : Ext P) (es : List Ev) (hk : ∀ a ∈ blocks es, 0 < a.nframes) : ∀ n : Node P,
    (n.run E es).2.map Out.tsig = signal E n.trigSig (firstPress n.trigger es) := by
  induction es with
  | nil => intro n; rfl
  | cons e es ih =>
    intro n
    cases e with
    | block a =>
      have ih := ih (fun b hb => hk b (by simp [blocks, hb]))
      obtain ⟨h1, h2⟩ := process_tsig E n (hk a (by simp [blocks]))
      simp only [Node.run, firstPress, signal, List.map_append, ih, h2]
      rw [h1]
    | reset => exact ih (fun b hb => hk b hb) _
    | rate x => exact ih (fun b hb => hk b hb) _

/-- **C113** In every frame of every history `sig` is the setting `p` of its block, `out2` says whether the output `sig` is connected, `out3` whether the
input `f` is, and `outc` is the mask of the connected outputs. -/
theorem other_outputs (E : Ext P) (es : List Ev) : ∀ n : Node P,
    (n.run E es).2.map (fun o => (o.sig, o.out2, o.out3, o.outc)) =
      (blocks es).flatMap (fun a => List.replicate a.nframes
        (float a.p, if a.outConnected % 2 = 1 then 1 else 0, if a.inConnected % 2 = 1 then 1 else 0, (a.outConnected : ℚ))) := by
  have hl : ∀ (a : Arg) (k : Nat) (s : P) (t : Int), (loop E a s t k).2.map (fun o => (o.sig, o.out2, o.out3, o.outc)) =
      List.replicate k (float a.p, if a.outConnected % 2 = 1 then 1 else 0, if a.inConnected % 2 = 1 then 1 else 0, (a.outConnected : ℚ)) := by
    intro a k
    induction k with
    | zero => intro s t; rfl
    | succ k ih =>
      intro s t
      unfold loop
      simp only [List.map_cons, ih, List.replicate_succ, Nat.testBit_zero, decide_eq_true_eq]
  induction es with
  | nil => intro n; rfl
  | cons e es ih =>
    intro n
    cases e with
    | block a =>
      simp only [Node.run, blocks, List.map_append, ih, List.flatMap_cons]
      rw [show (n.process E a).2 = (loop E a n.trigSig _ a.nframes).2 from rfl, hl]
    | reset => exact ih _
    | rate x => exact ih _

theorem first_of_every (es : List Ev) : ∀ (done was : Bool), (was = true → done = true) →
    (∀ (i j : Nat) (a b : Arg), i < j → (blocks es)[i]? = some a → (blocks es)[j]? = some b → (done = true → Down a = false → Down b = false)) →
    (done = true → was = false → ∀ b ∈ blocks es, Down b = false) → PressedOnce es → firstPress done es = everyPress was es := by
  induction es with
  | nil => intro _ _ _ _ _ _; rfl
  | cons e es ih =>
    intro done was hd h1 h2 h3
    cases e with
    | block a =>
      have e1 : (!done && Down a) = (!was && Down a) := by
        cases was with
        | true => rw [hd rfl]
        | false =>
          cases done with
          | false => rfl
          | true => rw [h2 rfl rfl a (by simp [blocks])]; rfl
      unfold firstPress everyPress
      rw [e1]
      congr 1
      have hget : ∀ i, (blocks (.block a :: es))[i + 1]? = (blocks es)[i]? := fun i => rfl
      apply ih
      · intro h; rw [h]; simp
      · intro i j b c hij hb hc hdo hbf
        simp only [Bool.or_eq_true] at hdo
        rcases hdo with hdo | hdo
        · exact h1 (i + 1) (j + 1) b c (by omega) (by rw [hget]; exact hb) (by rw [hget]; exact hc) hdo hbf
        · exact h3 0 (i + 1) (j + 1) a b c (by omega) (by omega) rfl (by rw [hget]; exact hb) (by rw [hget]; exact hc) hdo hbf
      · intro hdo hda b hb
        obtain ⟨j, hj⟩ := List.getElem?_of_mem hb
        rw [hda, Bool.or_false] at hdo
        exact h1 0 (j + 1) a b (by omega) rfl (by rw [hget]; exact hj) hdo hda
      · intro i j k b c d hij hjk hb hc hd'
        exact h3 (i + 1) (j + 1) (k + 1) b c d (by omega) (by omega) (by rw [hget]; exact hb) (by rw [hget]; exact hc) (by rw [hget]; exact hd')
    | reset => unfold firstPress everyPress; congr 1; exact ih done was hd h1 h2 h3
    | rate x => unfold firstPress everyPress; congr 1; exact ih done was hd h1 h2 h3

/-- **C113** (part) If the button is pressed at most once in a history, each press gives a pulse. -/
theorem pulse_per_press_partial (E : Ext P) (es : List Ev) (hk : ∀ a ∈ blocks es, 0 < a.nframes) (h1 : PressedOnce es) :
    ((Node.new E).run E es).2.map Out.tsig = signal E E.new (everyPress false es) := by
  rw [only_first_press E es hk]
  exact congrArg _ (first_of_every es false false (fun h => h) (fun _ _ _ _ _ _ _ h => by cases h) (fun h => by cases h) h1)

/-- **C113** The button is down when the value of the setting is one or more. -/
theorem down_from_one (a : Arg) : Down a = true ↔ 1 ≤ float a.trig := by
  unfold Down
  rw [decide_eq_true_iff]
  obtain ⟨n, p, t, i, o⟩ := a
  cases t with
  | param x =>
    simp only [int, float, trunc]
    split
    · rename_i h
      rw [show (0 : ℤ) < x.floor ↔ 1 ≤ x.floor from Iff.rfl, Rat.le_floor_iff]
      norm_num
    · rename_i h
      have h1 : 0 ≤ (-x).floor := by rw [Rat.le_floor_iff]; norm_num; linarith
      constructor
      · intro h2; omega
      · intro h2; linarith
  | setting i =>
    simp only [int, float]
    exact_mod_cast Iff.rfl
  | _ => simp [int, float]

/-! ## Where the full statement fails, and examples -/

/-- A generator whose pulse is one frame long. -/
def exE : Ext Bool := ⟨false, fun _ => true, fun b => (if b then 1 else 0, false), fun _ => false, fun b _ => b⟩
def exArg (t : Int) : Arg := ⟨2, .param (1/3), .setting t, 1, 5⟩

/-- The button is pressed, let go, and pressed again. -/
def exTwice : List Ev := [.block (exArg 0), .block (exArg 1), .block (exArg 1), .block (exArg 0), .reset, .block (exArg 1), .block (exArg 0)]

/-- **C113** (negation) The second press gives no pulse, not even after a reset. -/
theorem second_press_silent : (∀ a ∈ blocks exTwice, 0 < a.nframes) ∧
    ((Node.new exE).run exE exTwice).2.map Out.tsig = [0, 0, 1, 0, 0, 0, 0, 0, 0, 0, 0, 0] ∧
    signal exE exE.new (everyPress false exTwice) = [0, 0, 1, 0, 0, 0, 0, 0, 1, 0, 0, 0] := by
  decide +kernel

/-- The hypotheses of `pulse_per_press_partial` are met by a history with one press. -/
example : (∀ a ∈ blocks (exTwice.take 4), 0 < a.nframes) ∧ PressedOnce (exTwice.take 4) ∧
    ((Node.new exE).run exE (exTwice.take 4)).2.map Out.tsig = [0, 0, 1, 0, 0, 0, 0, 0] := by
  refine ⟨by decide +kernel, ?_, by decide +kernel⟩
  intro i j k a b c hij hjk ha hb hc hda hdb
  have hb4 : (blocks (exTwice.take 4)) = [exArg 0, exArg 1, exArg 1, exArg 0] := rfl
  rw [hb4] at ha hb hc
  have hk : k < 4 := (List.getElem?_eq_some_iff.1 hc).1
  have h3 : k = 2 ∨ k = 3 := by omega
  rcases h3 with rfl | rfl
  · have : i = 0 := by omega
    subst this
    simp only [List.getElem?_cons_zero, Option.some.injEq] at ha
    subst ha
    exact absurd hda (by decide)
  · simp only [List.getElem?_cons_succ, List.getElem?_cons_zero, Option.some.injEq] at hc
    subst hc
    decide

/-- `other_outputs` on the first block: the setting, both connections, and the mask. -/
example : ((Node.new exE).run exE (exTwice.take 1)).2.map (fun o => (o.sig, o.out2, o.out3, o.outc)) = [(1/3, 1, 1, 5), (1/3, 1, 1, 5)] := by
  decide +kernel

end HexoDSP.TestNodeProps
