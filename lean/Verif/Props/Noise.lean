import Verif.Spec.Noise
import Mathlib.Data.Nat.ModEq
import Mathlib.Tactic.Linarith
import Mathlib.Tactic.Ring
import Mathlib.Algebra.Order.Group.Abs
import Mathlib.Algebra.Order.Ring.Abs
/-! The noise node. -/

namespace HexoDSP.NoiseProps
open HexoDSP.Noise NoiseSpec

variable {S : Type}

theorem tick_shape (R : Rng S) (mode : Int) (n : Node S) (f : Frame) :
    tick R mode n f = ({ n with rng := (R.next n.rng).1 }, shape mode f (R.next n.rng).2) := by
  unfold tick shape
  by_cases h : mode = 0
  · simp only [h, if_true, Prod.mk.injEq, true_and]; ring
  · simp only [h, if_false]

theorem loop_out (R : Rng S) (mode : Int) (x : Nat) (fs : List Frame) : ∀ (n : Node S) (k : Nat), n.rng = after R (R.seed x) k →
    (loop R mode n fs).2 = blockOut R x mode k fs ∧ (loop R mode n fs).1.rng = after R (R.seed x) (k + fs.length) ∧
      (loop R mode n fs).1.seed = n.seed := by
  induction fs with
  | nil => intro n k h; exact ⟨rfl, h, rfl⟩
  | cons f fs ih =>
    intro n k h
    simp only [loop, tick_shape]
    obtain ⟨h1, h2, h3⟩ := ih { n with rng := (R.next n.rng).1 } (k + 1) (by simp only [after, h])
    refine ⟨?_, ?_, h3⟩
    · rw [h1, blockOut]
      simp only [draw, h]
    · rw [h2, List.length_cons]
      congr 1
      omega

theorem blockOut_length (R : Rng S) (x : Nat) (mode : Int) (fs : List Frame) : ∀ k, (blockOut R x mode k fs).length = fs.length := by
  induction fs with
  | nil => intro k; rfl
  | cons f fs ih => intro k; simp [blockOut, ih]

/-- One block, from a node that has used `k` numbers. -/
theorem process_out (R : Rng S) {mode : Int} {n : Node S} {fs : List Frame} {k : Nat} (hne : fs ≠ [])
    (hn : n.rng = after R (R.seed (seedOf n.seed)) k) :
    ∃ n' led, n.process R mode fs = some (n', blockOut R (seedOf n.seed) mode k fs, led) ∧
      (blockOut R (seedOf n.seed) mode k fs).getLast? = some led ∧
      n'.seed = n.seed ∧ n'.rng = after R (R.seed (seedOf n'.seed)) (k + fs.length) := by
  obtain ⟨h1, h2, h3⟩ := loop_out R mode (seedOf n.seed) fs n k hn
  have hl := blockOut_length R (seedOf n.seed) mode fs k
  cases hg : (blockOut R (seedOf n.seed) mode k fs).getLast? with
  | none =>
    rw [List.getLast?_eq_none_iff] at hg
    rw [hg] at hl
    exact absurd (List.length_eq_zero_iff.1 hl.symm) hne
  | some led =>
    refine ⟨(loop R mode n fs).1, led, ?_, rfl, h3, by rw [h3]; exact h2⟩
    unfold Node.process
    simp only [h1, hg]

theorem run_from (R : Rng S) (es : List Ev) (he : NoEmpty es) : ∀ (n : Node S) (k : Nat), n.rng = after R (R.seed (seedOf n.seed)) k →
    run R n es = some (plays R (seedOf n.seed) k es) := by
  induction es with
  | nil => intro n k _; rfl
  | cons e es ih =>
    intro n k hn
    have he' : NoEmpty es := fun m fs h => he m fs (by simp [h])
    cases e with
    | reset =>
      simp only [run, plays]
      exact ih he' (n.reset R) 0 rfl
    | block mode fs =>
      obtain ⟨n', led, h1, -, h3, h4⟩ := process_out R (mode := mode) (he mode fs (by simp)) hn
      simp only [run, plays, h1]
      rw [ih he' n' (k + fs.length) h4, h3]
      rfl

/-- **C99** In every history of blocks of any lengths, of either mode and with any inputs, and of resets, a noise node plays the numbers of its
generator, one in each frame, from the first one on when it is new and when it is reset. In particular the lengths of the blocks make no difference. -/
theorem plays_the_generator (R : Rng S) (inst : Nat) (es : List Ev) (he : NoEmpty es) :
    run R (Node.new R inst) es = some (plays R (seedOf inst) 0 es) :=
  run_from R es he (Node.new R inst) 0 rfl

/-- **C99** (reset) After a reset the node plays what a new one plays. -/
theorem reset_starts_over (R : Rng S) (inst : Nat) (before es : List Ev) (hb : NoEmpty before) (he : NoEmpty es) :
    run R (Node.new R inst) (before ++ .reset :: es) =
      (run R (Node.new R inst) before).bind (fun a => (run R (Node.new R inst) es).map (fun b => a ++ b)) := by
  have hall : NoEmpty (before ++ .reset :: es) := by
    intro m fs h
    rcases List.mem_append.1 h with h | h
    · exact hb m fs h
    · rcases List.mem_cons.1 h with h | h
      · cases h
      · exact he m fs h
  rw [plays_the_generator R inst _ hall, plays_the_generator R inst _ hb, plays_the_generator R inst _ he]
  simp only [Option.bind_some, Option.map_some, Option.some.injEq]
  have : ∀ (l : List Ev) (k : Nat), plays R (seedOf inst) k (l ++ .reset :: es) = plays R (seedOf inst) k l ++ plays R (seedOf inst) 0 es := by
    intro l
    induction l with
    | nil => intro k; rfl
    | cons e l ih =>
      intro k
      cases e with
      | reset => simp only [List.cons_append, plays]; exact ih 0
      | block m fs => simp only [List.cons_append, plays, List.append_assoc]; rw [ih]
  exact this before 0

theorem lin_mod (a c m i j : Nat) (hc : 0 < c) (hi : c * (i + 1) < m) (hj : c * (j + 1) < m)
    (h : (a + c * (i + 1)) % m = (a + c * (j + 1)) % m) : i = j := by
  have h1 : (c * (i + 1)) % m = (c * (j + 1)) % m := Nat.ModEq.add_left_cancel' a h
  rw [Nat.mod_eq_of_lt hi, Nat.mod_eq_of_lt hj] at h1
  have := Nat.eq_of_mul_eq_mul_left hc h1
  omega

/-- **C99** (instances) Two noise nodes have different seeds. -/
theorem seeds_differ {i j : Nat} (hi : i < 256) (hj : j < 256) (h : seedOf i = seedOf j) : i = j := by
  exact lin_mod 0x193a67f4a8a6d769 0x131415 18446744073709551616 i j (by omega) (by omega) (by omega) h

/-- **C99** (range) When the generator gives numbers from 0 to 1, a bipolar node stays within the attenuation on both sides of the offset. -/
theorem bipolar_range {x : ℚ} (h0 : 0 ≤ x) (h1 : x ≤ 1) (f : Frame) : |shape 0 f x - f.offs| ≤ |f.atv| := by
  unfold shape
  rw [if_pos rfl, add_sub_cancel_right, abs_mul]
  have : |2 * x - 1| ≤ 1 := abs_le.2 ⟨by linarith, by linarith⟩
  calc |2 * x - 1| * |f.atv| ≤ 1 * |f.atv| := mul_le_mul_of_nonneg_right this (abs_nonneg _)
    _ = |f.atv| := one_mul _

/-- **C99** (range) A unipolar node stays between the offset and the offset moved by the attenuation. -/
theorem unipolar_range {x : ℚ} (h0 : 0 ≤ x) (h1 : x ≤ 1) {mode : Int} (hm : mode ≠ 0) (f : Frame) :
    min f.offs (f.offs + f.atv) ≤ shape mode f x ∧ shape mode f x ≤ max f.offs (f.offs + f.atv) := by
  unfold shape
  rw [if_neg hm]
  rcases le_total 0 f.atv with h | h
  · have h2 : 0 ≤ x * f.atv := mul_nonneg h0 h
    have h3 : x * f.atv ≤ 1 * f.atv := mul_le_mul_of_nonneg_right h1 h
    exact ⟨le_trans (min_le_left _ _) (by linarith), le_trans (by linarith) (le_max_right _ _)⟩
  · have h2 : x * f.atv ≤ 0 := mul_nonpos_of_nonneg_of_nonpos h0 h
    have h3 : 1 * f.atv ≤ x * f.atv := mul_le_mul_of_nonpos_right h1 h
    exact ⟨le_trans (min_le_right _ _) (by linarith), le_trans (by linarith) (le_max_left _ _)⟩

/-! ### The hypotheses are met -/

/-- A generator that counts up and starts again. -/
def exR : Rng Nat := ⟨fun x => x % 4, fun s => ((s + 1) % 4, (s : ℚ) / 4)⟩

def exEs : List Ev := [.block 0 [⟨1, 0⟩, ⟨1, 1⟩], .block 1 [⟨1/2, 0⟩], .reset, .block 1 [⟨1, 0⟩, ⟨-1, 0⟩]]

example : NoEmpty exEs := by
  intro m fs h
  simp only [exEs, List.mem_cons, Ev.block.injEq, List.not_mem_nil, or_false, reduceCtorEq, false_or] at h
  rcases h with ⟨_, rfl⟩ | ⟨_, rfl⟩ | ⟨_, rfl⟩ <;> simp

example : run exR (Node.new exR 3) exEs = some [-1/2, 1, 3/8, 1/4, -1/2] := by decide +kernel

end HexoDSP.NoiseProps
