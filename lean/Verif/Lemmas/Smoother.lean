import Verif.Model.Smoother
/-! Facts about the smoother that hold for any arithmetic. -/

namespace HexoDSP.SmootherLemmas

variable {V : Type} [Add V]

theorem count_after (s : Smoother V) (k : Nat) : (s.after k).count = s.count - k := by
  induction k with
  | zero => rfl
  | succ k ih =>
    simp only [Smoother.after, Smoother.next]
    split <;> simp_all <;> omega

theorem target_after (s : Smoother V) (k : Nat) : (s.after k).target = s.target := by
  induction k with
  | zero => rfl
  | succ k ih =>
    simp only [Smoother.after, Smoother.next]
    split <;> simp_all

theorem slope_after (s : Smoother V) (k : Nat) : (s.after k).slopeSamples = s.slopeSamples := by
  induction k with
  | zero => rfl
  | succ k ih =>
    simp only [Smoother.after, Smoother.next]
    split <;> simp_all

theorem inc_after (s : Smoother V) (k : Nat) : (s.after k).inc = s.inc := by
  induction k with
  | zero => rfl
  | succ k ih =>
    simp only [Smoother.after, Smoother.next]
    split <;> simp_all

theorem done_after (s : Smoother V) (h : s.done = false) (k : Nat) :
    (s.after k).done = decide (s.count < k) := by
  induction k with
  | zero => simp [Smoother.after, h]
  | succ k ih =>
    simp only [Smoother.after, Smoother.next, count_after]
    split
    · simp; omega
    · simp only [ih]
      congr 1
      apply propext
      omega

end HexoDSP.SmootherLemmas
