import Verif.Lemmas.Moved
import Mathlib.Tactic.IntervalCases
/-!
# C129: where on the grid a patch lies and how it came there does not matter
-/

namespace HexoDSP.Matrix.MovedProps
open HexoDSP.Matrix HexoDSP.GraphOrdering MovedLemmas

variable {N : Type} [DecidableEq N]

/-- **C129** If two grids, whatever their histories and sizes, show the same patch, the one shifted against the other by an even number of columns and any
number of rows, then `sync` does the same with both: the same connections in the same order, the same nodes in the same order, or the same error or panic. -/
theorem sync_moved (m m' : Matrix N) (hr : m.Reachable) (hr' : m'.Reachable) (k dy : Nat) (h : Moved m m' (2 * k) dy) :
    m'.syncOutcome = m.syncOutcome := by
  symm
  have hu := updateGraph_moved (wfs_reachable hr).toWF (wfs_reachable hr').toWF h
  unfold Matrix.syncOutcome Matrix.sync
  generalize m.updateGraph = x at hu
  generalize m'.updateGraph = y at hu
  cases hu with
  | none => rfl
  | @some a b hab =>
    simp only
    have ho := sim_order hab.1 []
    generalize a.graph.calculateOrder [] = x at ho
    generalize b.graph.calculateOrder [] = y at ho
    cases ho with
    | none => rfl
    | @some r r' hr =>
      obtain ⟨g, o, ok⟩ := r
      obtain ⟨g', o', ok'⟩ := r'
      simp only [Prod.mk.injEq] at hr
      obtain ⟨rfl, rfl⟩ := hr
      cases ok <;> simp [hab.2]

/-- **C129** So does `check`. -/
theorem check_moved (m m' : Matrix N) (hr : m.Reachable) (hr' : m'.Reachable) (k dy : Nat) (h : Moved m m' (2 * k) dy) :
    m'.checkOutcome = m.checkOutcome := by
  symm
  have hu := updateGraph_moved (wfs_reachable hr).toWF (wfs_reachable hr').toWF h
  unfold Matrix.checkOutcome Matrix.check
  generalize m.updateGraph = x at hu
  generalize m'.updateGraph = y at hu
  cases hu with
  | none => rfl
  | @some a b hab =>
    simp only
    rw [← hab.2]
    cases findDuplicate [] a.edges with
    | some e => simp [hab.2]
    | none =>
      simp only
      have ho := sim_order hab.1 []
      generalize a.graph.calculateOrder [] = x at ho
      generalize b.graph.calculateOrder [] = y at ho
      cases ho with
      | none => rfl
      | @some r r' hr =>
        obtain ⟨g, o, ok⟩ := r
        obtain ⟨g', o', ok'⟩ := r'
        simp only [Prod.mk.injEq] at hr
        obtain ⟨rfl, rfl⟩ := hr
        cases ok <;> simp [hab.2]

/-- **C129** In particular only what is seen on the grid counts, not how it came there. -/
theorem sync_forgets (m m' : Matrix N) (hr : m.Reachable) (hr' : m'.Reachable) (h : ∀ x y, m'.seen x y = m.seen x y) :
    m'.syncOutcome = m.syncOutcome ∧ m'.checkOutcome = m.checkOutcome :=
  ⟨sync_moved m m' hr hr' 0 0 ⟨h, by omega⟩, check_moved m m' hr hr' 0 0 ⟨h, by omega⟩⟩

/-- A cell with node `n`, the output `o` at its lower right edge and the input `i` at its upper left edge. -/
def cell (n : Nat) (o i : Option Nat) : Cell Nat := { Cell.empty (some n) with out2 := o, in2 := i }

/-- Two connected nodes in the columns `x` and `x + 1`, of which the right one lies `r` rows lower. -/
def pair (x r : Nat) : List (MOp Nat) := [.place x 1 (cell 7 (some 2) none), .place (x + 1) (1 + r) (cell 8 none (some 3))]

/-- **C129** (negation) By an odd number of columns a patch cannot be moved: the connection is lost. -/
theorem odd_shift : ∃ m m' : Matrix Nat, m.Reachable ∧ m'.Reachable ∧ Moved m m' 1 0 ∧
    m.syncOutcome.map (fun r => r.1) = some [⟨7, 2, 8, 3⟩] ∧ m'.syncOutcome.map (fun r => r.1) = some [] := by
  refine ⟨((Matrix.new 3 3).place 0 1 (cell 7 (some 2) none)).place 1 1 (cell 8 none (some 3)),
    ((Matrix.new 3 3).place 1 1 (cell 7 (some 2) none)).place 2 1 (cell 8 none (some 3)), ⟨3, 3, pair 0 0, rfl⟩, ⟨3, 3, pair 1 0, rfl⟩, ⟨?_, ?_⟩,
    by decide +kernel, by decide +kernel⟩
  · intro x y
    by_cases hx : x < 3
    · by_cases hy : y < 3
      · interval_cases x <;> interval_cases y <;> decide +kernel
      · unfold Matrix.seen
        rw [get_out (by simp [Matrix.place, Matrix.new]; omega), get_out (by simp [Matrix.place, Matrix.new]; omega)]
    · unfold Matrix.seen
      rw [get_out (by simp [Matrix.place, Matrix.new]; omega), get_out (by simp [Matrix.place, Matrix.new]; omega)]
  · intro x y hxy
    have : x = 0 := by omega
    subst this
    by_cases hy : y < 3
    · interval_cases y <;> decide +kernel
    · unfold Matrix.seen
      rw [get_out (by simp [Matrix.place, Matrix.new]; omega)]
      rfl

/-- Two columns to the right and one row down, on a larger grid, with another cell there before. -/
example : ∃ m m' : Matrix Nat, m.Reachable ∧ m'.Reachable ∧ Moved m m' 2 1 ∧ m.syncOutcome = some ([⟨7, 2, 8, 3⟩], .ok [7, 8]) := by
  refine ⟨((Matrix.new 2 2).place 0 1 (cell 7 (some 2) none)).place 1 1 (cell 8 none (some 3)),
    (((Matrix.new 4 4).place 2 2 (cell 9 none none)).place 2 2 (cell 7 (some 2) none)).place 3 2 (cell 8 none (some 3)), ⟨2, 2, pair 0 0, rfl⟩,
    ⟨4, 4, [.place 2 2 (cell 9 none none), .place 2 2 (cell 7 (some 2) none), .place 3 2 (cell 8 none (some 3))], rfl⟩, ⟨?_, ?_⟩, by decide +kernel⟩
  · intro x y
    by_cases h : x < 2 ∧ y < 3
    · obtain ⟨hx, hy⟩ := h
      interval_cases x <;> interval_cases y <;> decide +kernel
    · unfold Matrix.seen
      rw [get_out (by simp [Matrix.place, Matrix.new]; omega), get_out (by simp [Matrix.place, Matrix.new]; omega)]
  · intro x y hxy
    by_cases h : x < 4 ∧ y < 4
    · obtain ⟨hx, hy⟩ := h
      interval_cases x <;> interval_cases y <;> first | decide +kernel | omega
    · unfold Matrix.seen
      rw [get_out (by simp [Matrix.place, Matrix.new]; omega)]
      rfl

end HexoDSP.Matrix.MovedProps
