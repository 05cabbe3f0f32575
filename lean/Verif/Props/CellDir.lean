import Verif.Lemmas.CellDir
/-!
# Properties of the hexagonal grid directions (C01, C02, C03)
-/

namespace HexoDSP.CellDirProps
open CellDir

/-! ## C01 -/

/-- **C01** A step over an edge is undone by a step in the flipped direction; flipping twice is the
identity; exactly one of the two facing edges is an output. -/
theorem step_flip_returns (d : CellDir) (hd : IsEdge d) (p q : Pos) (h : d.offsPos p = some q) :
    d.flip.offsPos q = some p ∧ d.flip.flip = d ∧ IsEdge d.flip ∧
      (d.isOutput = true ↔ d.flip.isInput = true) ∧ (d.isOutput = true ↔ d.isInput = false) := by
  refine ⟨offsPos_flip d hd p q h, ?_⟩
  cases d <;> simp_all [CellDir.flip, isOutput, isInput, asEdge, IsEdge]

example : IsEdge TR ∧ TR.offsPos (3, 0) = some (4, 0) ∧ TR.flip.offsPos (4, 0) = some (3, 0) := by
  decide

/-- **C01** A step is refused exactly when it would leave the grid to the left or top. -/
theorem step_refused_iff (d : CellDir) (p : Pos) :
    d.offsPos p = none ↔
      ((p.1 = 0 ∧ (d = BL ∨ d = TL)) ∨
       (p.2 = 0 ∧ (d = T ∨ (p.1 % 2 = 0 ∧ (d = TR ∨ d = TL))))) := by
  obtain ⟨x, y⟩ := p
  cases d <;> simp only [offsPos, asOffs] <;> by_cases hx : x % 2 = 0 <;> simp [hx] <;> omega

/-- **C01** The centre direction is not an edge: flipping it twice is not the identity
(a quirk of `flip`, `src/cell_dir.rs:38`). -/
theorem flip_center_not_involutive : C.flip.flip ≠ C := by decide

/-! ## C124 -/

/-- **C124** The numbers of the edges: every direction has its own, clockwise from the upper right, and is found by it. -/
theorem edge_number (d : CellDir) : ofEdge d.asEdge = d ∧ (IsEdge d ↔ d.asEdge < 6) ∧ (∀ e, ofEdge e = d → IsEdge d → e = d.asEdge) := by
  refine ⟨by cases d <;> rfl, by cases d <;> simp [IsEdge, asEdge], ?_⟩
  intro e he hd
  rcases e with _ | _ | _ | _ | _ | _ | e
  all_goals (simp only [ofEdge] at he; subst he; first | rfl | exact absurd rfl hd)

/-- **C124** A number beyond the six edges names the centre. -/
theorem edge_number_centre (e : Nat) (h : 6 ≤ e) : ofEdge e = C := by
  rcases e with _ | _ | _ | _ | _ | _ | e
  all_goals first | omega | rfl

/-- **C124** (partial) In the menu every direction but the upper right lies where the neighbour in that direction lies, seen from an odd column. -/
theorem menu_position_partial (d : CellDir) (h : d ≠ TR) (x : Nat) (hx : x % 2 = 1) : d.asMenuPos = d.asOffs x := by
  cases d <;> simp_all [asMenuPos, asOffs]

/-- **C124** (negation) The upper right has the place of the bottom in the menu, which is not where its neighbour lies, in no column. -/
theorem menu_position_twice : TR.asMenuPos = B.asMenuPos ∧ ∀ x, TR.asMenuPos ≠ TR.asOffs x := by
  refine ⟨rfl, fun x h => ?_⟩
  simp [asMenuPos, asOffs] at h

example : asOffs BL 3 = (-1, 1) ∧ asMenuPos BL = (-1, 1) ∧ ofEdge 3 = BL := by decide

/-! ## C02 -/

/-- **C02** `are_adjacent` answers a direction exactly when it is an edge direction leading
from the first to the second position. -/
theorem are_adjacent_iff (a b : Pos) (d : CellDir) :
    areAdjacent a b = some d ↔ IsEdge d ∧ d.offsPos a = some b := by
  exact areAdjacent_iff a b d

/-- **C02** `are_adjacent` answers `None` exactly when no edge leads from one to the other. -/
theorem are_adjacent_none_iff (a b : Pos) :
    areAdjacent a b = none ↔ ∀ d, IsEdge d → d.offsPos a ≠ some b := by
  constructor
  · intro h d hd hs
    have := (are_adjacent_iff a b d).2 ⟨hd, hs⟩
    simp [h] at this
  · intro h
    cases hc : areAdjacent a b with
    | none => rfl
    | some d =>
      have := (are_adjacent_iff a b d).1 hc
      exact absurd this.2 (h d this.1)

/-- **C02** Swapping the arguments flips the direction. -/
theorem are_adjacent_swap (a b : Pos) :
    areAdjacent b a = (areAdjacent a b).map flip := by
  cases hc : areAdjacent a b with
  | none =>
    rw [are_adjacent_none_iff] at hc
    rw [Option.map_none, are_adjacent_none_iff]
    intro d hd hs
    have := step_flip_returns d hd _ _ hs
    exact hc d.flip this.2.2.1 this.1
  | some d =>
    rw [are_adjacent_iff] at hc
    rw [Option.map_some, are_adjacent_iff]
    have := step_flip_returns d hc.1 _ _ hc.2
    exact ⟨this.2.2.1, this.1⟩

/-- **C02** No cell is adjacent to itself, and different edges lead to different cells. -/
theorem neighbours_distinct (a : Pos) :
    areAdjacent a a = none ∧
      ∀ d e b, IsEdge d → IsEdge e → d.offsPos a = some b → e.offsPos a = some b → d = e := by
  constructor
  · rw [are_adjacent_none_iff]
    intro d hd h
    obtain ⟨x, y⟩ := a
    revert h
    cases d <;> simp only [offsPos, asOffs] <;> by_cases hx : x % 2 = 0 <;> simp_all [IsEdge] <;> omega
  · intro d e b hd he h1 h2
    have h1 := (are_adjacent_iff a b d).2 ⟨hd, h1⟩
    have h2 := (are_adjacent_iff a b e).2 ⟨he, h2⟩
    simp_all

example : areAdjacent (2, 3) (3, 2) = some TR ∧ areAdjacent (3, 2) (2, 3) = some BL ∧
    areAdjacent (2, 3) (4, 3) = none := by decide

/-! ## C03 -/

/-- **C03 (partial)** Whenever the target is close enough that the best first step is below the
distance cut off of the code (in particular when the squared distance of the two positions is below
`99999`) and the two are at most `1024` city blocks apart, following the returned path
from the start ends at the target without leaving the grid, and the path is no longer than the
city block distance.
Missing: pairs further apart, for which the statement is false (see `path_fails_far`). -/
theorem path_reaches_partial (a b : Pos) (hd : sqDist b a ≤ 99999) (hn : blockDist a b ≤ 1024) :
    walk a (pathFromTo a b) = some b ∧ (pathFromTo a b).length ≤ blockDist a b := by
  exact pathLoop_correct 1024 a b hd hn

/-- **C03 (partial)** In particular on every grid with at most 200 columns and rows the path always
reaches its target. -/
theorem path_reaches_200_partial (a b : Pos) (ha : a.1 < 200 ∧ a.2 < 200) (hb : b.1 < 200 ∧ b.2 < 200) :
    walk a (pathFromTo a b) = some b := by
  apply (path_reaches_partial a b _ _).1
  · simp only [sqDist]
    have h1 : ((b.1 : Int) - a.1) * ((b.1 : Int) - a.1) ≤ 199 * 199 := by
      have := Int.natAbs_mul_self (a := (b.1 : Int) - a.1)
      have h2 : ((b.1 : Int) - a.1).natAbs ≤ 199 := by omega
      have h3 := Nat.mul_le_mul h2 h2
      omega
    have h1' : ((b.2 : Int) - a.2) * ((b.2 : Int) - a.2) ≤ 199 * 199 := by
      have := Int.natAbs_mul_self (a := (b.2 : Int) - a.2)
      have h2 : ((b.2 : Int) - a.2).natAbs ≤ 199 := by omega
      have h3 := Nat.mul_le_mul h2 h2
      omega
    omega
  · simp only [blockDist]; omega

/-- **C03** The path is at most 1024 steps for every pair, so the call always terminates. -/
theorem path_length_le (a b : Pos) : (pathFromTo a b).length ≤ 1024 := pathLoop_length_le 1024 a b

/-- **C03 (negation)** For far apart cells (already inside a 256x256 matrix, the largest size whose
coordinates fit the cell's `u8` fields) the returned path is empty although the positions differ. -/
theorem path_fails_far : ∃ a b : Pos, a ≠ b ∧ b.1 < 256 ∧ b.2 < 256 ∧ pathFromTo a b = [] ∧
    walk a (pathFromTo a b) ≠ some b :=
  ⟨(0, 0), (255, 255), by decide, by decide, by decide, by decide +kernel, by decide +kernel⟩

example : sqDist (7, 1) (2, 3) ≤ 99999 ∧ blockDist (2, 3) (7, 1) ≤ 1024 ∧
    pathFromTo (2, 3) (7, 1) = [TR, TR, TR, TR, BR] := by decide +kernel

/-- **C01** Stepping moves the drawn centre of the cell by the direction's own vector, in every
column. -/
theorem step_moves_centre (d : CellDir) (p q : Pos) (h : d.offsPos p = some q) :
    centre q = ((centre p).1 + (shift d).1, (centre p).2 + (shift d).2) := by
  rw [offsPos_some_iff] at h
  obtain ⟨x, y⟩ := p
  obtain ⟨u, v⟩ := q
  simp only [centre, Prod.mk.injEq]
  cases d <;> simp only [asOffs, shift] at h ⊢ <;> by_cases hx : x % 2 = 0 <;> simp [hx] at h <;> omega

/-- **C02** Two cells are reported adjacent in direction `d` exactly when their drawn centres differ
by the vector of `d`. -/
theorem adjacent_iff_centres (a b : Pos) (d : CellDir) :
    areAdjacent a b = some d ↔ IsEdge d ∧ centre b = ((centre a).1 + (shift d).1, (centre a).2 + (shift d).2) := by
  rw [areAdjacent_iff]
  refine and_congr Iff.rfl ⟨step_moves_centre d a b, ?_⟩
  intro h
  rw [offsPos_some_iff]
  obtain ⟨x, y⟩ := a
  obtain ⟨u, v⟩ := b
  simp only [centre, Prod.mk.injEq] at h
  cases d <;> simp only [asOffs, shift] at h ⊢ <;> by_cases hx : x % 2 = 0 <;> simp [hx] <;> omega

end HexoDSP.CellDirProps
