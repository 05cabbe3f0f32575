import Verif.Spec.CellEdit
import Verif.Props.Matrix
/-!
# C140: editing a cell and placing several cells at once

The vocabulary (`Sheet`, `overlay`, `Fit`) is in `Verif/Spec/CellEdit.lean`.
-/

set_option linter.unusedSectionVars false
namespace HexoDSP.CellEditProps
open HexoDSP.Matrix HexoDSP.MatrixProps
open CellDir (Pos)

variable {N : Type} [DecidableEq N]

/-! ## Editing a cell -/

theorem edit_sheet (c : Cell N) (op : CellOp N) (h : op.Fits) : (c.edit op).sheet = c.sheet.edit op := by
  cases op with
  | setNodeId n =>
    simp only [Cell.edit, Cell.setNodeId, Cell.sheet, Sheet.edit, Cell.pos, Sheet.mk.injEq, true_and]
    funext d; cases d <;> rfl
  | setNodeIdKeepIos n =>
    simp only [Cell.edit, Cell.setNodeIdKeepIos, Cell.sheet, Sheet.edit, Cell.pos, Sheet.mk.injEq, true_and]
    funext d; cases d <;> rfl
  | clearIoDir d =>
    have : (c.clearIoDir d).nodeId = c.nodeId ∧ (c.clearIoDir d).pos = c.pos := by cases d <;> exact ⟨rfl, rfl⟩
    simp only [Cell.edit, Cell.sheet, Sheet.edit, this.1, this.2, Sheet.mk.injEq, true_and]
    funext e; cases d <;> cases e <;> rfl
  | setIoDir d idx =>
    have : (c.setIoDir d idx).nodeId = c.nodeId ∧ (c.setIoDir d idx).pos = c.pos := by cases d <;> exact ⟨rfl, rfl⟩
    have hi : idx % 256 = idx := Nat.mod_eq_of_lt h
    simp only [Cell.edit, Cell.sheet, Sheet.edit, this.1, this.2, Sheet.mk.injEq, true_and]
    funext e; cases d <;> cases e <;> simp [Cell.setIoDir, Cell.localPortIdx, hi]
  | input i1 i2 i3 =>
    simp only [Cell.edit, Cell.input, Cell.sheet, Sheet.edit, Sheet.write, Cell.pos, Sheet.mk.injEq, true_and]
    funext d; cases d <;> rfl
  | out o1 o2 o3 =>
    simp only [Cell.edit, Cell.out, Cell.sheet, Sheet.edit, Sheet.write, Cell.pos, Sheet.mk.injEq, true_and]
    funext d; cases d <;> rfl
  | withPosOf o =>
    simp only [Cell.edit, Cell.withPosOf, Cell.sheet, Sheet.edit, Cell.pos, Sheet.mk.injEq, true_and]
    funext d; cases d <;> rfl

/-- **C140** Whatever calls edit a cell, in whatever order: it carries the node set last, stands where it was
put last, and each edge shows what was written on it last, or nothing if it (or the whole cell) was cleared
since. The port numbers must be below 256. -/
theorem edited_partial (c : Cell N) (ops : List (CellOp N)) (h : ∀ op ∈ ops, op.Fits) :
    (ops.foldl Cell.edit c).sheet = ops.foldl Sheet.edit c.sheet := by
  induction ops generalizing c with
  | nil => rfl
  | cons op ops ih =>
    simp only [List.foldl_cons]
    rw [ih _ (fun o ho => h o (List.mem_cons_of_mem _ ho)), edit_sheet c op (h op (List.mem_cons_self ..))]

/-- **C140 (negation)** A port number from 256 on is taken for another one. -/
theorem large_port_wraps : ((Cell.empty (some 1) : Cell Nat).edit (.setIoDir .B 256)).sheet.edge .B = some 0 := rfl

/-- **C140** `has_dir_set` tells whether something is written on the edge. -/
theorem dir_set_iff (c : Cell N) (d : CellDir) : c.hasDirSet d = true ↔ ∃ i, c.sheet.edge d = some i := by
  cases d <;> simp [Cell.hasDirSet, Cell.sheet, Cell.localPortIdx, Option.isSome_iff_exists]

/-- A history of edits: two edges set, one set again, one cleared, then another node without touching the edges. -/
def history : List (CellOp Nat) :=
  [.input (some 1) none (some 2), .setIoDir .B 3, .setIoDir .TR 4, .setIoDir .B 5, .clearIoDir .TR, .setNodeIdKeepIos (some 9)]

example : (∀ op ∈ history, op.Fits) ∧
    [CellDir.T, .TL, .BL, .TR, .BR, .B].map (history.foldl Cell.edit (Cell.empty (some 1))).localPortIdx =
      [some 1, none, some 2, none, none, some 5] ∧
    (history.foldl Cell.edit (Cell.empty (some 1))).nodeId = some 9 := by
  refine ⟨?_, by decide +kernel, by decide +kernel⟩
  intro op ho
  simp only [history, List.mem_cons, List.not_mem_nil, or_false] at ho
  rcases ho with rfl | rfl | rfl | rfl | rfl | rfl <;> simp [CellOp.Fits]

/-! ## Reading and placing -/

/-- **C140** `get_copy` answers exactly on the grid, with the cell `get` shows, standing at the asked place
(on grids of at most 256 by 256 cells). -/
theorem copy_exact (m : Matrix N) (hw : m.w ≤ 256) (hh : m.h ≤ 256) (x y : Nat) :
    m.getCopy x y = (m.get x y).map (fun c => { c with x := x, y := y }) := by
  unfold Matrix.getCopy Matrix.get
  by_cases h : x ≥ m.w ∨ y ≥ m.h
  · rw [if_pos h, if_pos h]; rfl
  · rw [if_neg h, if_neg h, Nat.mod_eq_of_lt (by omega), Nat.mod_eq_of_lt (by omega)]

/-- **C140** `adjacent_edge_has_input` is true exactly if the neighbour behind an output edge listens on the
facing edge. -/
theorem neighbour_listens (m : Matrix N) (x y : Nat) (d : CellDir) :
    m.adjacentEdgeHasInput x y d = true ↔
      d ∈ outDirs ∧ ∃ q c i, d.offsPos (x, y) = some q ∧ m.get q.1 q.2 = some c ∧ c.localPortIdx d.flip = some i := by
  have hadj : m.getAdjacent x y d = (d.offsPos (x, y)).bind (fun q => m.get q.1 q.2) := by
    unfold Matrix.getAdjacent CellDir.offsPos Matrix.get
    simp only
    generalize (x : Int) + (d.asOffs x).1 = a
    generalize (y : Int) + (d.asOffs x).2 = b
    by_cases h : a ≥ 0 ∧ b ≥ 0
    · rw [if_pos h]
      simp only [Option.bind_some]
      by_cases h2 : a.toNat ≥ m.w ∨ b.toNat ≥ m.h
      · rw [if_pos (by omega), if_pos h2]
      · rw [if_neg (by omega), if_neg h2]
    · rw [if_neg h, if_pos (by omega)]; rfl
  unfold Matrix.adjacentEdgeHasInput
  rw [hadj]
  cases hq : d.offsPos (x, y) with
  | none => simp
  | some q =>
    simp only [Option.bind_some]
    cases hc : m.get q.1 q.2 with
    | none => simp [hc]
    | some c =>
      cases d <;> simp [outDirs, CellDir.flip, Cell.localPortIdx, Option.isSome_iff_exists, hc]

theorem reach_place {m : Matrix N} (hr : m.Reachable) (x y : Nat) (c : Cell N) : (m.place x y c).Reachable := by
  obtain ⟨w, h, ops, ho⟩ := hr
  refine ⟨w, h, ops ++ [.place x y c], ?_⟩
  unfold Matrix.runAll at ho ⊢
  rw [List.foldlM_append, ho]; rfl

theorem place_overlay (m : Matrix N) (hr : m.Reachable) (c : Cell N) (hb : c.InBytes) :
    (m.place c.x c.y c).get = Array2.write m.get c.x c.y c := by
  funext i j
  rw [place_writes_one_cell m hr, Nat.mod_eq_of_lt hb.1, Nat.mod_eq_of_lt hb.2]

theorem fit_cons (f : Array2 N) (c : Cell N) (cs : List (Cell N)) :
    Fit f (c :: cs) ↔ f.Free c ∧ Fit (f.write c.x c.y c) cs := by
  unfold Fit
  rw [List.pairwise_cons, List.forall_mem_cons]
  constructor
  · rintro ⟨⟨h1, h2⟩, h3, h4⟩
    refine ⟨h1, ?_, h4⟩
    intro d hd
    obtain ⟨old, g1, g2⟩ := h1
    obtain ⟨o2, g3, g4⟩ := h2 d hd
    unfold Array2.Free Array2.write
    by_cases he : d.x = c.x ∧ d.y = c.y
    · rw [if_pos ⟨he.1, he.2, by rw [g1]; rfl⟩]
      exact ⟨c, rfl, h3 d hd (by unfold Cell.pos; rw [he.1, he.2])⟩
    · rw [if_neg (fun q => he ⟨q.1, q.2.1⟩)]
      exact ⟨o2, g3, g4⟩
  · rintro ⟨h1, h2, h3⟩
    have key : ∀ d ∈ cs, f.Free d ∧ (c.pos = d.pos → c.nodeId = none) := by
      intro d hd
      obtain ⟨o, g1, g2⟩ := h2 d hd
      unfold Array2.write at g1
      by_cases he : d.x = c.x ∧ d.y = c.y
      · obtain ⟨old, k1, k2⟩ := h1
        rw [if_pos ⟨he.1, he.2, by rw [k1]; rfl⟩] at g1
        cases g1
        exact ⟨⟨old, by rw [he.1, he.2]; exact k1, k2⟩, fun _ => g2⟩
      · rw [if_neg (fun q => he ⟨q.1, q.2.1⟩)] at g1
        refine ⟨⟨o, g1, g2⟩, fun q => ?_⟩
        unfold Cell.pos at q
        simp only [Prod.mk.injEq] at q
        exact absurd ⟨q.1.symm, q.2.symm⟩ he
    exact ⟨⟨h1, fun d hd => (key d hd).1⟩, fun d hd => (key d hd).2, h3⟩

theorem loop_spec (cs : List (Cell N)) (hb : ∀ c ∈ cs, c.InBytes) : ∀ m : Matrix N, m.Reachable →
    (m.placeLoop cs).1.Reachable ∧
    ((m.placeLoop cs).2 = none → Fit m.get cs ∧ (m.placeLoop cs).1.get = overlay m.get cs) ∧
    (∀ e, (m.placeLoop cs).2 = some e → ¬ Fit m.get cs ∧ Stuck m.get cs (m.placeLoop cs).1.get e) := by
  induction cs with
  | nil =>
    intro m hr
    refine ⟨hr, fun _ => ⟨⟨by simp, List.Pairwise.nil⟩, rfl⟩, fun e h => by cases h⟩
  | cons c cs ih =>
    intro m hr
    have hc := hb c (List.mem_cons_self ..)
    have hcs : ∀ d ∈ cs, d.InBytes := fun d hd => hb d (List.mem_cons_of_mem _ hd)
    have hpos : c.pos.1 = c.x ∧ c.pos.2 = c.y := ⟨rfl, rfl⟩
    unfold Matrix.placeLoop
    rw [hpos.1, hpos.2]
    cases hg : m.get c.x c.y with
    | none =>
      refine ⟨hr, fun h => (by cases h), fun e h => ?_⟩
      simp only [Option.some.injEq] at h
      subst h
      refine ⟨fun hf => ?_, [], c, cs, rfl, rfl, .inl ⟨rfl, hg⟩⟩
      obtain ⟨old, h1, -⟩ := hf.1 c (List.mem_cons_self ..)
      rw [hg] at h1; cases h1
    | some ex =>
      simp only
      by_cases he : ex.nodeId = none
      · have : ¬ (¬ (ex.isEmpty = true)) := by simp [Cell.isEmpty, he]
        rw [if_neg this]
        obtain ⟨i1, i2, i3⟩ := ih hcs (m.place c.x c.y c) (reach_place hr _ _ _)
        rw [place_overlay m hr c hc] at i2 i3
        refine ⟨i1, fun h => ?_, fun e h => ?_⟩
        · obtain ⟨j1, j2⟩ := i2 h
          exact ⟨(fit_cons _ _ _).2 ⟨⟨ex, hg, he⟩, j1⟩, j2⟩
        · obtain ⟨j1, pre, d, post, j2, j3, j4⟩ := i3 e h
          exact ⟨fun hf => j1 ((fit_cons _ _ _).1 hf).2, c :: pre, d, post, by rw [j2]; rfl, j3, j4⟩
      · have : ¬ (ex.isEmpty = true) := by
          unfold Cell.isEmpty; rw [Option.isNone_iff_eq_none]; exact he
        rw [if_pos this]
        refine ⟨hr, fun h => (by cases h), fun e h => ?_⟩
        simp only [Option.some.injEq] at h
        subst h
        refine ⟨fun hf => ?_, [], c, cs, rfl, rfl, .inr ⟨ex, rfl, hg, he⟩⟩
        obtain ⟨old, h1, h2⟩ := hf.1 c (List.mem_cons_self ..)
        rw [hg] at h1; cases h1; exact he h2

theorem wire_same {m m' : Matrix N} (h : m'.get = m.get) (p : Pos) (d : CellDir) (e : Edge N) : m'.Wire p d e ↔ m.Wire p d e := by
  unfold Matrix.Wire; rw [h]

theorem fed_same {m m' : Matrix N} (h : m'.get = m.get) : m'.InputFedTwice ↔ m.InputFedTwice := by
  unfold Matrix.InputFedTwice; simp only [wire_same h]

theorem loop_same {m m' : Matrix N} (h : m'.get = m.get) : m'.HasLoop ↔ m.HasLoop := by
  have : m'.Leads = m.Leads := by
    funext a b; unfold Matrix.Leads; simp only [wire_same h]
  unfold Matrix.HasLoop; rw [this]

/-- **C140** What `place_multiple` returns. Either some cell does not fit: then the error names the first such
cell's trouble (its place is outside of the grid, or the node that is there already). Or all cells fit and stand in
the grid, and the answer is that of `check` for the new grid: success exactly if no input is fed twice and there is
no loop. -/
theorem multiple_exact (m m' : Matrix N) (hr : m.Reachable) (cs : List (Cell N)) (hb : ∀ c ∈ cs, c.InBytes)
    (r : Option (MatrixError N)) (h : m.placeMultiple cs = some (m', r)) :
    (¬ Fit m.get cs ∧ ∃ e, r = some e ∧ Stuck m.get cs m'.get e) ∨
    (Fit m.get cs ∧ m'.get = overlay m.get cs ∧ (r = none ↔ ¬ m'.InputFedTwice ∧ ¬ m'.HasLoop) ∧
      ((∃ o1 o2, r = some (.duplicatedInput o1 o2)) ↔ m'.InputFedTwice) ∧
      (r = some .cycleDetected ↔ ¬ m'.InputFedTwice ∧ m'.HasLoop)) := by
  obtain ⟨l1, l2, l3⟩ := loop_spec cs hb m hr
  unfold Matrix.placeMultiple at h
  generalize m.placeLoop cs = q at h l1 l2 l3
  obtain ⟨m1, e⟩ := q
  cases e with
  | some e =>
    simp only [Option.some.injEq, Prod.mk.injEq] at h
    obtain ⟨rfl, rfl⟩ := h
    obtain ⟨j1, j2⟩ := l3 e rfl
    exact .inl ⟨j1, e, rfl, j2⟩
  | none =>
    obtain ⟨j1, j2⟩ := l2 rfl
    simp only at h j2 l1
    have hcap := capacity_of_check (wfs_reachable l1).toWF (by rw [h]; simp)
    obtain ⟨m2, r2, g1, g2, g3, g4, g5⟩ := check_exact m1 l1 hcap
    rw [h] at g1
    simp only [Option.some.injEq, Prod.mk.injEq] at g1
    obtain ⟨rfl, rfl⟩ := g1
    have hs : m'.get = m1.get := by funext x y; exact g2 x y
    rw [fed_same hs, loop_same hs]
    exact .inr ⟨j1, hs.trans j2, g3, g4, g5⟩

/-- **C140** `place_multiple` inside of `change_matrix_err`, as documented: an error leaves every cell as it was. -/
theorem multiple_restored (m m' : Matrix N) (hr : m.Reachable) (cs : List (Cell N)) (e : MatrixError N)
    (h : m.changeMatrixErr [.placeMultiple cs] = some (m', some e)) : SameCells m m' :=
  change_err_rejected_rolls_back_partial m m' hr _ (by simp [MOp.KeepsBackup]) e h

/-- A cell with a node at (0, 0), and one that wants a place outside of a 2x2 grid. -/
def firstFits : List (Cell Nat) := [Cell.emptyAt (some 3) 0 0, Cell.emptyAt (some 4) 5 0]

/-- **C140 (negation)** "Restores the matrix to the previous state if placing fails" (`src/matrix.rs:743`) is not
true of `place_multiple` itself: the cells before the one that failed stay. -/
theorem multiple_alone_not_restored : ∃ m', (Matrix.new 2 2).placeMultiple firstFits = some (m', some .posOutOfRange) ∧
    ¬ SameCells (Matrix.new 2 2) m' := by
  have h : ((Matrix.new 2 2).placeMultiple firstFits).map (fun r => (r.2, (r.1.get 0 0).map (fun c => c.nodeId))) =
      some (some .posOutOfRange, some (some 3)) := by decide +kernel
  simp only [Option.map_eq_some_iff] at h
  obtain ⟨⟨m', r⟩, h1, h2⟩ := h
  simp only [Prod.mk.injEq] at h2
  refine ⟨m', by rw [h1, h2.1], fun hs => ?_⟩
  have h3 := h2.2
  rw [hs 0 0] at h3
  exact absurd h3 (by decide +kernel)

/-- Two cells wired together. -/
def pair : List (Cell Nat) :=
  [{ Cell.emptyAt (some 3) 0 0 with out3 := some 0 }, { Cell.emptyAt (some 4) 0 1 with in1 := some 2 }]

/-- The cases of `multiple_exact` all occur: accepted, outside, taken, and a loop. -/
example : (∀ c ∈ pair, c.InBytes) ∧ Fit (Matrix.new 2 2).get pair ∧
    ((Matrix.new 2 2).placeMultiple pair).map (fun r => (r.2, r.1.get 0 1)) = some (none, pair[1]?) ∧
    (smallGrid.placeMultiple [Cell.emptyAt (some 8) 1 1]).map (fun r => r.2) =
      some (some (.nonEmptyCell { plainCell with x := 1, y := 1 })) ∧
    ((Matrix.new 2 2).placeMultiple [{ selfLoopCell with y := 0 }, { selfLoopCell with y := 1 }]).map (fun r => r.2) =
      some (some .cycleDetected) := by
  refine ⟨?_, ⟨?_, ?_⟩, by decide +kernel, by decide +kernel, by decide +kernel⟩
  · intro c hc
    simp only [pair, List.mem_cons, List.not_mem_nil, or_false] at hc
    rcases hc with rfl | rfl <;> exact ⟨by decide, by decide⟩
  · intro c hc
    simp only [pair, List.mem_cons, List.not_mem_nil, or_false] at hc
    rcases hc with rfl | rfl <;> exact ⟨Cell.empty none, by decide +kernel, rfl⟩
  · simp [pair, Cell.pos, Cell.emptyAt]

end HexoDSP.CellEditProps
