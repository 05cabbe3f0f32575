import Verif.Lemmas.MatrixOps
import Verif.Lemmas.MatrixCap
/-!
# Properties of the hexagonal matrix (C07, C08, C09, C10, C49)

`Matrix.Reachable m` says that `m` results from some history of API calls on a fresh matrix of
some size. The vocabulary (`Wire`, `InputFedTwice`, `HasLoop`, ..) is in `Verif/Spec/Matrix.lean`.
-/

set_option linter.unusedSectionVars false
namespace HexoDSP.MatrixProps
open HexoDSP.Matrix GraphOrdering
open CellDir (Pos)

variable {N : Type} [DecidableEq N]

/-! ## C07: placing and getting -/

/-- **C07** `get` answers exactly on the grid. -/
theorem get_answers_iff (m : Matrix N) (hr : m.Reachable) (x y : Nat) :
    (m.get x y).isSome ↔ x < m.w ∧ y < m.h := by
  constructor
  · intro h
    obtain ⟨c, hc⟩ := Option.isSome_iff_exists.1 h
    exact get_some_in hc
  · rintro ⟨hx, hy⟩
    obtain ⟨c, h1, _⟩ := get_in (wfs_reachable hr).toWF hx hy
    simp [h1]

/-- **C07** `place` writes exactly the addressed cell, which then carries its position (as `u8`),
and is ignored outside the grid. -/
theorem place_writes_one_cell (m : Matrix N) (hr : m.Reachable) (x y : Nat) (c : Cell N) (i j : Nat) :
    (m.place x y c).get i j = Array2.write m.get x y { c with x := x % 256, y := y % 256 } i j := by
  have hm := (wfs_reachable hr).toWF
  unfold Array2.write
  by_cases hin : x < m.w ∧ y < m.h
  · obtain ⟨old, h1, h2⟩ := get_in hm hin.1 hin.2
    rw [h1]
    simp only [Option.isSome_some, and_true]
    have hpl : m.place x y c = { m with cells := m.cells.set (x * m.h + y) { c with x := x % 256, y := y % 256 } } := by
      unfold Matrix.place; simp only; rw [if_neg (by omega)]
    rw [hpl]
    unfold Matrix.get
    simp only
    by_cases hij : i ≥ m.w ∨ j ≥ m.h
    · rw [if_pos hij, if_neg (by omega), if_pos hij]
    · rw [if_neg hij, if_neg hij, List.getElem?_set]
      by_cases he : x * m.h + y = i * m.h + j
      · obtain ⟨rfl, rfl⟩ := idx_inj hin.2 (by omega) he
        have := idx_lt hin.1 hin.2
        rw [← hm.len] at this
        simp [this]
      · rw [if_neg he, if_neg]
        rintro ⟨rfl, rfl⟩; exact he rfl
  · rw [get_out hin]
    simp only [Option.isSome_none, Bool.false_eq_true, and_false, if_false]
    unfold Matrix.place
    simp only
    rw [if_pos (by omega)]

/-- **C07** Any history of `place` calls behaves like writes into a two dimensional array. -/
theorem place_history (m : Matrix N) (hr : m.Reachable) (ps : List (Nat × Nat × Cell N)) (i j : Nat) :
    (ps.foldl (fun m p => m.place p.1 p.2.1 p.2.2) m).get i j =
      ps.foldl (fun f p => Array2.write f p.1 p.2.1 { p.2.2 with x := p.1 % 256, y := p.2.1 % 256 }) m.get i j := by
  induction ps generalizing m with
  | nil => rfl
  | cons p ps ih =>
    simp only [List.foldl_cons]
    have hr' : (m.place p.1 p.2.1 p.2.2).Reachable := by
      obtain ⟨w, h, ops, ho⟩ := hr
      refine ⟨w, h, ops ++ [.place p.1 p.2.1 p.2.2], ?_⟩
      unfold Matrix.runAll at ho ⊢
      rw [List.foldlM_append, ho]; rfl
    rw [ih _ hr']
    have : (m.place p.1 p.2.1 p.2.2).get = Array2.write m.get p.1 p.2.1 { p.2.2 with x := p.1 % 256, y := p.2.1 % 256 } := by
      funext a b; exact place_writes_one_cell m hr p.1 p.2.1 p.2.2 a b
    rw [this]

/-- **C07** On grids of at most 256 by 256 cells the placed cell reports its true position, and
`get_copy` reports the true position of every cell. -/
theorem positions_true (m : Matrix N) (hr : m.Reachable) (x y : Nat) (hw : m.w ≤ 256) (hh : m.h ≤ 256)
    (hx : x < m.w) (hy : y < m.h) (c : Cell N) :
    ((m.place x y c).get x y).map Cell.pos = some (x, y) ∧ (m.getCopy x y).map Cell.pos = some (x, y) := by
  obtain ⟨old, h1, h2⟩ := get_in (wfs_reachable hr).toWF hx hy
  constructor
  · rw [place_writes_one_cell m hr]
    simp only [Array2.write, h1, Option.isSome_some, and_self, if_true, Option.map_some, Cell.pos]
    rw [Nat.mod_eq_of_lt (by omega), Nat.mod_eq_of_lt (by omega)]
  · unfold Matrix.getCopy
    rw [if_neg (by omega), h2]
    simp only [Option.map_some, Cell.pos]
    rw [Nat.mod_eq_of_lt (by omega), Nat.mod_eq_of_lt (by omega)]

/-- **C07 (quirk)** `get` on a cell never placed reports position (0, 0), wherever it is. -/
theorem untouched_cell_reports_origin (w h x y : Nat) (hx : x < w) (hy : y < h) :
    ((Matrix.new w h : Matrix N).get x y).map Cell.pos = some (0, 0) := by
  have := idx_lt hx hy
  unfold Matrix.get Matrix.new
  simp only
  rw [if_neg (by omega), List.getElem?_replicate, if_pos this]
  rfl

/-! ## C10: connections -/

/-- **C10** The connections compiled by `sync` are exactly the wires, each once: they can be listed
together with the cell edge they leave through, no edge of a cell occurs twice, and the listed
triples are exactly the wires of the grid. -/
theorem sync_connections_exact (m : Matrix N) (hr : m.Reachable) (hcap : m.WithinCapacity) :
    ∃ m' r, m.sync = some (m', r) ∧ ∃ ws : List (Pos × CellDir × Edge N),
      m'.edges = ws.map (fun w => w.2.2) ∧ (ws.map (fun w => (w.1, w.2.1))).Nodup ∧
        ∀ p d e, (p, d, e) ∈ ws ↔ m.Wire p d e := by
  obtain ⟨m', r, h1, h2, h3, h4, _⟩ := sync_spec (wfs_reachable hr).toWF hcap
  exact ⟨m', r, h1, allWires m, h4, allWires_nodup m, fun p d e => mem_allWires (p, d, e)⟩

/-- **C10** The same for `check`. -/
theorem check_connections_exact (m : Matrix N) (hr : m.Reachable) (hcap : m.WithinCapacity) :
    ∃ m' r, m.check = some (m', r) ∧ ∃ ws : List (Pos × CellDir × Edge N),
      m'.edges = ws.map (fun w => w.2.2) ∧ (ws.map (fun w => (w.1, w.2.1))).Nodup ∧
        ∀ p d e, (p, d, e) ∈ ws ↔ m.Wire p d e := by
  obtain ⟨m', r, h1, h2, h3, h4, _⟩ := check_spec (wfs_reachable hr).toWF hcap
  exact ⟨m', r, h1, allWires m, h4, allWires_nodup m, fun p d e => mem_allWires (p, d, e)⟩

theorem ofEdge_mem (d : CellDir) (hd : d ≠ .C) : ∃ e ∈ [0, 1, 2, 3, 4, 5], CellDir.ofEdge e = d := by
  cases d <;> first | exact absurd rfl hd | exact ⟨0, by simp, rfl⟩ | exact ⟨1, by simp, rfl⟩ |
    exact ⟨2, by simp, rfl⟩ | exact ⟨3, by simp, rfl⟩ | exact ⟨4, by simp, rfl⟩ | exact ⟨5, by simp, rfl⟩

/-- **C10** `get_connections` lists exactly the pairs of facing assigned ports around a cell (it does not
look at whether the cells carry nodes). -/
theorem get_connections_exact (m : Matrix N) (x y : Nat) (l : List (Connection N))
    (h : m.getConnections x y = some l) (k : Connection N) :
    k ∈ l ↔ ∃ d a b q io oio, d ≠ .C ∧ m.get x y = some a ∧ d.offsPos (x, y) = some q ∧
      m.get q.1 q.2 = some b ∧ a.localPortIdx d = some io ∧ b.localPortIdx d.flip = some oio ∧
      k = ⟨(a, d, io), (b, d.flip, oio, q)⟩ := by
  unfold Matrix.getConnections at h
  simp only [Option.map_eq_some_iff] at h
  obtain ⟨a, ha, rfl⟩ := h
  simp only [List.mem_filterMap]
  constructor
  · rintro ⟨e, he, hk⟩
    unfold Matrix.connectionAt at hk
    split at hk
    · simp at hk
    · rename_i io hio
      split at hk
      · simp at hk
      · rename_i nx ny hoff
        split at hk
        · simp at hk
        · split at hk
          · simp at hk
          · rename_i b hb
            split at hk
            · simp at hk
            · rename_i oio hoio
              simp only [Option.some.injEq] at hk
              refine ⟨CellDir.ofEdge e, a, b, (nx, ny), io, oio, ?_, ha, hoff, hb, hio, hoio, hk.symm⟩
              simp only [List.mem_cons, List.not_mem_nil, or_false] at he
              rcases he with rfl | rfl | rfl | rfl | rfl | rfl <;> decide
  · rintro ⟨d, a', b, q, io, oio, hd, ha', hoff, hb, hio, hoio, rfl⟩
    rw [ha] at ha'; cases ha'
    obtain ⟨e, he, rfl⟩ := ofEdge_mem d hd
    refine ⟨e, he, ?_⟩
    have := get_some_in hb
    unfold Matrix.connectionAt
    simp only [hio, hoff, hb, hoio]
    rw [if_neg (by simpa using this)]

/-! ## C09: check -/

/-- **C09** `check` never changes the grid and accepts exactly the grids without a doubly fed input
and without a loop; a doubly fed input takes precedence. -/
theorem check_exact (m : Matrix N) (hr : m.Reachable) (hcap : m.WithinCapacity) :
    ∃ m' r, m.check = some (m', r) ∧ SameCells m m' ∧
      (r = none ↔ ¬ m.InputFedTwice ∧ ¬ m.HasLoop) ∧
      ((∃ o1 o2, r = some (.duplicatedInput o1 o2)) ↔ m.InputFedTwice) ∧
      (r = some .cycleDetected ↔ ¬ m.InputFedTwice ∧ m.HasLoop) := by
  obtain ⟨m', r, h1, h2, h3, h4, h5⟩ := check_spec (wfs_reachable hr).toWF hcap
  refine ⟨m', r, h1, fun x y => h2.get x y, ?_⟩
  rcases h5 with ⟨hf, e, he, rfl⟩ | ⟨hf, hl, rfl⟩ | ⟨hf, hl, rfl⟩
  · obtain ⟨l, e', rr, o1, _, rfl, _⟩ := (findDuplicate_spec [] _).2 e he
    simp [hf]
  · simp [hf, hl]
  · simp [hf, hl]

/-- **C09** `check` panics exactly if some node leads to more than 64 other nodes. -/
theorem check_panics_iff (m : Matrix N) (hr : m.Reachable) : m.check = none ↔ ¬ m.WithinCapacity := by
  constructor
  · intro h hc
    obtain ⟨m', r, h1, -⟩ := check_exact m hr hc
    rw [h] at h1; cases h1
  · intro hc
    by_contra h
    exact hc (capacity_of_check (wfs_reachable hr).toWF h)

/-- **C09** The error names the outputs of two different wires that feed the same input. -/
theorem duplicate_error_truthful (m m' : Matrix N) (hr : m.Reachable) (o1 o2 : N × Nat)
    (h : m.check = some (m', some (.duplicatedInput o1 o2))) :
    ∃ p d e p' d' e', m.Wire p d e ∧ m.Wire p' d' e' ∧ (p, d) ≠ (p', d') ∧
      e.dst = e'.dst ∧ e.dstInput = e'.dstInput ∧ o1 = (e.src, e.srcOut) ∧ o2 = (e'.src, e'.srcOut) := by
  have hcap := capacity_of_check (wfs_reachable hr).toWF (by rw [h]; simp)
  obtain ⟨m1, r, h1, h2, h3, h4, h5⟩ := check_spec (wfs_reachable hr).toWF hcap
  rw [h] at h1
  simp only [Option.some.injEq, Prod.mk.injEq] at h1
  obtain ⟨rfl, rfl⟩ := h1
  rcases h5 with ⟨hf, e, he, hr⟩ | ⟨_, _, hr⟩ | ⟨_, _, hr⟩
  · obtain ⟨l, e', rr, o, hl, h6, h7⟩ := (findDuplicate_spec [] _).2 e he
    rcases h7 with h7 | ⟨e1, h7, h8, h9⟩
    · simp at h7
    · simp only [Option.some.injEq] at hr
      rw [← hr] at h6
      simp only [MatrixError.duplicatedInput.injEq] at h6
      obtain ⟨rfl, rfl⟩ := h6
      obtain ⟨l1, l2, hs, hl1, hl2⟩ := List.map_eq_append_iff.1 hl
      obtain ⟨w2, l3, rfl, hw2, _⟩ := List.map_eq_cons_iff.1 hl2
      rw [← hl1] at h7
      obtain ⟨w1, hw1, hw1e⟩ := List.mem_map.1 h7
      have hnd := allWires_nodup m
      rw [hs, List.map_append, List.nodup_append] at hnd
      have hne := hnd.2.2 _ (List.mem_map.2 ⟨w1, hw1, rfl⟩) _ (List.mem_map.2 ⟨w2, by simp, rfl⟩)
      simp only [Prod.mk.injEq] at h8
      refine ⟨w1.1, w1.2.1, w1.2.2, w2.1, w2.2.1, w2.2.2, (mem_allWires w1).1 (by rw [hs]; simp [hw1]),
        (mem_allWires w2).1 (by rw [hs]; simp), hne, ?_, ?_, ?_, ?_⟩
      · rw [hw1e, hw2, h8.1]
      · rw [hw1e, hw2, h8.2]
      · rw [hw1e, h9]
      · rw [hw2]
  · simp at hr
  · simp at hr

/-- **C09** The capacity premise holds whenever every node sits in at most one cell. -/
theorem placed_once_within_capacity (m : Matrix N) (h : m.NodesPlacedOnce) : m.WithinCapacity := by
  intro a l hnd hl
  classical
  have hfun : ∀ (d : CellDir) (b b' : N), (∃ p e, m.Wire p d e ∧ e.src = a ∧ e.dst = b) →
      (∃ p e, m.Wire p d e ∧ e.src = a ∧ e.dst = b') → b = b' := by
    rintro d b b' ⟨p, e, h1, h2, rfl⟩ ⟨p', e', h3, h4, rfl⟩
    have hp : p = p' := by
      obtain ⟨_, _, c, _, _, g1, _, g2, _⟩ := h1
      obtain ⟨_, _, c', _, _, g1', _, g2', _⟩ := h3
      exact h p p' c c' a g1 g1' (by rw [g2, h2]) (by rw [g2', h4])
    subst hp
    rw [wire_unique h1 h3]
  let S := outDirs.filterMap (fun d =>
    if hx : ∃ b, ∃ p e, m.Wire p d e ∧ e.src = a ∧ e.dst = b then some (Classical.choose hx) else none)
  have hsub : l ⊆ S := by
    intro b hb
    obtain ⟨p, d, e, h1, h2, h3⟩ := hl b hb
    have hx : ∃ b, ∃ p e, m.Wire p d e ∧ e.src = a ∧ e.dst = b := ⟨b, p, e, h1, h2, h3⟩
    refine List.mem_filterMap.2 ⟨d, h1.1, ?_⟩
    rw [dif_pos hx]
    exact congrArg some (hfun d _ _ (Classical.choose_spec hx) ⟨p, e, h1, h2, h3⟩)
  have h1 := List.Nodup.length_le_of_subset hnd hsub
  have h2 : S.length ≤ outDirs.length := List.length_filterMap_le _ _
  have h3 : outDirs.length = 3 := rfl
  omega

/-- **C09, C04** `sync` accepts exactly the loop free grids; the execution order it uses contains
every placed node exactly once, and every wire goes forward in it. -/
theorem sync_exact (m : Matrix N) (hr : m.Reachable) (hcap : m.WithinCapacity) :
    ∃ m' r, m.sync = some (m', r) ∧ SameCells m m' ∧
      ((m.HasLoop ∧ r = .error .cycleDetected ∧ m'.genCounter = m.genCounter) ∨
       (¬ m.HasLoop ∧ m'.genCounter = m.genCounter + 1 ∧ ∃ order, r = .ok order ∧ order.Nodup ∧
        (∀ a, a ∈ order ↔ ∃ x y c, m.get x y = some c ∧ c.nodeId = some a) ∧
        ∀ a b, m.Leads a b → Before order a b)) := by
  obtain ⟨m', r, h1, h2, _, _, h5⟩ := sync_spec (wfs_reachable hr).toWF hcap
  exact ⟨m', r, h1, fun x y => h2.get x y, h5⟩

/-! ## C08: rejected changes -/

/-- **C09** `sync` of the grid panics exactly if some node leads to more than 64 other nodes. -/
theorem sync_panics_iff (m : Matrix N) (hr : m.Reachable) : m.sync = none ↔ ¬ m.WithinCapacity := by
  constructor
  · intro h hc
    obtain ⟨m', r, h1, -⟩ := sync_exact m hr hc
    rw [h] at h1; cases h1
  · intro hc
    by_contra h
    exact hc (capacity_of_sync (wfs_reachable hr).toWF h)

theorem restore_same {m m' : Matrix N} {c : List (Cell N)} (hs : m'.saved = some c) (hc : c = m.cells)
    (hw : m'.w = m.w) (hh : m'.h = m.h) : SameCells m m'.restoreMatrix := by
  intro x y
  unfold Matrix.restoreMatrix Matrix.get
  rw [hs]
  simp [hw, hh, hc]

/-- **C08** A rejected `change_matrix` leaves every cell as it was, for closures that do not call
`clear`, `save_matrix`, `restore_matrix` (or nest another `change_matrix`, which saves). -/
theorem change_rejected_rolls_back_partial (m m' : Matrix N) (hr : m.Reachable) (f : List (MOp N))
    (hf : ∀ op ∈ f, op.KeepsBackup) (e : MatrixError N) (h : m.changeMatrix f = some (m', some e)) :
    SameCells m m' := by
  have hm := wfs_reachable hr
  unfold Matrix.changeMatrix at h
  simp only [Option.bind_eq_some_iff] at h
  obtain ⟨m1, h1, h2⟩ := h
  have hsv : WFS m.saveMatrix := (wfs_step hm (op := .save) (r := none) rfl).1
  obtain ⟨w1, a1, b1, c1⟩ := wfs_runAll hsv h1
  unfold Matrix.checkOrRestore at h2
  simp only [Option.map_eq_some_iff] at h2
  obtain ⟨⟨m2, r⟩, h3, h4⟩ := h2
  obtain ⟨w2, s2, _⟩ := wf_check w1.toWF h3
  cases r with
  | none => simp at h4
  | some e' =>
    simp only [Prod.mk.injEq] at h4
    obtain ⟨rfl, _⟩ := h4
    exact restore_same (by rw [s2.saved, c1 hf]; rfl) rfl (by rw [s2.w, a1]; rfl) (by rw [s2.h, b1]; rfl)

/-- **C08** The same for `change_matrix_err`, whether the closure or the check fails. -/
theorem change_err_rejected_rolls_back_partial (m m' : Matrix N) (hr : m.Reachable) (f : List (MOp N))
    (hf : ∀ op ∈ f, op.KeepsBackup) (e : MatrixError N) (h : m.changeMatrixErr f = some (m', some e)) :
    SameCells m m' := by
  have hm := wfs_reachable hr
  have hsv : WFS m.saveMatrix := (wfs_step hm (op := .save) (r := none) rfl).1
  unfold Matrix.changeMatrixErr at h
  split at h
  · simp at h
  · rename_i m1 e' h1
    obtain ⟨w1, a1, b1, c1⟩ := wfs_runErr hsv h1
    simp only [Option.some.injEq, Prod.mk.injEq] at h
    obtain ⟨rfl, _⟩ := h
    exact restore_same (by rw [c1 hf]; rfl) rfl (by rw [a1]; rfl) (by rw [b1]; rfl)
  · rename_i m1 h1
    obtain ⟨w1, a1, b1, c1⟩ := wfs_runErr hsv h1
    unfold Matrix.checkOrRestore at h
    simp only [Option.map_eq_some_iff] at h
    obtain ⟨⟨m2, r⟩, h3, h4⟩ := h
    obtain ⟨w2, s2, _⟩ := wf_check w1.toWF h3
    cases r with
    | none => simp at h4
    | some e' =>
      simp only [Prod.mk.injEq] at h4
      obtain ⟨rfl, _⟩ := h4
      exact restore_same (by rw [s2.saved, c1 hf]; rfl) rfl (by rw [s2.w, a1]; rfl) (by rw [s2.h, b1]; rfl)

theorem saved_reachable {m : Matrix N} (hr : m.Reachable) {m1 : Matrix N} {f : List (MOp N)}
    (h : m.saveMatrix.runAll f = some m1) : m1.Reachable := by
  obtain ⟨w, h', ops, ho⟩ := hr
  refine ⟨w, h', ops ++ .save :: f, ?_⟩
  unfold Matrix.runAll at ho h ⊢
  rw [List.foldlM_append, ho]
  simp only [Option.bind_eq_bind, Option.bind_some, List.foldlM_cons, Matrix.step, Option.map_some]
  exact h

/-- **C08** An accepted `change_matrix` shows exactly the cells the closure produced, and they are
legal: no input fed twice, no loop. -/
theorem change_accepted (m m' : Matrix N) (hr : m.Reachable) (f : List (MOp N))
    (h : m.changeMatrix f = some (m', none)) :
    ∃ m1, m.saveMatrix.runAll f = some m1 ∧ SameCells m1 m' ∧ ¬ m1.InputFedTwice ∧ ¬ m1.HasLoop := by
  unfold Matrix.changeMatrix at h
  simp only [Option.bind_eq_some_iff] at h
  obtain ⟨m1, h1, h2⟩ := h
  have hr1 := saved_reachable hr h1
  refine ⟨m1, h1, ?_⟩
  unfold Matrix.checkOrRestore at h2
  simp only [Option.map_eq_some_iff] at h2
  obtain ⟨⟨m2, r⟩, h3, h4⟩ := h2
  obtain ⟨w2, s2, _⟩ := wf_check (wfs_reachable hr1).toWF h3
  cases r with
  | some e => simp at h4
  | none =>
    simp only [Prod.mk.injEq, and_true] at h4
    subst h4
    refine ⟨fun x y => s2.get x y, ?_⟩
    have hcap := capacity_of_check (wfs_reachable hr1).toWF (by rw [h3]; simp)
    obtain ⟨m3, r3, g1, _, g2, _⟩ := check_exact m1 hr1 hcap
    rw [h3] at g1
    simp only [Option.some.injEq, Prod.mk.injEq] at g1
    exact g2.1 g1.2.symm

/-- **C08** An error of `change_matrix` means that the closure's grid was illegal. -/
theorem change_rejects_only_illegal (m m' : Matrix N) (hr : m.Reachable) (f : List (MOp N)) (e : MatrixError N)
    (h : m.changeMatrix f = some (m', some e)) :
    ∃ m1, m.saveMatrix.runAll f = some m1 ∧ (m1.InputFedTwice ∨ m1.HasLoop) := by
  unfold Matrix.changeMatrix at h
  simp only [Option.bind_eq_some_iff] at h
  obtain ⟨m1, h1, h2⟩ := h
  have hr1 := saved_reachable hr h1
  refine ⟨m1, h1, ?_⟩
  unfold Matrix.checkOrRestore at h2
  simp only [Option.map_eq_some_iff] at h2
  obtain ⟨⟨m2, r⟩, h3, h4⟩ := h2
  have hcap := capacity_of_check (wfs_reachable hr1).toWF (by rw [h3]; simp)
  obtain ⟨m3, r3, g1, _, g2, _⟩ := check_exact m1 hr1 hcap
  rw [h3] at g1
  simp only [Option.some.injEq, Prod.mk.injEq] at g1
  obtain ⟨rfl, rfl⟩ := g1
  cases r with
  | none => simp at h4
  | some e' =>
    apply Classical.byContradiction
    intro hc
    rw [not_or] at hc
    have := g2.2 hc
    simp at this

/-! Concrete cases. Node ids are natural numbers. -/

/-- A cell whose bottom output feeds the next cell, and which listens to the cell above. -/
def selfLoopCell : Cell Nat := { Cell.empty (some 7) with in1 := some 0, out3 := some 0 }

/-- A legal cell. -/
def plainCell : Cell Nat := { Cell.empty (some 3) with out3 := some 0 }

/-- A 2x2 grid with a legal cell at (1, 1). -/
def smallGrid : Matrix Nat := (Matrix.new 2 2).place 1 1 plainCell

/-- Placing the same node above itself, output into input: a loop. -/
def badChange : List (MOp Nat) := [.place 0 0 selfLoopCell, .place 0 1 selfLoopCell, .place 1 1 selfLoopCell]

/-- **C08 (negation)** If the closure calls `clear` first, a rejected change is not rolled back: the
new cells stay. -/
theorem change_with_clear_not_rolled_back :
    ∃ m', smallGrid.changeMatrix (.clear :: badChange) = some (m', some .cycleDetected) ∧
      ¬ SameCells smallGrid m' := by
  have h : (smallGrid.changeMatrix (.clear :: badChange)).map (fun r => (r.2, (r.1.get 0 0).map (fun c => c.nodeId))) =
      some (some .cycleDetected, some (some 7)) := by decide +kernel
  simp only [Option.map_eq_some_iff] at h
  obtain ⟨⟨m', r⟩, h1, h2⟩ := h
  simp only [Prod.mk.injEq] at h2
  refine ⟨m', by rw [h1, h2.1], ?_⟩
  intro hs
  have := h2.2
  rw [hs 0 0] at this
  exact absurd this (by decide +kernel)

/-- **C08 (negation)** A failed change leaves the connections of the rejected grid behind (they decide
`param_input_is_used`), although the cells are rolled back. -/
theorem rejected_change_leaves_connections :
    ∃ m', smallGrid.changeMatrix badChange = some (m', some .cycleDetected) ∧ SameCells smallGrid m' ∧
      m'.edges = [⟨7, 0, 7, 0⟩] ∧ smallGrid.edges = [] := by
  have h : (smallGrid.changeMatrix badChange).map (fun r => (r.2, r.1.edges)) =
      some (some .cycleDetected, [⟨7, 0, 7, 0⟩]) := by decide +kernel
  simp only [Option.map_eq_some_iff] at h
  obtain ⟨⟨m', r⟩, h1, h2⟩ := h
  simp only [Prod.mk.injEq] at h2
  obtain ⟨rfl, h2⟩ := h2
  refine ⟨m', h1, ?_, h2, rfl⟩
  refine change_rejected_rolls_back_partial smallGrid m' ⟨2, 2, [.place 1 1 plainCell], rfl⟩ badChange ?_ _ h1
  intro op hop
  simp only [badChange, List.mem_cons, List.not_mem_nil, or_false] at hop
  rcases hop with rfl | rfl | rfl <;> trivial

/-- The node 0 in every row of column 0 feeds 65 different nodes in column 1. -/
def crowded : List (MOp Nat) :=
  (List.range 65).map (fun i => MOp.place 0 i { Cell.empty (some 0) with out2 := some 0 }) ++
  (List.range 65).map (fun i => MOp.place 1 i { Cell.empty (some (i + 1)) with in2 := some 0 })

/-- **C09 (capacity)** One node placed in many cells can feed more than 64 nodes; then `check` panics. -/
theorem check_panics_over_capacity :
    ((Matrix.new 2 65).runAll crowded).bind (fun m => m.check) |>.isNone := by
  decide +kernel

/-- A wired pair: node 1 above node 2. -/
def wiredPair : Matrix Nat :=
  ((Matrix.new 3 3).place 1 0 { Cell.empty (some 1) with out3 := some 0 }).place 1 1
    { Cell.empty (some 2) with in1 := some 4 }

/-- Non-vacuity: a reachable grid with a wire that meets all premises. -/
example : wiredPair.Reachable ∧ wiredPair.Wire (1, 0) .B ⟨1, 0, 2, 4⟩ ∧
    (wiredPair.check).map (fun r => (r.2, r.1.edges)) = some (none, [⟨1, 0, 2, 4⟩]) :=
  ⟨⟨3, 3, [.place 1 0 { Cell.empty (some 1) with out3 := some 0 }, .place 1 1 { Cell.empty (some 2) with in1 := some 4 }], rfl⟩,
   ⟨by simp [outDirs], (1, 1), _, _, rfl, rfl, rfl, rfl, rfl, rfl, rfl⟩, by decide +kernel⟩

/-- The pair's nodes are placed once, hence it is within capacity. -/
example : wiredPair.WithinCapacity := by
  apply placed_once_within_capacity
  intro p q a b n hp hq ha hb
  obtain ⟨x, y⟩ := p
  obtain ⟨u, v⟩ := q
  have h1 := get_some_in hp
  have h2 := get_some_in hq
  have hw : wiredPair.w = 3 := rfl
  have hh : wiredPair.h = 3 := rfl
  simp only [hw, hh] at h1 h2
  have hx : x = 0 ∨ x = 1 ∨ x = 2 := by omega
  have hy : y = 0 ∨ y = 1 ∨ y = 2 := by omega
  have hu : u = 0 ∨ u = 1 ∨ u = 2 := by omega
  have hv : v = 0 ∨ v = 1 ∨ v = 2 := by omega
  rcases hx with rfl | rfl | rfl <;> rcases hy with rfl | rfl | rfl <;> cases hp <;>
    simp [Cell.empty, Cell.emptyAt] at ha <;> subst ha <;>
    rcases hu with rfl | rfl | rfl <;> rcases hv with rfl | rfl | rfl <;> cases hq <;>
    simp [Cell.empty, Cell.emptyAt] at hb <;> rfl

/-! ## C49: searching for free neighbours -/

theorem mem_dirOptions (kind d : CellDir) : d ∈ dirOptions kind ↔ Wanted kind d := by
  unfold Wanted; revert kind d; intro kind d
  cases kind <;> cases d <;> decide

theorem free_iff (m : Matrix N) (pos : Pos) :
    ((m.get pos.1 pos.2).map Cell.isEmpty).getD false = true ↔ ∃ n, m.get pos.1 pos.2 = some n ∧ n.nodeId = none := by
  cases m.get pos.1 pos.2 with
  | none => simp
  | some n => simp [Cell.isEmpty]

/-- **C49** `find_all_adjacent_free` returns exactly the free neighbours of the wanted kind. -/
theorem find_all_exact (m : Matrix N) (c : Cell N) (kind d : CellDir) (pos : Pos) :
    (d, pos) ∈ c.findAllAdjacentFree m kind ↔ Wanted kind d ∧ FreeNeighbour m c d pos := by
  unfold Cell.findAllAdjacentFree FreeNeighbour
  simp only [List.mem_filterMap]
  constructor
  · rintro ⟨d', hd, h⟩
    split at h
    · simp at h
    · rename_i pos' hp
      split at h
      · rename_i hf
        simp only [Option.some.injEq, Prod.mk.injEq] at h
        obtain ⟨rfl, rfl⟩ := h
        exact ⟨(mem_dirOptions _ _).1 hd, hp, (free_iff m _).1 hf⟩
      · simp at h
  · rintro ⟨h1, h2, h3⟩
    refine ⟨d, (mem_dirOptions _ _).2 h1, ?_⟩
    simp only [h2]
    rw [if_pos ((free_iff m pos).2 h3)]

/-- **C49** No direction is reported twice. -/
theorem find_all_nodup (m : Matrix N) (c : Cell N) (kind : CellDir) :
    ((c.findAllAdjacentFree m kind).map (fun r => r.1)).Nodup := by
  have hsub : ∀ l : List CellDir, ((l.filterMap (fun d =>
      match d.offsPos (c.x, c.y) with
      | none => none
      | some pos =>
        if ((m.get pos.1 pos.2).map Cell.isEmpty).getD false then some (d, pos) else none)).map (fun r => r.1)).Sublist l := by
    intro l
    induction l with
    | nil => simp
    | cons d l ih =>
      rw [List.filterMap_cons]
      split
      · exact ih.cons _
      · rename_i r hr
        split at hr
        · simp at hr
        · split at hr
          · simp only [Option.some.injEq] at hr; subst hr; exact ih.cons_cons _
          · simp at hr
  refine (hsub (dirOptions kind)).nodup ?_
  cases kind <;> decide

theorem findFirst_filter (m : Matrix N) (c : Cell N) (kind d : CellDir) :
    d ∈ ((dirOptions kind).filter (fun d =>
      match d.offsPos (c.x, c.y) with
      | none => false
      | some pos => ((m.get pos.1 pos.2).map Cell.isEmpty).getD false)) ↔
      Wanted kind d ∧ ∃ pos, FreeNeighbour m c d pos := by
  rw [List.mem_filter, mem_dirOptions]
  unfold FreeNeighbour
  cases hp : d.offsPos (c.x, c.y) with
  | none => simp
  | some pos => simp only [free_iff, Option.some.injEq, exists_eq_left']

/-- **C49** `find_first_adjacent_free` finds something exactly when there is a free neighbour of the
wanted kind; what it reports is such a neighbour; and if one of them has an assigned port on this
cell, the reported one has, and its port index is reported, otherwise none is. -/
theorem find_first_exact (m : Matrix N) (c : Cell N) (kind : CellDir) :
    (c.findFirstAdjacentFree m kind = none ↔ ∀ d, Wanted kind d → ¬ ∃ pos, FreeNeighbour m c d pos) ∧
    ∀ d port, c.findFirstAdjacentFree m kind = some (d, port) →
      Wanted kind d ∧ (∃ pos, FreeNeighbour m c d pos) ∧ port = c.localPortIdx d ∧
      ((∃ d' pos, Wanted kind d' ∧ FreeNeighbour m c d' pos ∧ (c.localPortIdx d').isSome) → port.isSome) := by
  have hset : ∀ d, c.hasDirSet d = (c.localPortIdx d).isSome := by intro d; cases d <;> rfl
  have hmem := findFirst_filter m c kind
  unfold Cell.findFirstAdjacentFree
  simp only
  generalize ((dirOptions kind).filter (fun d =>
      match d.offsPos (c.x, c.y) with
      | none => false
      | some pos => ((m.get pos.1 pos.2).map Cell.isEmpty).getD false)) = free at hmem ⊢
  cases hf : free.find? (fun d => c.hasDirSet d) with
  | some d0 =>
    have h1 := List.mem_of_find?_eq_some hf
    have h2 := List.find?_some hf
    simp only [hset] at h2
    constructor
    · simp only [reduceCtorEq, false_iff]
      intro hn
      exact hn d0 ((hmem d0).1 h1).1 ((hmem d0).1 h1).2
    · intro d port h
      simp only [Option.some.injEq, Prod.mk.injEq] at h
      obtain ⟨rfl, rfl⟩ := h
      exact ⟨((hmem d0).1 h1).1, ((hmem d0).1 h1).2, rfl, fun _ => h2⟩
  | none =>
    rw [List.find?_eq_none] at hf
    simp only [hset] at hf
    cases free with
    | nil =>
      constructor
      · simp only [true_iff]
        intro d hw hp
        have := (hmem d).2 ⟨hw, hp⟩
        simp at this
      · intro d port h; simp at h
    | cons d0 rest =>
      constructor
      · simp only [reduceCtorEq, false_iff]
        intro hn
        have h0 := (hmem d0).1 (by simp)
        exact hn d0 h0.1 h0.2
      · intro d port h
        simp only [Option.some.injEq, Prod.mk.injEq] at h
        obtain ⟨rfl, rfl⟩ := h
        have h0 := (hmem d0).1 (by simp)
        have hno : c.localPortIdx d0 = none := by simpa using hf d0 (by simp)
        refine ⟨h0.1, h0.2, hno.symm, ?_⟩
        rintro ⟨d', pos, hw, hn, hs⟩
        exact absurd hs (by simpa using hf d' ((hmem d').2 ⟨hw, pos, hn⟩))

/-- **C49** `is_port_dir_connected` reports a position exactly when both facing ports are assigned, and
`find_unconnected_ports` lists exactly the wanted edges for which this is not so. -/
theorem unconnected_exact (m : Matrix N) (c : Cell N) (kind d : CellDir) :
    (∀ pos, c.isPortDirConnected m d = some pos ↔
      (c.localPortIdx d).isSome ∧ d.offsPos (c.x, c.y) = some pos ∧
        ∃ n, m.get pos.1 pos.2 = some n ∧ (n.localPortIdx d.flip).isSome) ∧
    (d ∈ c.findUnconnectedPorts m kind ↔ Wanted kind d ∧ c.isPortDirConnected m d = none) := by
  have hset : ∀ (c : Cell N) d, c.hasDirSet d = (c.localPortIdx d).isSome := by intro c d; cases d <;> rfl
  constructor
  · intro pos
    unfold Cell.isPortDirConnected
    rw [hset]
    cases h : (c.localPortIdx d).isSome with
    | false => simp
    | true =>
      simp only [if_true, true_and]
      cases ho : d.offsPos (c.x, c.y) with
      | none => simp
      | some q =>
        simp only [Option.some.injEq]
        cases hg : m.get q.1 q.2 with
        | none =>
          simp only [reduceCtorEq, false_iff]
          rintro ⟨rfl, n, hn, _⟩; rw [hg] at hn; simp at hn
        | some n =>
          simp only [hset]
          constructor
          · intro h
            split at h
            · simp only [Option.some.injEq] at h; subst h; exact ⟨rfl, n, hg, by assumption⟩
            · simp at h
          · rintro ⟨rfl, n', hn', hs⟩
            rw [hg] at hn'; cases hn'
            rw [if_pos hs]
  · unfold Cell.findUnconnectedPorts
    rw [List.mem_filter, mem_dirOptions, Option.isNone_iff_eq_none]

/-- Non-vacuity: the node at (1, 0) of the pair has a taken neighbour below and free ones beside it. -/
example : ((wiredPair.getCopy 1 0).map (fun c => c.findAllAdjacentFree wiredPair .B)) =
    some [(.TR, (2, 0)), (.BR, (2, 1))] ∧
    ((wiredPair.getCopy 1 0).map (fun c => c.findFirstAdjacentFree wiredPair .T)) = some (some (.TL, none)) := by
  decide +kernel

end HexoDSP.MatrixProps
