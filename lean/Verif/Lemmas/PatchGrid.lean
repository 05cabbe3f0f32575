import Verif.Lemmas.MatrixCap
import Verif.Spec.Patch
/-! The grid of the matrix: what is in the cells, and how cells are saved and loaded. -/

set_option linter.unusedSectionVars false

namespace HexoDSP.Patch
open HexoDSP.Matrix HexoDSP.Engine

variable {K : Type} [DecidableEq K]

/-- The contents of a cell fit their types, and a cell with a node knows its position. -/
def CellsOk (h : Nat) (cells : List (Cell (NodeId K))) : Prop :=
  ∀ x y c, y < h → cells[x * h + y]? = some c → CellOk c ∧ (c.nodeId ≠ none → c.x = x % 256 ∧ c.y = y % 256)

/-- Invariant of the grid. -/
structure GridOk (m : Matrix (NodeId K)) : Prop where
  wfs : WFS m
  cells : CellsOk m.h m.cells
  saved : ∀ c, m.saved = some c → CellsOk m.h c

theorem cellOk_empty : CellOk (Cell.empty none : Cell (NodeId K)) :=
  ⟨fun n h => by simp [Cell.empty, Cell.emptyAt] at h, fun p hp i hi => by
    simp [Cell.empty, Cell.emptyAt] at hp; subst hp; cases hi⟩

theorem cellOk_pos {c : Cell (NodeId K)} (h : CellOk c) (x y : Nat) : CellOk { c with x := x, y := y } := ⟨h.inst, h.ports⟩

theorem gridOk_same {m m' : Matrix (NodeId K)} (h : GridOk m) (hw : WF m') (hs : SameGrid m m') : GridOk m' :=
  ⟨wfs_of_same h.wfs hw hs, by rw [hs.h, hs.cells]; exact h.cells, by rw [hs.h, hs.saved]; exact h.saved⟩

theorem gridOk_new (w h : Nat) : GridOk (Matrix.new w h : Matrix (NodeId K)) := by
  refine ⟨wfs_new w h, ?_, ?_⟩
  · intro x y c _ hc
    simp only [Matrix.new] at hc
    have := List.mem_of_getElem? hc
    rw [List.mem_replicate] at this
    rw [this.2]
    exact ⟨cellOk_empty, fun hn => absurd rfl hn⟩
  · intro c hc; simp [Matrix.new] at hc

theorem cellsOk_set {h : Nat} {cells : List (Cell (NodeId K))} (hc : CellsOk h cells) {x y : Nat} (hy : y < h) {c : Cell (NodeId K)} (hok : CellOk c) :
    CellsOk h (cells.set (x * h + y) { c with x := x % 256, y := y % 256 }) := by
  intro x' y' c' hy' hget
  by_cases he : x * h + y = x' * h + y'
  · obtain ⟨rfl, rfl⟩ := idx_inj hy hy' he
    rw [List.getElem?_set] at hget
    simp only [if_true] at hget
    split at hget
    · simp only [Option.some.injEq] at hget
      subst hget
      exact ⟨cellOk_pos hok _ _, fun _ => ⟨rfl, rfl⟩⟩
    · cases hget
  · rw [List.getElem?_set_ne he] at hget
    exact hc x' y' c' hy' hget

theorem gridOk_place {m : Matrix (NodeId K)} (h : GridOk m) (x y : Nat) {c : Cell (NodeId K)} (hc : CellOk c) : GridOk (m.place x y c) := by
  refine ⟨wfs_place h.wfs x y c, ?_, ?_⟩
  · unfold Matrix.place
    simp only
    split
    · exact h.cells
    · rename_i hin
      exact cellsOk_set h.cells (by omega) hc
  · obtain ⟨p1, p2, p3, -⟩ := place_wh m x y c
    rw [p3, p2]; exact h.saved

theorem gridOk_placeLoop {m : Matrix (NodeId K)} (h : GridOk m) (cs : List (Cell (NodeId K))) (hcs : ∀ c ∈ cs, CellOk c) :
    GridOk (m.placeLoop cs).1 := by
  induction cs generalizing m with
  | nil => exact h
  | cons c cs ih =>
    unfold Matrix.placeLoop
    split
    · exact h
    · split
      · exact h
      · exact ih (gridOk_place h _ _ (hcs c List.mem_cons_self)) (fun c hc => hcs c (List.mem_cons_of_mem _ hc))

theorem gridOk_placeMultiple {m m' : Matrix (NodeId K)} (h : GridOk m) (cs : List (Cell (NodeId K))) (hcs : ∀ c ∈ cs, CellOk c) {e}
    (he : m.placeMultiple cs = some (m', e)) : GridOk m' := by
  have hl := gridOk_placeLoop h cs hcs
  unfold Matrix.placeMultiple at he
  split at he
  · rename_i m1 e1 hp
    rw [hp] at hl
    simp only [Option.some.injEq, Prod.mk.injEq] at he
    rw [← he.1]; exact hl
  · rename_i m1 hp
    rw [hp] at hl
    obtain ⟨w1, s1, -⟩ := wf_check hl.wfs.toWF he
    exact gridOk_same hl w1 s1

theorem gridOk_save {m : Matrix (NodeId K)} (h : GridOk m) : GridOk m.saveMatrix :=
  ⟨(wfs_step h.wfs (op := .save) (r := none) rfl).1, h.cells, by
    intro c hc; simp [Matrix.saveMatrix] at hc; rw [← hc]; exact h.cells⟩

theorem gridOk_restore {m : Matrix (NodeId K)} (h : GridOk m) : GridOk m.restoreMatrix := by
  refine ⟨(wfs_step h.wfs (op := .restore) (r := none) rfl).1, ?_, ?_⟩
  · unfold Matrix.restoreMatrix; split
    · rename_i c hc; exact h.saved c hc
    · exact h.cells
  · unfold Matrix.restoreMatrix; split
    · intro c hc; simp at hc
    · exact h.saved

theorem gridOk_emptied {m : Matrix (NodeId K)} (h : GridOk m) : GridOk (emptied m) := by
  refine ⟨⟨⟨by simp [emptied, h.wfs.len], h.wfs.graph⟩, by simp [emptied]⟩, ?_, by simp [emptied]⟩
  intro x y c _ hc
  simp only [emptied, List.getElem?_map, Option.map_eq_some_iff] at hc
  obtain ⟨_, _, rfl⟩ := hc
  exact ⟨cellOk_empty, fun hn => absurd rfl hn⟩

theorem gridOk_counter {m : Matrix (NodeId K)} (h : GridOk m) (n : Nat) : GridOk { m with genCounter := n } :=
  ⟨⟨⟨h.wfs.len, h.wfs.graph⟩, h.wfs.savedLen⟩, h.cells, h.saved⟩

theorem cell_at {m : Matrix (NodeId K)} (h : GridOk m) {x y : Nat} {c : Cell (NodeId K)} (hg : m.get x y = some c) :
    CellOk c ∧ (c.nodeId ≠ none → c.x = x % 256 ∧ c.y = y % 256) := by
  obtain ⟨hx, hy⟩ := get_some_in hg
  rw [get_eq_cells hx hy] at hg
  exact h.cells x y c hy hg

theorem emptied_get {m : Matrix (NodeId K)} {x y : Nat} {c : Cell (NodeId K)} (hg : (emptied m).get x y = some c) : c = Cell.empty none := by
  obtain ⟨hx, hy⟩ := get_some_in hg
  rw [get_eq_cells hx hy] at hg
  simp only [emptied, List.getElem?_map, Option.map_eq_some_iff] at hg
  obtain ⟨_, _, rfl⟩ := hg
  rfl

theorem emptied_no_nodes (m : Matrix (NodeId K)) (n : NodeId K) : ¬ OnGrid (emptied m) n := by
  rintro ⟨x, y, c, hg, hn⟩
  rw [emptied_get hg] at hn
  cases hn

theorem mem_cellNodes (m : Matrix (NodeId K)) (n : NodeId K) : n ∈ cellNodes m ↔ OnGrid m n := by
  unfold cellNodes OnGrid
  rw [List.mem_filterMap]
  constructor
  · rintro ⟨p, _, hp⟩
    rw [Option.bind_eq_some_iff] at hp
    obtain ⟨c, h1, h2⟩ := hp
    exact ⟨p.1, p.2, c, h1, h2⟩
  · rintro ⟨x, y, c, h1, h2⟩
    refine ⟨(x, y), (mem_positions _ _ _).2 (get_some_in h1), ?_⟩
    simp [h1, h2]

theorem cellNodes_inst {m : Matrix (NodeId K)} (h : GridOk m) : ∀ n ∈ cellNodes m, n.inst < 256 := by
  intro n hn
  obtain ⟨x, y, c, h1, h2⟩ := (mem_cellNodes m n).1 hn
  exact (cell_at h h1).1.inst n h2

/-! ## Saving and loading cells -/

theorem port_round {p : Option Nat} (h : ∀ i, p = some i → i < 256) : portLoad (portRepr p) = p := by
  cases p with
  | none => rfl
  | some i =>
    have := h i rfl
    have e : portRepr (some i) = (i : Int) := rfl
    rw [e]
    unfold portLoad
    rw [if_neg (by omega)]
    simp only [Option.some.injEq]
    omega

theorem cell_round {c : Cell (NodeId K)} (h : CellOk c) (hx : c.x < 256) (hy : c.y < 256) : cellLoad (cellRepr c) = c := by
  have hp := h.ports
  obtain ⟨n, x, y, o1, o2, o3, i1, i2, i3⟩ := c
  simp only [List.mem_cons, List.not_mem_nil, or_false, forall_eq_or_imp, forall_eq] at hp
  obtain ⟨a1, a2, a3, a4, a5, a6⟩ := hp
  simp only [cellRepr, cellLoad, port_round a1, port_round a2, port_round a3, port_round a4, port_round a5, port_round a6, Cell.mk.injEq, true_and, and_true]
  exact ⟨Nat.mod_eq_of_lt hx, Nat.mod_eq_of_lt hy⟩

theorem port_load (v : Int) : ∀ i, portLoad v = some i → i < 256 := by
  intro i hi
  unfold portLoad at hi
  split at hi
  · cases hi
  · simp only [Option.some.injEq] at hi; omega

theorem cellOk_load {r : CellRepr (NodeId K)} (h : ∀ n, r.nodeId = some n → n.inst < 256) : CellOk (cellLoad r) := by
  refine ⟨h, ?_⟩
  intro p hp i hi
  simp only [cellLoad, List.mem_cons, List.not_mem_nil, or_false] at hp
  rcases hp with rfl | rfl | rfl | rfl | rfl | rfl <;> exact port_load _ i hi

theorem gridOk_load {m : Matrix (NodeId K)} (h : GridOk m) (rs : List (CellRepr (NodeId K))) (hr : ∀ r ∈ rs, ∀ n, r.nodeId = some n → n.inst < 256) :
    GridOk (rs.foldl loadCell m) ∧ (rs.foldl loadCell m).w = m.w ∧ (rs.foldl loadCell m).h = m.h := by
  induction rs generalizing m with
  | nil => exact ⟨h, rfl, rfl⟩
  | cons r rs ih =>
    obtain ⟨p1, p2, -⟩ := place_wh m (cellLoad r).x (cellLoad r).y (cellLoad r)
    obtain ⟨q1, q2, q3⟩ := ih (gridOk_place h (cellLoad r).x (cellLoad r).y (cellOk_load (hr r List.mem_cons_self)))
      (fun r' hr' => hr r' (List.mem_cons_of_mem _ hr'))
    exact ⟨q1, q2.trans p1, q3.trans p2⟩

theorem get_place {m : Matrix (NodeId K)} (hm : WF m) (x y : Nat) (c : Cell (NodeId K)) (i j : Nat) :
    (m.place x y c).get i j = if i = x ∧ j = y ∧ x < m.w ∧ y < m.h then some { c with x := x % 256, y := y % 256 } else m.get i j := by
  unfold Matrix.place
  simp only
  split
  · rename_i hout
    rw [if_neg (by omega)]
  · rename_i hin
    by_cases hij : i < m.w ∧ j < m.h
    · have e1 : m.get i j = m.cells[i * m.h + j]? := get_eq_cells hij.1 hij.2
      have e2 : ∀ cs, Matrix.get { m with cells := cs } i j = cs[i * m.h + j]? := fun cs => get_eq_cells (m := { m with cells := cs }) hij.1 hij.2
      rw [e1, e2]
      by_cases he : i = x ∧ j = y
      · obtain ⟨rfl, rfl⟩ := he
        rw [if_pos ⟨rfl, rfl, by omega, by omega⟩, List.getElem?_set_self]
        rw [hm.len]; exact idx_lt hij.1 hij.2
      · rw [if_neg (fun h => he ⟨h.1, h.2.1⟩), List.getElem?_set_ne]
        intro hh
        obtain ⟨rfl, rfl⟩ := idx_inj (show y < m.h by omega) hij.2 hh
        exact he ⟨rfl, rfl⟩
    · have e2 : ∀ cs, Matrix.get { m with cells := cs } i j = none := fun cs => get_out (m := { m with cells := cs }) hij
      rw [get_out hij, e2, if_neg]
      rintro ⟨rfl, rfl, h1, h2⟩
      exact hij ⟨h1, h2⟩

/-- Placing cells at their own positions, at most one at each. -/
theorem loadCells_get {m : Matrix (NodeId K)} (cs : List (Cell (NodeId K))) (h : GridOk m)
    (hok : ∀ c ∈ cs, CellOk c ∧ c.x < 256 ∧ c.y < 256 ∧ c.x < m.w ∧ c.y < m.h) (hnd : (cs.map (fun c => (c.x, c.y))).Nodup) (i j : Nat) :
    (∀ c ∈ cs, c.x = i → c.y = j → ((cs.map cellRepr).foldl loadCell m).get i j = some c) ∧
    ((∀ c ∈ cs, ¬ (c.x = i ∧ c.y = j)) → ((cs.map cellRepr).foldl loadCell m).get i j = m.get i j) := by
  induction cs generalizing m with
  | nil => exact ⟨fun c hc => by simp at hc, fun _ => rfl⟩
  | cons c cs ih =>
    obtain ⟨o1, o2, o3, o4, o5⟩ := hok c List.mem_cons_self
    have hr := cell_round o1 o2 o3
    obtain ⟨n1, n2⟩ := List.nodup_cons.1 hnd
    have hstep : loadCell m (cellRepr c) = m.place c.x c.y c := by unfold loadCell; rw [hr]
    obtain ⟨p1, p2, -⟩ := place_wh m c.x c.y c
    have hget := get_place h.wfs.toWF c.x c.y c i j
    obtain ⟨a1, a2⟩ := ih (m := m.place c.x c.y c) (gridOk_place h c.x c.y o1)
      (fun c' hc' => by rw [p1, p2]; exact hok c' (List.mem_cons_of_mem _ hc')) n2
    simp only [List.map_cons, List.foldl_cons, hstep]
    refine ⟨?_, ?_⟩
    · intro c' hc' hx hy
      rcases List.mem_cons.1 hc' with rfl | hm
      · rw [a2, hget, if_pos ⟨hx.symm, hy.symm, o4, o5⟩]
        · rw [Nat.mod_eq_of_lt o2, Nat.mod_eq_of_lt o3]
        · rintro c2 hc2 ⟨e1, e2⟩
          exact n1 (List.mem_map.2 ⟨c2, hc2, by show (c2.x, c2.y) = (c'.x, c'.y); rw [e1, e2, hx, hy]⟩)
      · exact a1 c' hm hx hy
    · intro hno
      rw [a2 (fun c2 hc2 => hno c2 (List.mem_cons_of_mem _ hc2)), hget, if_neg]
      intro hh
      obtain ⟨e1, e2, -, -⟩ := hh
      exact hno c List.mem_cons_self ⟨e1.symm, e2.symm⟩

/-- The cells with nodes in the order in which they are saved. -/
def nodeCells (m : Matrix (NodeId K)) : List (Cell (NodeId K)) :=
  ((positions m.w m.h).filterMap (fun p => m.get p.1 p.2)).filter (fun c => c.nodeId.isSome)

theorem mem_nodeCells {m : Matrix (NodeId K)} {c : Cell (NodeId K)} : c ∈ nodeCells m ↔ c.nodeId ≠ none ∧ ∃ x y, m.get x y = some c := by
  unfold nodeCells
  rw [List.mem_filter, List.mem_filterMap]
  constructor
  · rintro ⟨⟨p, _, h1⟩, h2⟩
    exact ⟨fun hn => (by rw [hn] at h2; cases h2), p.1, p.2, h1⟩
  · rintro ⟨h1, x, y, h2⟩
    exact ⟨⟨(x, y), (mem_positions _ _ _).2 (get_some_in h2), h2⟩, by cases hn : c.nodeId with | none => exact absurd hn h1 | some n => rfl⟩

theorem nodeCells_nodup {m : Matrix (NodeId K)} (h : GridOk m) (hw : m.w ≤ 256) (hh : m.h ≤ 256) :
    ((nodeCells m).map (fun c => (c.x, c.y))).Nodup := by
  have key : ∀ ps : List (Nat × Nat), ps.Nodup → (∀ p ∈ ps, p ∈ positions m.w m.h) →
      (((ps.filterMap (fun p => m.get p.1 p.2)).filter (fun c => c.nodeId.isSome)).map (fun c => (c.x, c.y))).Nodup ∧
      ∀ q ∈ (((ps.filterMap (fun p => m.get p.1 p.2)).filter (fun c => c.nodeId.isSome)).map (fun c => (c.x, c.y))), q ∈ ps := by
    intro ps
    induction ps with
    | nil => intro _ _; exact ⟨List.nodup_nil, fun q hq => by simp at hq⟩
    | cons p ps ih =>
      intro hnd hmem
      obtain ⟨n1, n2⟩ := List.nodup_cons.1 hnd
      obtain ⟨i1, i2⟩ := ih n2 (fun q hq => hmem q (List.mem_cons_of_mem _ hq))
      have hp := (mem_positions _ _ _).1 (hmem p List.mem_cons_self)
      obtain ⟨c, hc, -⟩ := get_in h.wfs.toWF hp.1 hp.2
      rw [List.filterMap_cons, hc]
      simp only [List.filter_cons]
      cases hn : c.nodeId with
      | none => simp only [Option.isSome_none, Bool.false_eq_true, if_false]; exact ⟨i1, fun q hq => List.mem_cons_of_mem _ (i2 q hq)⟩
      | some n =>
        obtain ⟨-, hpos⟩ := cell_at h hc
        obtain ⟨e1, e2⟩ := hpos (by rw [hn]; simp)
        have e : (c.x, c.y) = p := by rw [e1, e2, Nat.mod_eq_of_lt (by omega), Nat.mod_eq_of_lt (by omega)]
        simp only [Option.isSome_some, if_true, List.map_cons, e]
        refine ⟨List.nodup_cons.2 ⟨fun hq => n1 (i2 p hq), i1⟩, ?_⟩
        intro q hq
        rcases List.mem_cons.1 hq with rfl | hq
        · exact List.mem_cons_self
        · exact List.mem_cons_of_mem _ (i2 q hq)
  exact (key _ (positions_nodup _ _) (fun p hp => hp)).1

/-- The saved cells of one grid placed on an empty grid that is large enough. -/
theorem load_nodeCells {m d : Matrix (NodeId K)} (h : GridOk m) (hd : GridOk d) (he : ∀ x y c, d.get x y = some c → c.nodeId = none)
    (hw : m.w ≤ 256) (hh : m.h ≤ 256) (hdw : m.w ≤ d.w) (hdh : m.h ≤ d.h) (x y : Nat) (c : Cell (NodeId K)) (hc : c.nodeId ≠ none) :
    (((nodeCells m).map cellRepr).foldl loadCell d).get x y = some c ↔ m.get x y = some c := by
  have hpos : ∀ c ∈ nodeCells m, ∃ x y, m.get x y = some c ∧ c.x = x ∧ c.y = y ∧ x < m.w ∧ y < m.h := by
    intro c hc
    obtain ⟨h1, x, y, h2⟩ := mem_nodeCells.1 hc
    obtain ⟨e1, e2⟩ := (cell_at h h2).2 h1
    obtain ⟨hx, hy⟩ := get_some_in h2
    exact ⟨x, y, h2, by rw [e1, Nat.mod_eq_of_lt (by omega)], by rw [e2, Nat.mod_eq_of_lt (by omega)], hx, hy⟩
  have hok : ∀ c ∈ nodeCells m, CellOk c ∧ c.x < 256 ∧ c.y < 256 ∧ c.x < d.w ∧ c.y < d.h := by
    intro c hc
    obtain ⟨x, y, h1, rfl, rfl, hx, hy⟩ := hpos c hc
    exact ⟨(cell_at h h1).1, by omega, by omega, by omega, by omega⟩
  obtain ⟨a1, a2⟩ := loadCells_get (m := d) (nodeCells m) hd hok (nodeCells_nodup h hw hh) x y
  constructor
  · intro hg
    by_cases hex : ∃ c' ∈ nodeCells m, c'.x = x ∧ c'.y = y
    · obtain ⟨c', h1, h2, h3⟩ := hex
      rw [a1 c' h1 h2 h3] at hg
      simp only [Option.some.injEq] at hg
      subst hg
      obtain ⟨x', y', g1, g2, g3, -⟩ := hpos c' h1
      rw [h2] at g2; rw [h3] at g3
      subst g2 g3
      exact g1
    · rw [a2 (fun c' h1 h2 => hex ⟨c', h1, h2⟩)] at hg
      exact absurd (he x y c hg) hc
  · intro hg
    have hm := mem_nodeCells.2 ⟨hc, x, y, hg⟩
    obtain ⟨e1, e2⟩ := (cell_at h hg).2 hc
    obtain ⟨hx, hy⟩ := get_some_in hg
    exact a1 c hm (by rw [e1, Nat.mod_eq_of_lt (by omega)]) (by rw [e2, Nat.mod_eq_of_lt (by omega)])

end HexoDSP.Patch
