import Verif.Spec.Label
import Verif.Props.Matrix
import Verif.Props.NodeTable
import Verif.Lemmas.BlockNames
/-! Labels of cells and edges. -/

namespace HexoDSP.LabelProps
open HexoDSP.Matrix HexoDSP.Table HexoDSP.Label LabelSpec
open CellDir (Pos)

/-! ### Edges -/

theorem out3 {d : CellDir} (hd : d ∈ outDirs) : d = .TR ∨ d = .BR ∨ d = .B := by simpa [outDirs] using hd

theorem writeTo_iff {cap : Nat} {s t : String} : writeTo cap s = some t ↔ t = s ∧ s.utf8ByteSize ≤ cap := by
  unfold writeTo
  split
  · rename_i h; simp only [Option.some.injEq]; exact ⟨fun e => ⟨e.symm, h⟩, fun e => e.1.symm⟩
  · rename_i h; simp [h]

theorem inName_eq {n : Nd} {i : Nat} (h : i < (row n.1).params.length) : (NodeInfo.fromNodeId n.id).inName i = n.id.inpNameByIdx i :=
  TableProps.info_input_names_partial n.id i (by simpa [NodeInfo.inCount, NodeInfo.fromNodeId, Nd.id] using h)

theorem outName_eq (n : Nd) (i : Nat) : (NodeInfo.fromNodeId n.id).outName i = n.id.outNameByIdx i :=
  TableProps.info_output_names n.id i

theorem bind_label {o : Option Nat} {f : Nat → Option String} {cap : Nat} {b : Bool} {s : String} {b' : Bool} :
    (o.bind (fun i => (f i).bind (fun s => (writeTo cap s).map (fun t => (t, b))))) = some (s, b') ↔
      b' = b ∧ ∃ i, o = some i ∧ f i = some s ∧ s.utf8ByteSize ≤ cap := by
  simp only [Option.bind_eq_some_iff, Option.map_eq_some_iff, writeTo_iff, Prod.mk.injEq]
  constructor
  · rintro ⟨i, h1, t, h2, u, ⟨h3, h4⟩, h5, h6⟩
    subst h3; subst h5
    exact ⟨h6.symm, i, h1, h2, h4⟩
  · rintro ⟨h1, i, h2, h3, h4⟩
    exact ⟨i, h2, s, h3, s, ⟨rfl, h4⟩, rfl, h1.symm⟩

/-- **C108** (text) The label of an edge is the name of the port that is assigned to it, and there is one exactly if the cell has a node that the engine
knows, a port is assigned to the edge and its name fits into the buffer. The mark is set exactly if the edge has an output and the neighbour an input there. -/
theorem edge_text (m : Matrix Nd) (known : Nd → Bool) (c : Cell Nd) (d : CellDir) (cap : Nat) (hp : PortOk c d) (s : String) (b : Bool) :
    edgeLabel m known c d cap = some (s, b) ↔
      (∃ n i, c.nodeId = some n ∧ known n = true ∧ c.localPortIdx d = some i ∧ portName n d i = some s ∧ s.utf8ByteSize ≤ cap) ∧
        (b = true ↔ d ∈ outDirs ∧ ∃ q c', d.offsPos c.pos = some q ∧ m.get q.1 q.2 = some c' ∧ c'.hasDirSet d.flip = true) := by
  have hb : d ∈ outDirs → (m.adjacentEdgeHasInput c.x c.y d = true ↔
      ∃ q c', d.offsPos c.pos = some q ∧ m.get q.1 q.2 = some c' ∧ c'.hasDirSet d.flip = true) := by
    intro hd
    have hadj : ∀ c', m.getAdjacent c.x c.y d = some c' ↔ ∃ q, d.offsPos c.pos = some q ∧ m.get q.1 q.2 = some c' := by
      intro c'
      unfold Matrix.getAdjacent CellDir.offsPos Cell.pos
      simp only
      split
      · rename_i hb
        constructor
        · intro h; simp at h
        · rintro ⟨q, hq, hc⟩
          split at hq
          · simp only [Option.some.injEq] at hq
            have := get_some_in hc
            rw [← hq] at this
            simp only at this
            omega
          · simp at hq
      · rename_i hb
        rw [if_pos (by omega)]
        simp only [Option.some.injEq, exists_eq_left']
        rw [get_eq_cells (by omega) (by omega)]
    unfold Matrix.adjacentEdgeHasInput
    constructor
    · intro h
      cases hc : m.getAdjacent c.x c.y d with
      | none => rw [hc] at h; simp at h
      | some c' =>
        rw [hc] at h
        obtain ⟨q, h1, h2⟩ := (hadj c').1 hc
        refine ⟨q, c', h1, h2, ?_⟩
        rcases out3 hd with rfl | rfl | rfl <;> exact h
    · rintro ⟨q, c', h1, h2, h3⟩
      rw [(hadj c').2 ⟨q, h1, h2⟩]
      rcases out3 hd with rfl | rfl | rfl <;> exact h3
  have hout : ∀ (n : Nd) (o : Option Nat), c.nodeId = some n → known n = true → c.localPortIdx d = o → d ∈ outDirs →
      (edgeLabel m known c d cap = some (s, b) ↔ b = m.adjacentEdgeHasInput c.x c.y d ∧ ∃ i, o = some i ∧ n.id.outNameByIdx i = some s ∧ s.utf8ByteSize ≤ cap) := by
    intro n o hn hk ho hd
    subst ho
    unfold edgeLabel
    rcases out3 hd with rfl | rfl | rfl <;> simp only [hn, hk, if_true, bind_label, outName_eq, Cell.localPortIdx]
  have hin : ∀ (n : Nd), c.nodeId = some n → known n = true → d ∉ outDirs →
      (edgeLabel m known c d cap = some (s, b) ↔ b = false ∧ ∃ i, c.localPortIdx d = some i ∧ n.id.inpNameByIdx i = some s ∧ s.utf8ByteSize ≤ cap) := by
    intro n hn hk hd
    have e : ∀ i, c.localPortIdx d = some i → (NodeInfo.fromNodeId n.id).inName i = n.id.inpNameByIdx i := fun i hi => inName_eq (hp n i hn hi hd)
    have e' : (b = false ∧ ∃ i, c.localPortIdx d = some i ∧ n.id.inpNameByIdx i = some s ∧ s.utf8ByteSize ≤ cap) ↔
        (b = false ∧ ∃ i, c.localPortIdx d = some i ∧ (NodeInfo.fromNodeId n.id).inName i = some s ∧ s.utf8ByteSize ≤ cap) := by
      constructor
      · rintro ⟨h0, i, h1, h2⟩; exact ⟨h0, i, h1, by rw [e i h1]; exact h2⟩
      · rintro ⟨h0, i, h1, h2⟩; exact ⟨h0, i, h1, by rw [e i h1] at h2; exact h2⟩
    rw [e']
    unfold edgeLabel
    cases d <;> first | exact absurd (by decide) hd | simp only [hn, hk, if_true, bind_label, Cell.localPortIdx]
    simp
  cases hn : c.nodeId with
  | none => simp [edgeLabel, hn]
  | some n =>
    by_cases hk : known n = true
    · by_cases hd : d ∈ outDirs
      · rw [hout n _ hn hk rfl hd, ← hb hd]
        simp only [portName, hd, if_true, true_and, Option.some.injEq, exists_and_left, exists_eq_left', hk]
        rw [and_comm]
        refine and_congr_right (fun _ => ?_)
        cases b <;> cases m.adjacentEdgeHasInput c.x c.y d <;> simp
      · rw [hin n hn hk hd]
        simp only [portName, hd, if_false, false_and, iff_false, Bool.not_eq_true, Option.some.injEq, exists_and_left, exists_eq_left', hk, true_and]
        rw [and_comm]
    · simp [edgeLabel, hn, hk]

/-- **C108** (marks) If empty cells have no inputs, the mark of an edge of a cell tells truthfully whether the edge makes a connection. -/
theorem mark_is_wire_partial (m : Matrix Nd) (hw : m.w ≤ 256) (hh : m.h ≤ 256) (he : EmptyHaveNone m) (known : Nd → Bool)
    (x y : Nat) (c : Cell Nd) (hc : m.getCopy x y = some c) (d : CellDir) (hd : d ∈ outDirs) (cap : Nat) (s : String) (b : Bool)
    (h : edgeLabel m known c d cap = some (s, b)) : b = true ↔ ∃ e, m.Wire (x, y) d e := by
  have hp : PortOk c d := fun n i _ _ hd' => absurd hd hd'
  obtain ⟨⟨n, i, h1, -, h2, -, -⟩, h3⟩ := (edge_text m known c d cap hp s b).1 h
  have hxy : c.pos = (x, y) ∧ ∃ c0, m.get x y = some c0 ∧ c0.nodeId = c.nodeId ∧ c0.localPortIdx d = c.localPortIdx d := by
    unfold Matrix.getCopy at hc
    split at hc
    · simp at hc
    · rename_i hb
      simp only [Option.map_eq_some_iff] at hc
      obtain ⟨c0, hc0, rfl⟩ := hc
      refine ⟨?_, c0, ?_, rfl, by cases d <;> rfl⟩
      · simp only [Cell.pos]
        rw [Nat.mod_eq_of_lt (by omega), Nat.mod_eq_of_lt (by omega)]
      · rw [get_eq_cells (by omega) (by omega)]; exact hc0
  obtain ⟨hpos, c0, g0, g1, g2⟩ := hxy
  rw [h3, hpos]
  constructor
  · rintro ⟨-, q, c', k1, k2, k3⟩
    have hne : ∃ n', c'.nodeId = some n' := by
      cases hn : c'.nodeId with
      | some n' => exact ⟨n', rfl⟩
      | none =>
        obtain ⟨z1, z2, z3⟩ := he _ _ _ k2 hn
        exfalso
        rcases out3 hd with rfl | rfl | rfl <;> simp [CellDir.flip, Cell.hasDirSet, z1, z2, z3] at k3
    obtain ⟨n', hn'⟩ := hne
    have hj : ∃ j, c'.localPortIdx d.flip = some j := by
      rcases out3 hd with rfl | rfl | rfl <;> simp only [CellDir.flip, Cell.hasDirSet, Cell.localPortIdx] at k3 ⊢ <;> exact Option.isSome_iff_exists.1 k3
    obtain ⟨j, hj⟩ := hj
    exact ⟨⟨n, i, n', j⟩, hd, q, c0, c', k1, g0, k2, g1.trans h1, g2.trans h2, hn', hj⟩
  · rintro ⟨e, -, q, a, c', k1, k2, k3, k4, k5, k6, k7⟩
    refine ⟨hd, q, c', k1, k3, ?_⟩
    rcases out3 hd with rfl | rfl | rfl <;> simp only [CellDir.flip, Cell.hasDirSet, Cell.localPortIdx] at k7 ⊢ <;> rw [k7] <;> rfl

/-- A sine oscillator whose output leads into an empty cell with an input. -/
def exM : List (MOp Nd) :=
  [.place 0 0 { Cell.empty (some (⟨0, by decide⟩, 0)) with out3 := some 0 }, .place 0 1 { Cell.empty none with in1 := some 0 }]

/-- **C108** The marks are not always truthful: an edge that leads into an empty cell is marked if an input was left there. -/
theorem mark_without_wire : ∃ m : Matrix Nd, m.Reachable ∧ ∃ c, m.getCopy 0 0 = some c ∧ edgeLabel m (fun _ => true) c .B 10 = some ("sig", true) ∧
    ∀ e, ¬ m.Wire (0, 0) .B e := by
  obtain ⟨m, hm⟩ : ∃ m, (Matrix.new 1 2 : Matrix Nd).runAll exM = some m := ⟨_, rfl⟩
  refine ⟨m, ⟨1, 2, exM, hm⟩, ?_⟩
  have : (Matrix.new 1 2 : Matrix Nd).runAll exM = some (((Matrix.new 1 2).place 0 0 { Cell.empty (some (⟨0, by decide⟩, 0)) with out3 := some 0 }).place 0 1
    { Cell.empty none with in1 := some 0 }) := rfl
  rw [this] at hm
  simp only [Option.some.injEq] at hm
  subst hm
  refine ⟨_, rfl, by decide +kernel, ?_⟩
  rintro e ⟨-, q, a, b, h1, h2, h3, h4, h5, h6, h7⟩
  have : q = (0, 1) := by
    have e1 : CellDir.B.offsPos (0, 0) = some (0, 1) := by decide
    rw [e1] at h1; simpa using h1.symm
  subst this
  have e2 : (((Matrix.new 1 2 : Matrix Nd).place 0 0 { Cell.empty (some (⟨0, by decide⟩, 0)) with out3 := some 0 }).place 0 1
    { Cell.empty none with in1 := some 0 }).get 0 1 = some { (Cell.empty none : Cell Nd) with x := 0, y := 1, in1 := some 0 } := by decide +kernel
  rw [e2] at h3
  simp only [Option.some.injEq] at h3
  subst h3
  simp [Cell.empty, Cell.emptyAt] at h6

/-! ### Cells -/

theorem label_no_space : ∀ k : Fin nodeTable.length, ∀ c ∈ (row k).label.toList, c ≠ ' ' := by decide +kernel
theorem labels_unique : ∀ k l : Fin nodeTable.length, (row k).label.toList = (row l).label.toList → k = l := by decide +kernel
theorem label_short : ∀ k : Fin nodeTable.length, (row k).label.utf8ByteSize ≤ 7 := by decide +kernel

theorem split_space {a b c d : List Char} (ha : ∀ x ∈ a, x ≠ ' ') (hc : ∀ x ∈ c, x ≠ ' ') (h : a ++ ' ' :: b = c ++ ' ' :: d) : a = c ∧ b = d := by
  induction a generalizing c with
  | nil =>
    cases c with
    | nil => simp at h; exact ⟨rfl, h⟩
    | cons x c => simp at h; exact absurd h.1.symm (hc x (by simp))
  | cons x a ih =>
    cases c with
    | nil => simp at h; exact absurd h.1 (ha x (by simp))
    | cons y c =>
      simp at h
      obtain ⟨h1, h2⟩ := ih (fun z hz => ha z (by simp [hz])) (fun z hz => hc z (by simp [hz])) h.2
      exact ⟨by rw [h.1, h1], h2⟩

/-- **C108** (cells) Cells with the same label have the same node. -/
theorem cell_label_identifies (c c' : Cell Nd) (cap cap' : Nat) (s : String) (h : cellLabel c cap = some s) (h' : cellLabel c' cap' = some s) :
    c.nodeId = c'.nodeId := by
  unfold cellLabel at h h'
  cases hn : c.nodeId with
  | none => rw [hn] at h; simp at h
  | some n =>
    cases hn' : c'.nodeId with
    | none => rw [hn'] at h'; simp at h'
    | some n' =>
      rw [hn] at h; rw [hn'] at h'
      simp only [writeTo_iff] at h h'
      have e : display n.id = display n'.id := h.1.symm.trans h'.1
      obtain ⟨k, i⟩ := n
      obtain ⟨k', i'⟩ := n'
      simp only [display, Nd.id] at e
      have e2 := congrArg String.toList e
      simp only [String.toList_append, Block.toList_toString] at e2
      have e3 : " ".toList = [' '] := by decide
      rw [e3] at e2
      simp only [List.append_assoc, List.singleton_append] at e2
      obtain ⟨h1, h2⟩ := split_space (label_no_space k) (label_no_space k') e2
      rw [labels_unique k k' h1, Fin.ext (Block.toString_nat_inj h2)]

theorem digits_short : ∀ i : Fin 256, (toString i.val).utf8ByteSize ≤ 3 := by decide +kernel

/-- **C108** (cells) Eleven bytes are enough for the label of every cell; empty cells have none. -/
theorem cell_label_fits (c : Cell Nd) (cap : Nat) (h : 11 ≤ cap) : (cellLabel c cap).isSome ↔ c.nodeId ≠ none := by
  unfold cellLabel
  cases hn : c.nodeId with
  | none => simp
  | some n =>
    obtain ⟨k, i⟩ := n
    have h1 := label_short k
    have h2 := digits_short i
    have h3 : (display (Nd.id (k, i))).utf8ByteSize ≤ cap := by
      simp only [display, Nd.id, String.utf8ByteSize_append]
      have : " ".utf8ByteSize = 1 := by decide
      omega
    simp [writeTo, h3]

/-- **C108** (cells) A cell moved to a neighbouring position and back is where it was, on grids of 256 columns and rows. -/
theorem offs_dir_back (c c' : Cell Nd) (d : CellDir) (hd : d.IsEdge) (h : offsDir c d = (c', true)) (hx : c.x < 255) (hy : c.y < 255) :
    offsDir c' d.flip = (c, true) := by
  unfold offsDir at h
  cases hq : d.offsPos (c.x, c.y) with
  | none => rw [hq] at h; simp at h
  | some q =>
    rw [hq] at h
    simp only [Prod.mk.injEq, and_true] at h
    subst h
    have hb : q.1 < 256 ∧ q.2 < 256 := by
      unfold CellDir.offsPos at hq
      simp only at hq
      split at hq
      · simp only [Option.some.injEq] at hq
        subst hq
        have : (d.asOffs c.x).1 ≤ 1 ∧ (d.asOffs c.x).2 ≤ 1 := by
          unfold CellDir.asOffs
          constructor <;> cases d <;> simp only <;> (try split) <;> omega
        simp only
        omega
      · simp at hq
    have hflip := CellDir.offsPos_flip d hd (c.x, c.y) q hq
    unfold offsDir
    simp only [Nat.mod_eq_of_lt hb.1, Nat.mod_eq_of_lt hb.2, hflip]
    rw [Nat.mod_eq_of_lt (by omega), Nat.mod_eq_of_lt (by omega)]

/-- **C108** (all cells) `for_each` visits every cell of the grid once and hands over the cell that is there. -/
theorem for_each_cells (m : Matrix Nd) : ((forEach m).map (fun p => (p.1, p.2.1))).Nodup ∧
    ∀ x y o, (x, y, o) ∈ forEach m ↔ x < m.w ∧ y < m.h ∧ o = m.get x y := by
  constructor
  · have : (forEach m).map (fun p => (p.1, p.2.1)) = (List.range m.w).flatMap (fun x => (List.range m.h).map (fun y => (x, y))) := by
      simp [forEach, List.map_flatMap, Function.comp_def]
    rw [this]
    rw [List.nodup_flatMap]
    constructor
    · intro x _
      exact List.Nodup.map (fun a b h => by simpa using h) List.nodup_range
    · refine List.Pairwise.imp ?_ (List.nodup_range (n := m.w))
      intro a b hab
      simp only [Function.onFun, List.disjoint_left, List.mem_map]
      rintro p ⟨y, -, rfl⟩ ⟨y', -, h⟩
      simp only [Prod.mk.injEq] at h
      exact hab h.1.symm
  · intro x y o
    simp only [forEach, List.mem_flatMap, List.mem_map, List.mem_range, Prod.mk.injEq]
    constructor
    · rintro ⟨x', hx, y', hy, rfl, rfl, rfl⟩
      exact ⟨hx, hy, (get_eq_cells hx hy).symm⟩
    · rintro ⟨hx, hy, rfl⟩
      exact ⟨x, hx, y, hy, rfl, rfl, (get_eq_cells hx hy).symm⟩

/-! ### Examples -/

def exN : Nd := (⟨0, by decide⟩, 0)
def exG : Matrix Nd := ((Matrix.new 1 2).place 0 0 { Cell.empty (some exN) with out3 := some 0 }).place 0 1 { Cell.empty (some (⟨0, by decide⟩, 1)) with in1 := some 1 }

example : edgeLabel exG (fun _ => true) { Cell.empty (some exN) with out3 := some 0 } .B 10 = some ("sig", true) := by decide +kernel
example : edgeLabel exG (fun _ => true) { Cell.emptyAt (some (⟨0, by decide⟩, 1)) 0 1 with in1 := some 1 } .T 10 = some ("gain", false) := by decide +kernel
example : edgeLabel exG (fun _ => true) { Cell.empty (some exN) with out3 := some 0 } .B 2 = none := by decide +kernel
example : cellLabel (Cell.empty (some (⟨0, by decide⟩, 12))) 20 = some "Amp 12" := by decide +kernel
example : EmptyHaveNone exG := by
  intro x y c h hn
  have hb := get_some_in h
  have hx : x = 0 := by have := hb.1; simp [exG, Matrix.place, Matrix.new] at this; exact this
  have hy : y = 0 ∨ y = 1 := by have := hb.2; simp [exG, Matrix.place, Matrix.new] at this; omega
  subst hx
  rcases hy with rfl | rfl
  · simp [exG, Matrix.place, Matrix.new, Matrix.get] at h; subst h; simp [Cell.empty, Cell.emptyAt] at hn
  · simp [exG, Matrix.place, Matrix.new, Matrix.get] at h; subst h; simp [Cell.empty, Cell.emptyAt] at hn

end HexoDSP.LabelProps
