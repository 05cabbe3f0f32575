import Verif.Spec.NodeList
import Verif.Props.NodeTable
/-! Categories and random nodes. -/

namespace HexoDSP.NodeListProps
open HexoDSP.Table HexoDSP.NodeList NodeListSpec

theorem listFrom_eq (cat : String) (ks : List (Fin nodeTable.length)) : ∀ skip,
    listFrom cat skip ks = ((ks.filter (fun k => (row k).category = cat)).map (fun k => NodeId.node k 0)).drop skip := by
  induction ks with
  | nil => intro skip; simp [listFrom]
  | cons k ks ih =>
    intro skip
    simp only [listFrom, List.filter_cons]
    by_cases h : (row k).category = cat
    · simp only [h, if_true, decide_true]
      by_cases h0 : skip = 0
      · subst h0; simp [ih]
      · obtain ⟨s, rfl⟩ : ∃ s, skip = s + 1 := ⟨skip - 1, by omega⟩
        simp [ih]
    · simp [h, ih]

/-- **C109** (categories) A category lists its nodes, each once, in the order of the table; with the first ones left out as many as asked. -/
theorem category_lists (cat : String) (skip : Nat) : getNodeIds cat skip = (getNodeIds cat 0).drop skip ∧ (getNodeIds cat 0).Nodup ∧
    ∀ id, id ∈ getNodeIds cat 0 ↔ id.inst = 0 ∧ ∃ k i, id = .node k i ∧ (row k).category = cat := by
  unfold getNodeIds
  simp only [listFrom_eq, List.drop_zero, true_and]
  constructor
  · refine List.Nodup.map (fun a b h => by simpa using h) (List.Nodup.filter _ (List.nodup_finRange _))
  · intro id
    simp only [List.mem_map, List.mem_filter, List.mem_finRange, true_and, decide_eq_true_eq]
    constructor
    · rintro ⟨k, hk, rfl⟩; exact ⟨rfl, k, 0, rfl, hk⟩
    · rintro ⟨hi, k, i, rfl, hk⟩
      refine ⟨k, hk, ?_⟩
      simp only [NodeId.inst] at hi
      rw [show i = 0 from Fin.ext hi]

theorem row_category : ∀ k : Fin nodeTable.length, (row k).category ∈ categories := by decide +kernel

/-- **C109** (categories) Every node is in exactly one category. -/
theorem one_category (k : Fin nodeTable.length) : ∃ c ∈ categories, NodeId.node k 0 ∈ getNodeIds c 0 ∧
    ∀ c', NodeId.node k 0 ∈ getNodeIds c' 0 → c' = c := by
  refine ⟨(row k).category, row_category k, ((category_lists _ 0).2.2 _).2 ⟨rfl, k, 0, rfl, rfl⟩, ?_⟩
  intro c' h
  obtain ⟨-, k', i, e, h'⟩ := ((category_lists c' 0).2.2 _).1 h
  simp only [NodeId.node.injEq] at e
  rw [← h', ← e.1]

/-- **C109** (categories) Pages: as many nodes as fit on a page and then the rest are all nodes. -/
theorem pages (cat : String) (n : Nat) : getNodeIds cat 0 = (getNodeIds cat 0).take n ++ getNodeIds cat n := by
  rw [(category_lists cat n).1, List.take_append_drop]

/-! ### Random nodes -/

theorem label_name : ∀ k : Fin nodeTable.length, (row k).name ∈ useless ↔ ((row k).label = "Out" ∨ (row k).label = "FbRd" ∨ (row k).label = "Test" ∨
    (row k).label = "Rust1x1") := by decide +kernel

theorem satisfies_iff (k : Fin nodeTable.length) (sel : Selector) : satisfies (.node k 0) sel = true ↔ Wanted sel (.node k 0) := by
  cases sel with
  | any => simp [satisfies, Wanted, NodeId.inst]
  | onlyUseful =>
    have := label_name k
    simp only [satisfies, Wanted, NodeId.inst, NodeId.name]
    by_cases h1 : (row k).label = "Out" <;> by_cases h2 : (row k).label = "FbRd" <;> by_cases h3 : (row k).label = "Test" <;>
      by_cases h4 : (row k).label = "Rust1x1" <;> simp_all

theorem drawn_node (r : Nat) : ∃ k, drawn r = .node k 0 := by
  have hl : 0 < allNodeIds.length := by decide +kernel
  have h : r % allNodeIds.length < allNodeIds.length := Nat.mod_lt _ hl
  have hm : drawn r ∈ allNodeIds := by
    unfold drawn
    rw [List.getD_eq_getElem?_getD, List.getElem?_eq_getElem h]
    simp
  simp only [allNodeIds, List.mem_map] at hm
  obtain ⟨k, -, hk⟩ := hm
  exact ⟨k, hk.symm⟩

theorem randLoop_eq (rnd : Nat → Nat) (count : Nat) (sel : Selector) (fuel : Nat) : ∀ i out, out.length ≤ count →
    randLoop rnd count sel fuel i out =
      (out ++ ((List.range' i fuel).map (fun j => drawn (rnd j))).filter (fun id => satisfies id sel)).take count := by
  induction fuel with
  | zero => intro i out h; simp [randLoop, h]
  | succ fuel ih =>
    intro i out h
    unfold randLoop
    by_cases hl : out.length < count
    · rw [if_pos hl]
      simp only [List.range'_succ, List.map_cons, List.filter_cons]
      have hd : allNodeIds.getD (rnd i % allNodeIds.length) .nop = drawn (rnd i) := rfl
      rw [hd]
      by_cases hs : satisfies (drawn (rnd i)) sel = true
      · simp only [hs, if_true]
        rw [ih _ _ (by simp; omega)]
        simp
      · simp only [hs, if_false, Bool.false_eq_true]
        exact ih _ _ h
    · rw [if_neg hl]
      rw [List.take_append_of_le_length (by omega), List.take_of_length_le (by omega)]

/-- **C109** (random nodes) For all random numbers: the list has the asked length, consists of the first wanted nodes among the first hundred draws, in their
order, and after these only of `Nop`. -/
theorem random_nodes (rnd : Nat → Nat) (count : Nat) (sel : Selector) : (getRandNodeId rnd count sel).length = count ∧
    ∃ picked, (∀ id ∈ picked, Wanted sel id) ∧ (∃ rest, ((List.range 100).map (fun j => drawn (rnd j))).filter (fun id => satisfies id sel) = picked ++ rest ∧
      (picked.length < count → rest = [])) ∧ getRandNodeId rnd count sel = picked ++ List.replicate (count - picked.length) .nop := by
  have he := randLoop_eq rnd count sel 100 0 [] (by simp)
  rw [List.nil_append, ← List.range_eq_range'] at he
  constructor
  · unfold getRandNodeId pad
    rw [he]
    simp only [List.length_append, List.length_replicate, List.length_take]
    omega
  · refine ⟨_, ?_, ⟨_, (List.take_append_drop count _).symm, ?_⟩, ?_⟩
    · intro id hid
      have := List.mem_of_mem_take hid
      simp only [List.mem_filter, List.mem_map] at this
      obtain ⟨⟨j, -, rfl⟩, h⟩ := this
      obtain ⟨k, hk⟩ := drawn_node (rnd j)
      rw [hk] at h ⊢
      exact (satisfies_iff k sel).1 h
    · intro hl
      simp only [List.length_take] at hl
      exact List.drop_eq_nil_of_le (by omega)
    · unfold getRandNodeId pad
      rw [he]

/-- **C109** (random nodes) Every wanted node can be drawn. -/
theorem random_complete (sel : Selector) (k : Fin nodeTable.length) (hw : Wanted sel (.node k 0)) : getRandNodeId (fun _ => k.val) 1 sel = [.node k 0] := by
  have hl : allNodeIds.length = nodeTable.length := by simp [allNodeIds]
  have hd : drawn k.val = .node k 0 := by
    unfold drawn
    rw [hl, Nat.mod_eq_of_lt k.isLt, List.getD_eq_getElem?_getD]
    simp [allNodeIds]
  obtain ⟨-, picked, h1, ⟨rest, h2, h3⟩, h4⟩ := random_nodes (fun _ => k.val) 1 sel
  have hs := (satisfies_iff k sel).2 hw
  have hall : ((List.range 100).map (fun _ => drawn k.val)).filter (fun id => satisfies id sel) = List.replicate 100 (.node k 0) := by
    rw [hd]
    simp [hs]
  rw [hall] at h2
  cases picked with
  | nil =>
    have := h3 (by simp)
    subst this
    simp at h2
  | cons p ps =>
    have hlen : ps.length = 0 := by
      have hl := (random_nodes (fun _ => k.val) 1 sel).1
      rw [h4] at hl
      simp at hl
      exact List.length_eq_zero_iff.2 hl
    have hps : ps = [] := List.length_eq_zero_iff.1 hlen
    subst hps
    rw [h4]
    have : p = .node k 0 := by
      have := congrArg List.head? h2
      simpa [List.replicate] using this.symm
    rw [this]
    rfl

/-- **C109** (random nodes) Of more than a hundred nodes the rest are always `Nop`. -/
theorem random_at_most_100 (rnd : Nat → Nat) (count : Nat) (sel : Selector) (i : Nat) (h : 100 ≤ i) (hi : i < count) :
    (getRandNodeId rnd count sel)[i]? = some .nop := by
  obtain ⟨-, picked, -, ⟨rest, h2, -⟩, h4⟩ := random_nodes rnd count sel
  have hl : picked.length ≤ 100 := by
    have h5 := congrArg List.length h2
    have h6 := List.length_filter_le (fun id => satisfies id sel) ((List.range 100).map (fun j => drawn (rnd j)))
    simp only [List.length_append, List.length_map, List.length_range] at h5 h6
    omega
  rw [h4, List.getElem?_append_right (by omega), List.getElem?_replicate, if_pos (by omega)]

example : (getNodeIds "Osc" 1).map NodeId.name = ["sin", "bosc", "vosc", "bowstri", "noise", "formfm"] := by decide +kernel
example : Wanted .onlyUseful (NodeId.fromStr "sin") := by refine ⟨by decide +kernel, by decide +kernel, ?_⟩; show _ ∉ useless; decide +kernel
example : (getRandNodeId (fun i => i) 3 .onlyUseful).map NodeId.name = ["amp", "mix3", "mux9"] := by decide +kernel

end HexoDSP.NodeListProps
