import Verif.Model.NodeId
import Mathlib.Data.List.Nodup
import Mathlib.Data.List.FinRange
set_option linter.unusedSectionVars false

/-! # C43, C61: names and indices of nodes and parameters -/

namespace HexoDSP.TableProps
open HexoDSP.Table

/-- Looking up a key in a list with unique keys. -/
theorem find_key {α β : Type} [DecidableEq β] (f : α → β) : ∀ (l : List α), (l.map f).Nodup → ∀ (k : β) (x : α),
    l.find? (fun a => f a = k) = some x ↔ x ∈ l ∧ f x = k
  | [], _, k, x => by simp
  | a :: l, h, k, x => by
    rw [List.map_cons, List.nodup_cons] at h
    rw [List.find?_cons]
    by_cases hk : f a = k
    · simp only [hk, decide_true, Option.some.injEq, List.mem_cons]
      constructor
      · rintro rfl; exact ⟨Or.inl rfl, hk⟩
      · rintro ⟨rfl | hx, hk'⟩
        · rfl
        · exact absurd (List.mem_map_of_mem hx (f := f)) (by rw [hk', ← hk]; exact h.1)
    · simp only [hk, decide_false, find_key f l h.2, List.mem_cons]
      constructor
      · rintro ⟨h1, h2⟩; exact ⟨Or.inr h1, h2⟩
      · rintro ⟨rfl | hx, hk'⟩
        · exact absurd hk' hk
        · exact ⟨hx, hk'⟩

/-- What is demanded of a row of the table. -/
def rowOk (r : NodeRow) : Bool :=
  decide (r.params.map (·.idx) = List.range r.params.length) &&
  decide (r.atoms.map (·.inIdx) = (List.range r.atoms.length).map (r.params.length + ·)) &&
  decide ((r.atoms.map (·.atIdx)).Nodup) && decide (∀ a ∈ r.atoms, a.atIdx < r.atoms.length) &&
  decide ((r.params.map (·.name) ++ r.atoms.map (·.name)).Nodup) &&
  decide (r.outs.map (·.idx) = List.range r.outs.length) && decide ((r.outs.map (·.name)).Nodup) &&
  decide (r.params.length + r.atoms.length ≤ 256) && decide (r.outs.length ≤ 256)

theorem table_ok : ∀ k : Fin nodeTable.length, rowOk (row k) = true := by decide +kernel

/-- The entries of a row that parameter ids are made of: name, index, is it an atom? -/
def entries (r : NodeRow) : List (String × Nat × Bool) :=
  r.params.map (fun p => (p.name, p.idx, false)) ++ r.atoms.map (fun a => (a.name, a.inIdx, true))

section
variable {r : NodeRow} (h : rowOk r = true)
include h

theorem ok_idx : r.params.map (·.idx) = List.range r.params.length := by
  simp only [rowOk, Bool.and_eq_true, decide_eq_true_eq] at h; tauto
theorem ok_inIdx : r.atoms.map (·.inIdx) = (List.range r.atoms.length).map (r.params.length + ·) := by
  simp only [rowOk, Bool.and_eq_true, decide_eq_true_eq] at h; tauto
theorem ok_atIdx : (r.atoms.map (·.atIdx)).Nodup := by
  simp only [rowOk, Bool.and_eq_true, decide_eq_true_eq] at h; tauto
theorem ok_atIdx_lt : ∀ a ∈ r.atoms, a.atIdx < r.atoms.length := by
  simp only [rowOk, Bool.and_eq_true, decide_eq_true_eq] at h; tauto
theorem ok_names : (r.params.map (·.name) ++ r.atoms.map (·.name)).Nodup := by
  simp only [rowOk, Bool.and_eq_true, decide_eq_true_eq] at h; tauto
theorem ok_outs : r.outs.map (·.idx) = List.range r.outs.length := by
  simp only [rowOk, Bool.and_eq_true, decide_eq_true_eq] at h; tauto
theorem ok_outNames : (r.outs.map (·.name)).Nodup := by
  simp only [rowOk, Bool.and_eq_true, decide_eq_true_eq] at h; tauto
theorem ok_size : r.params.length + r.atoms.length ≤ 256 := by
  simp only [rowOk, Bool.and_eq_true, decide_eq_true_eq] at h; tauto

theorem entries_names : ((entries r).map (·.1)).Nodup := by
  simpa [entries, Function.comp_def] using ok_names h

theorem entries_idx : (entries r).map (·.2.1) = List.range (r.params.length + r.atoms.length) := by
  have h1 := ok_idx h
  have h2 := ok_inIdx h
  simp only [entries, List.map_append, List.map_map, Function.comp_def] at *
  rw [h1, h2, List.range_add]

theorem entries_idx_nodup : ((entries r).map (·.2.1)).Nodup := by rw [entries_idx h]; exact List.nodup_range

/-- Entries are atoms from the number of the inputs on. -/
theorem entries_atom {e : String × Nat × Bool} (he : e ∈ entries r) : e.2.2 = true ↔ r.params.length ≤ e.2.1 := by
  simp only [entries, List.mem_append, List.mem_map] at he
  rcases he with ⟨p, hp, rfl⟩ | ⟨a, ha, rfl⟩
  · have h1 : p.idx ∈ r.params.map (·.idx) := List.mem_map_of_mem hp
    rw [ok_idx h, List.mem_range] at h1
    simpa using h1
  · have h1 : a.inIdx ∈ r.atoms.map (·.inIdx) := List.mem_map_of_mem ha
    rw [ok_inIdx h, List.mem_map] at h1
    obtain ⟨j, -, hj⟩ := h1
    simp only [true_iff, ge_iff_le]
    omega

end

theorem find_entries_idx (r : NodeRow) (i : Nat) : ((entries r).find? (fun e => e.2.1 = i)) =
    match r.params.find? (fun p => p.idx = i) with
    | some p => some (p.name, p.idx, false)
    | none => (r.atoms.find? (fun a => a.inIdx = i)).map (fun a => (a.name, a.inIdx, true)) := by
  rw [entries, List.find?_append, List.find?_map, List.find?_map]
  simp only [Function.comp_def]
  cases r.params.find? (fun p => decide (p.idx = i)) <;> simp

theorem find_entries_name (r : NodeRow) (s : String) : ((entries r).find? (fun e => e.1 = s)) =
    match r.params.find? (fun p => p.name = s) with
    | some p => some (p.name, p.idx, false)
    | none => (r.atoms.find? (fun a => a.name = s)).map (fun a => (a.name, a.inIdx, true)) := by
  rw [entries, List.find?_append, List.find?_map, List.find?_map]
  simp only [Function.comp_def]
  cases r.params.find? (fun p => decide (p.name = s)) <;> simp

theorem paramByIdx_eq (k : Fin nodeTable.length) (j : Fin 256) (i : Nat) :
    (NodeId.node k j).paramByIdx i = ((entries (row k)).find? (fun e => e.2.1 = i)).map (fun e => ⟨e.1, .node k j, e.2.1⟩) := by
  rw [find_entries_idx]
  simp only [NodeId.paramByIdx]
  cases (row k).params.find? (fun p => decide (p.idx = i)) <;> simp [Option.map_map, Function.comp_def]

theorem inpParam_eq (k : Fin nodeTable.length) (j : Fin 256) (s : String) :
    (NodeId.node k j).inpParam s = ((entries (row k)).find? (fun e => e.1 = s)).map (fun e => ⟨e.1, .node k j, e.2.1⟩) := by
  rw [find_entries_name]
  simp only [NodeId.inpParam]
  cases (row k).params.find? (fun p => decide (p.name = s)) <;> simp [Option.map_map, Function.comp_def]

/-- A parameter id is found by its index iff it is one of the entries of the row. -/
theorem paramByIdx_iff (k : Fin nodeTable.length) (j : Fin 256) (i : Nat) (p : ParamId) :
    (NodeId.node k j).paramByIdx i = some p ↔ p.idx = i ∧ p.node = .node k j ∧ ∃ b, (p.name, p.idx, b) ∈ entries (row k) := by
  rw [paramByIdx_eq, Option.map_eq_some_iff]
  constructor
  · rintro ⟨e, he, rfl⟩
    rw [find_key (fun e : String × Nat × Bool => e.2.1) _ (entries_idx_nodup (table_ok k))] at he
    exact ⟨he.2, rfl, e.2.2, he.1⟩
  · rintro ⟨h1, h2, b, h3⟩
    refine ⟨(p.name, p.idx, b), ?_, ?_⟩
    · rw [find_key (fun e : String × Nat × Bool => e.2.1) _ (entries_idx_nodup (table_ok k))]; exact ⟨h3, h1⟩
    · rw [← h2]

theorem inpParam_iff (k : Fin nodeTable.length) (j : Fin 256) (s : String) (p : ParamId) :
    (NodeId.node k j).inpParam s = some p ↔ p.name = s ∧ p.node = .node k j ∧ ∃ b, (p.name, p.idx, b) ∈ entries (row k) := by
  rw [inpParam_eq, Option.map_eq_some_iff]
  constructor
  · rintro ⟨e, he, rfl⟩
    rw [find_key (fun e : String × Nat × Bool => e.1) _ (entries_names (table_ok k))] at he
    exact ⟨he.2, rfl, e.2.2, he.1⟩
  · rintro ⟨h1, h2, b, h3⟩
    refine ⟨(p.name, p.idx, b), ?_, ?_⟩
    · rw [find_key (fun e : String × Nat × Bool => e.1) _ (entries_names (table_ok k))]; exact ⟨h3, h1⟩
    · rw [← h2]

theorem names_unique : ∀ k l : Fin nodeTable.length, (row k).name = (row l).name → k = l := by decide +kernel
theorem names_not_nop : ∀ k : Fin nodeTable.length, (row k).name ≠ "nop" := by decide +kernel

/-- **C43** A node id survives the conversion to name and instance and back. -/
theorem node_id_round_trip (id : NodeId) : (NodeId.fromStr id.name).toInstance id.inst = id := by
  cases id with
  | nop => decide +kernel
  | node k j =>
    have hf : (List.finRange nodeTable.length).find? (fun l => (row l).name = (row k).name) = some k := by
      refine (find_key (fun l => (row l).name) _ ?_ _ _).mpr ⟨List.mem_finRange k, rfl⟩
      exact (List.nodup_finRange _).map (fun a b => names_unique a b)
    have hs : NodeId.fromStr (row k).name = .node k 0 := by
      unfold NodeId.fromStr
      rw [if_neg (names_not_nop k), hf]
    show (NodeId.fromStr (row k).name).toInstance j = _
    rw [hs]
    simp only [NodeId.toInstance]
    congr 1
    apply Fin.ext
    simp [Fin.ofNat, Nat.mod_eq_of_lt j.isLt]

/-- **C43** Different node types have different names; a string that is no name of a node type is converted to `Nop`, and the instance of a
converted name is 0. -/
theorem from_str_spec (s : String) : (NodeId.fromStr s).inst = 0 ∧ ((NodeId.fromStr s).name = s ∨
    (NodeId.fromStr s = .nop ∧ ∀ id : NodeId, id.name ≠ s)) := by
  by_cases hn : s = "nop"
  · subst hn; exact ⟨by decide +kernel, Or.inl (by decide +kernel)⟩
  · unfold NodeId.fromStr
    rw [if_neg hn]
    cases hf : (List.finRange nodeTable.length).find? (fun k => (row k).name = s) with
    | some k =>
      refine ⟨rfl, Or.inl ?_⟩
      have := List.find?_some hf
      simpa [NodeId.name] using this
    | none =>
      refine ⟨rfl, Or.inr ⟨rfl, ?_⟩⟩
      rw [List.find?_eq_none] at hf
      intro id
      cases id with
      | nop => exact fun h => hn h.symm
      | node k j => have := hf k (List.mem_finRange k); simpa [NodeId.name] using this

/-- **C43** Two node ids with the same name and instance are the same. -/
theorem name_instance_unique (a b : NodeId) (hn : a.name = b.name) (hi : a.inst = b.inst) : a = b := by
  rw [← node_id_round_trip a, ← node_id_round_trip b, hn, hi]

/-- **C43** A parameter of a node is found under its name iff it is found under its index. -/
theorem lookup_name_iff_index (id : NodeId) (p : ParamId) : id.inpParam p.name = some p ↔ id.paramByIdx p.idx = some p := by
  cases id with
  | nop => simp [NodeId.inpParam, NodeId.paramByIdx]
  | node k j => rw [inpParam_iff, paramByIdx_iff]; simp

/-- **C43** What is found under a name has this name, what is found under an index has this index, and belongs to the node. -/
theorem lookup_sound (id : NodeId) (s : String) (i : Nat) (p : ParamId) :
    (id.inpParam s = some p → p.name = s ∧ p.node = id) ∧ (id.paramByIdx i = some p → p.idx = i ∧ p.node = id) := by
  cases id with
  | nop => simp [NodeId.inpParam, NodeId.paramByIdx]
  | node k j => rw [inpParam_iff, paramByIdx_iff]; tauto

theorem isAtom_eq (k : Fin nodeTable.length) (j : Fin 256) (s : String) (i : Nat) :
    ParamId.isAtom ⟨s, .node k j, i⟩ = (((entries (row k)).find? (fun e => e.2.1 = i)).map (·.2.2)).getD false := by
  rw [find_entries_idx]
  simp only [ParamId.isAtom]
  cases (row k).params.find? (fun p => decide (p.idx = i)) with
  | some p => rfl
  | none => cases (row k).atoms.find? (fun a => decide (a.inIdx = i)) <;> rfl

theorem info_counts (k : Fin nodeTable.length) (j : Fin 256) : (NodeInfo.fromNodeId (.node k j)).inCount = (row k).params.length ∧
    (NodeInfo.fromNodeId (.node k j)).atCount = (row k).atoms.length ∧ (NodeInfo.fromNodeId (.node k j)).outCount = (row k).outs.length := by
  simp [NodeInfo.fromNodeId, NodeInfo.inCount, NodeInfo.atCount, NodeInfo.outCount]

/-- **C43** The indices of the parameters of a node are dense, first all inputs, then all atoms. -/
theorem indices_dense (id : NodeId) (i : Nat) :
    (i < (NodeInfo.fromNodeId id).inCount + (NodeInfo.fromNodeId id).atCount → ∃ p, id.paramByIdx i = some p ∧
      (p.isAtom = true ↔ (NodeInfo.fromNodeId id).inCount ≤ i)) ∧
    ((NodeInfo.fromNodeId id).inCount + (NodeInfo.fromNodeId id).atCount ≤ i → id.paramByIdx i = none) := by
  cases id with
  | nop => simp [NodeInfo.fromNodeId, NodeInfo.inCount, NodeInfo.atCount, NodeId.paramByIdx]
  | node k j =>
    obtain ⟨h1, h2, -⟩ := info_counts k j
    rw [h1, h2]
    have hi := entries_idx (table_ok k)
    constructor
    · intro hlt
      have hm : i ∈ (entries (row k)).map (·.2.1) := by rw [hi]; exact List.mem_range.mpr hlt
      obtain ⟨e, he, rfl⟩ := List.mem_map.mp hm
      have hf : (entries (row k)).find? (fun e' => e'.2.1 = e.2.1) = some e :=
        (find_key (fun e : String × Nat × Bool => e.2.1) _ (entries_idx_nodup (table_ok k)) _ _).mpr ⟨he, rfl⟩
      refine ⟨⟨e.1, .node k j, e.2.1⟩, ?_, ?_⟩
      · rw [paramByIdx_eq, hf]; rfl
      · rw [isAtom_eq, hf]; exact entries_atom (table_ok k) he
    · intro hge
      rw [paramByIdx_eq, Option.map_eq_none_iff, List.find?_eq_none]
      intro e he
      have : e.2.1 ∈ (entries (row k)).map (·.2.1) := List.mem_map_of_mem (f := fun e : String × Nat × Bool => e.2.1) he
      rw [hi, List.mem_range] at this
      simp only [decide_eq_true_eq]
      omega

/-- **C43** Looking up an input by its number gives the parameter with this index if it is an input, and nothing otherwise. -/
theorem input_by_index (id : NodeId) (i : Nat) :
    id.inpParamByIdx i = if i < (NodeInfo.fromNodeId id).inCount then id.paramByIdx i else none := by
  cases id with
  | nop => simp [NodeInfo.fromNodeId, NodeInfo.inCount, NodeId.inpParamByIdx]
  | node k j =>
    rw [(info_counts k j).1]
    simp only [NodeId.inpParamByIdx, NodeId.paramByIdx]
    have hi := ok_idx (table_ok k)
    cases hf : (row k).params.find? (fun p => decide (p.idx = i)) with
    | some p =>
      have h1 := List.mem_of_find?_eq_some hf
      have h2 := List.find?_some hf
      simp only [decide_eq_true_eq] at h2
      have : p.idx ∈ (row k).params.map (·.idx) := List.mem_map_of_mem (f := fun p : ParamRow => p.idx) h1
      rw [hi, List.mem_range, h2] at this
      simp [this]
    | none =>
      split
      · next hlt =>
        have : i ∈ (row k).params.map (·.idx) := by rw [hi]; exact List.mem_range.mpr hlt
        obtain ⟨p, hp, rfl⟩ := List.mem_map.mp this
        rw [List.find?_eq_none] at hf
        have := hf p hp
        simp at this
      · rfl

/-- **C43** Looking up the atoms by their numbers 0, 1, … gives each atom parameter of the node exactly once. -/
theorem atoms_by_index (id : NodeId) :
    (∀ i, (id.atomParamByIdx i).isSome = true ↔ i < (NodeInfo.fromNodeId id).atCount) ∧
    (∀ i j p, id.atomParamByIdx i = some p → id.atomParamByIdx j = some p → i = j) ∧
    (∀ p, (∃ i, id.atomParamByIdx i = some p) ↔ (id.paramByIdx p.idx = some p ∧ p.isAtom = true)) := by
  cases id with
  | nop => simp [NodeInfo.fromNodeId, NodeInfo.atCount, NodeId.atomParamByIdx, NodeId.paramByIdx]
  | node k j =>
    rw [(info_counts k j).2.1]
    have hN := ok_atIdx (table_ok k)
    have hL := ok_atIdx_lt (table_ok k)
    have key := find_key (fun a : AtomRow => a.atIdx) (row k).atoms hN
    have hI := ok_inIdx (table_ok k)
    have hIn : ((row k).atoms.map (·.inIdx)).Nodup := by
      rw [hI]; exact List.nodup_range.map (fun a b h => by simpa using h)
    have hsome : ∀ i p, (NodeId.node k j).atomParamByIdx i = some p ↔
        ∃ a ∈ (row k).atoms, a.atIdx = i ∧ p = ⟨a.name, .node k j, a.inIdx⟩ := by
      intro i p
      simp only [NodeId.atomParamByIdx, Option.map_eq_some_iff]
      constructor
      · rintro ⟨a, ha, rfl⟩; rw [key] at ha; exact ⟨a, ha.1, ha.2, rfl⟩
      · rintro ⟨a, h1, h2, rfl⟩; exact ⟨a, (key _ _).mpr ⟨h1, h2⟩, rfl⟩
    refine ⟨fun i => ?_, fun i i' p h1 h2 => ?_, fun p => ?_⟩
    · constructor
      · intro h
        obtain ⟨p, hp⟩ := Option.isSome_iff_exists.mp h
        obtain ⟨a, ha, rfl, -⟩ := (hsome i p).mp hp
        exact hL a ha
      · intro hlt
        have hperm : i ∈ (row k).atoms.map (·.atIdx) := by
          have hsub : (row k).atoms.map (·.atIdx) ⊆ List.range (row k).atoms.length := by
            intro x hx
            obtain ⟨a, ha, rfl⟩ := List.mem_map.mp hx
            exact List.mem_range.mpr (hL a ha)
          have hp := (hN.subperm hsub).perm_of_length_le (by simp)
          exact hp.mem_iff.mpr (List.mem_range.mpr hlt)
        obtain ⟨a, ha, rfl⟩ := List.mem_map.mp hperm
        rw [(hsome a.atIdx ⟨a.name, .node k j, a.inIdx⟩).mpr ⟨a, ha, rfl, rfl⟩]; rfl
    · obtain ⟨a, ha, rfl, rfl⟩ := (hsome i p).mp h1
      obtain ⟨b, hb, rfl, he⟩ := (hsome i' _).mp h2
      have hab : a = b := List.inj_on_of_nodup_map hIn ha hb (by injection he)
      rw [hab]
    · rw [paramByIdx_iff]
      constructor
      · rintro ⟨i, hi⟩
        obtain ⟨a, ha, rfl, rfl⟩ := (hsome i p).mp hi
        have he : (a.name, a.inIdx, true) ∈ entries (row k) := List.mem_append_right _ (List.mem_map.mpr ⟨a, ha, rfl⟩)
        refine ⟨⟨rfl, rfl, true, he⟩, ?_⟩
        rw [isAtom_eq, (find_key (fun e : String × Nat × Bool => e.2.1) _ (entries_idx_nodup (table_ok k)) _ (a.name, a.inIdx, true)).mpr ⟨he, rfl⟩]
        rfl
      · rintro ⟨⟨-, hn, b, he⟩, hat⟩
        obtain ⟨nm, nd, ix⟩ := p
        simp only at hn he
        subst hn
        rw [isAtom_eq, (find_key (fun e : String × Nat × Bool => e.2.1) _ (entries_idx_nodup (table_ok k)) _ (nm, ix, b)).mpr ⟨he, rfl⟩] at hat
        simp only [Option.map_some, Option.getD_some] at hat
        subst hat
        rcases List.mem_append.mp he with h | h
        · obtain ⟨q, -, hq⟩ := List.mem_map.mp h; simp at hq
        · obtain ⟨a, ha, hq⟩ := List.mem_map.mp h
          injection hq with h1 h2
          injection h2 with h2 _
          subst h1; subst h2
          exact ⟨a.atIdx, (hsome _ _).mpr ⟨a, ha, rfl, rfl⟩⟩

/-- **C43** Ports: the index of an input or output name and the name of an index are inverse to each other. -/
theorem port_names (id : NodeId) (s : String) (i : Nat) :
    (id.inp s = some i ↔ id.inpNameByIdx i = some s ∧ i < (NodeInfo.fromNodeId id).inCount) ∧ (id.out s = some i ↔ id.outNameByIdx i = some s) := by
  cases id with
  | nop => simp [NodeId.inp, NodeId.inpNameByIdx, NodeId.out, NodeId.outNameByIdx]
  | node k j =>
    have ok := table_ok k
    have hpn : ((row k).params.map (·.name)).Nodup := (List.nodup_append.mp (ok_names ok)).1
    have hpi : ((row k).params.map (·.idx)).Nodup := by rw [ok_idx ok]; exact List.nodup_range
    have hon := ok_outNames ok
    have hoi : ((row k).outs.map (·.idx)).Nodup := by rw [ok_outs ok]; exact List.nodup_range
    rw [(info_counts k j).1]
    constructor
    · simp only [NodeId.inp, NodeId.inpNameByIdx, Option.map_eq_some_iff]
      constructor
      · rintro ⟨p, hp, rfl⟩
        obtain ⟨hm, rfl⟩ := (find_key (fun p : ParamRow => p.name) _ hpn _ _).mp hp
        rw [(find_key (fun p : ParamRow => p.idx) _ hpi _ p).mpr ⟨hm, rfl⟩]
        have : p.idx ∈ (row k).params.map (·.idx) := List.mem_map_of_mem (f := fun p : ParamRow => p.idx) hm
        rw [ok_idx ok, List.mem_range] at this
        exact ⟨rfl, this⟩
      · rintro ⟨h, hlt⟩
        have : i ∈ (row k).params.map (·.idx) := by rw [ok_idx ok]; exact List.mem_range.mpr hlt
        obtain ⟨p, hm, rfl⟩ := List.mem_map.mp this
        rw [(find_key (fun p : ParamRow => p.idx) _ hpi _ p).mpr ⟨hm, rfl⟩] at h
        injection h with h
        exact ⟨p, (find_key (fun p : ParamRow => p.name) _ hpn _ _).mpr ⟨hm, h⟩, rfl⟩
    · simp only [NodeId.out, NodeId.outNameByIdx, Option.map_eq_some_iff]
      constructor
      · rintro ⟨o, ho, rfl⟩
        obtain ⟨hm, rfl⟩ := (find_key (fun o : OutRow => o.name) _ hon _ _).mp ho
        exact ⟨o, (find_key (fun o : OutRow => o.idx) _ hoi _ o).mpr ⟨hm, rfl⟩, rfl⟩
      · rintro ⟨o, ho, rfl⟩
        obtain ⟨hm, rfl⟩ := (find_key (fun o : OutRow => o.idx) _ hoi _ _).mp ho
        exact ⟨o, (find_key (fun o : OutRow => o.name) _ hon _ o).mpr ⟨hm, rfl⟩, rfl⟩

/-- The table has the node `sin` with three inputs, and `smap` with two atoms. -/
example : (NodeId.fromStr "sin").inpParam "det" = some ⟨"det", NodeId.fromStr "sin", 1⟩ ∧ (NodeId.fromStr "sin").label = "Sin" ∧
    ((NodeId.fromStr "smap").atomParamByIdx 0).map (·.name) = some "clip" ∧ NodeId.fromStr "Sin" = .nop ∧
    (NodeId.fromStr "out").out "sig" = none ∧ (NodeId.fromStr "tseq").out "gat6" = some 11 := by decide +kernel

/-! ## C61: the lists of names of `NodeInfo` -/

/-- **C61** The name of an input according to the node information is the name of the parameter with this index. -/
theorem info_input_names_partial (id : NodeId) (i : Nat) (hi : i < (NodeInfo.fromNodeId id).inCount) :
    (NodeInfo.fromNodeId id).inName i = id.inpNameByIdx i := by
  cases id with
  | nop => simp [NodeInfo.fromNodeId, NodeInfo.inCount] at hi
  | node k j =>
    rw [(info_counts k j).1] at hi
    have hpi : ((row k).params.map (·.idx)).Nodup := by rw [ok_idx (table_ok k)]; exact List.nodup_range
    have hx : ((row k).params[i]'hi).idx = i := by
      have h1 : ((row k).params.map (·.idx))[i]'(by simpa using hi) = i := by
        simp only [ok_idx (table_ok k), List.getElem_range]
      simpa using h1
    have hf : (row k).params.find? (fun p => p.idx = i) = some ((row k).params[i]'hi) :=
      (find_key (fun p : ParamRow => p.idx) _ hpi _ _).mpr ⟨List.getElem_mem hi, hx⟩
    simp only [NodeInfo.fromNodeId, NodeInfo.inName, NodeId.inpNameByIdx, hf, List.getElem?_map, List.getElem?_eq_getElem hi, Option.map_some]

/-- **C61** The name of an output according to the node information is the name of the output with this index. -/
theorem info_output_names (id : NodeId) (i : Nat) : (NodeInfo.fromNodeId id).outName i = id.outNameByIdx i := by
  cases id with
  | nop => simp [NodeInfo.fromNodeId, NodeInfo.outName, NodeId.outNameByIdx]
  | node k j =>
    have hoi : ((row k).outs.map (·.idx)).Nodup := by rw [ok_outs (table_ok k)]; exact List.nodup_range
    simp only [NodeInfo.fromNodeId, NodeInfo.outName, NodeId.outNameByIdx, List.getElem?_map]
    congr 1
    by_cases hi : i < (row k).outs.length
    · have hx : ((row k).outs[i]'hi).idx = i := by
        have h1 : ((row k).outs.map (·.idx))[i]'(by simpa using hi) = i := by simp only [ok_outs (table_ok k), List.getElem_range]
        simpa using h1
      rw [List.getElem?_eq_getElem hi, (find_key (fun o : OutRow => o.idx) _ hoi _ _).mpr ⟨List.getElem_mem hi, hx⟩]
    · rw [List.getElem?_eq_none (by omega), eq_comm, List.find?_eq_none]
      intro o ho
      have : o.idx ∈ (row k).outs.map (·.idx) := List.mem_map_of_mem (f := fun o : OutRow => o.idx) ho
      rw [ok_outs (table_ok k), List.mem_range] at this
      simp only [decide_eq_true_eq]
      omega

theorem atom_order : ∀ k : Fin nodeTable.length, (row k).name ≠ "smap" →
    (row k).atoms.map (·.atIdx) = List.range (row k).atoms.length := by decide +kernel

/-- **C61** The name of an atom according to the node information is the name of the atom with this number, for all nodes but SMap. -/
theorem info_atom_names_partial (id : NodeId) (hid : id.name ≠ "smap") (i : Nat) :
    (NodeInfo.fromNodeId id).atName i = (id.atomParamByIdx i).map (·.name) := by
  cases id with
  | nop => simp [NodeInfo.fromNodeId, NodeInfo.atName, NodeId.atomParamByIdx]
  | node k j =>
    have hoi : ((row k).atoms.map (·.atIdx)).Nodup := ok_atIdx (table_ok k)
    have ho := atom_order k hid
    simp only [NodeInfo.fromNodeId, NodeInfo.atName, NodeId.atomParamByIdx, List.getElem?_map, Option.map_map, Function.comp_def]
    congr 1
    by_cases hi : i < (row k).atoms.length
    · have hx : ((row k).atoms[i]'hi).atIdx = i := by
        have h1 : ((row k).atoms.map (·.atIdx))[i]'(by simpa using hi) = i := by simp only [ho, List.getElem_range]
        simpa using h1
      rw [List.getElem?_eq_getElem hi, (find_key (fun o : AtomRow => o.atIdx) _ hoi _ _).mpr ⟨List.getElem_mem hi, hx⟩]
    · rw [List.getElem?_eq_none (by omega), eq_comm, List.find?_eq_none]
      intro o hm
      have := ok_atIdx_lt (table_ok k) o hm
      simp only [decide_eq_true_eq]
      omega

/-- **C61** (negation) For SMap the node information calls the first atom `mode`, but the first atom is `clip`. -/
theorem smap_atoms_swapped : (NodeInfo.fromNodeId (NodeId.fromStr "smap")).atName 0 = some "mode" ∧
    ((NodeId.fromStr "smap").atomParamByIdx 0).map (·.name) = some "clip" := by decide +kernel

/-- **C61** (negation) `in_name` is wrong for atoms: index 6 of the sampler is the atom `sample`, but it finds no name for it. -/
theorem in_name_of_atom_missing : (NodeId.fromStr "sampl").inpNameByIdx 6 = some "sample" ∧
    (NodeInfo.fromNodeId (NodeId.fromStr "sampl")).inName 6 = none := by decide +kernel

/-- **C61** (negation) For `midicc` the name found for the index of `cc1` is that of another atom. -/
theorem in_name_of_atom_wrong : (NodeId.fromStr "midicc").inpNameByIdx 2 = some "cc1" ∧
    (NodeInfo.fromNodeId (NodeId.fromStr "midicc")).inName 2 = some "cc2" := by decide +kernel

example : (NodeInfo.fromNodeId (NodeId.fromStr "sampl")).inName 4 = some "dcms" ∧
    (NodeInfo.fromNodeId (NodeId.fromStr "sampl")).atName 3 = some "dir" := by decide +kernel

end HexoDSP.TableProps
