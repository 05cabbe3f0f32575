import Verif.Spec.Repr
import Verif.Lemmas.BlockDoc
import Verif.Props.NodeTable
/-! # Reading back what was written, piece by piece -/

set_option linter.unusedSectionVars false

namespace HexoDSP.Repr
open HexoDSP.Json HexoDSP.Table HexoDSP.TableProps
open HexoDSP.Tracker (PatternRepr)

variable {F : Type} {O : Floats F}

theorem int_round {i : Int} (h : IsI64 i) : (Value.int i : Value F).asI64 = some i := Block.coord_round h

theorem usize_small {n : Nat} (h : FitsI64 n) : usizeOf (.int n : Value F) = n := Block.small_usize h

theorem fits_of_lt {n : Nat} (h : n < 4294967296) : FitsI64 n := by unfold FitsI64; omega

theorem i64_of_i32 {i : Int} (h : IsI32 i) : IsI64 i := by unfold IsI32 at h; unfold IsI64; omega

theorem asI32_of {i : Int} (h : IsI32 i) : asI32 i = i := by unfold IsI32 at h; unfold asI32; omega

theorem asU8_of {n : Nat} (h : n < 256) : asU8 n = n := by unfold asU8; omega

theorem i64_nat {n : Nat} (h : n < 256) : IsI64 n := by unfold IsI64; omega

theorem i64_neg_one : IsI64 (-1) := by unfold IsI64; omega

theorem inst_lt (id : NodeId) : id.inst < 256 := by
  cases id with
  | nop => exact Nat.zero_lt_succ _
  | node k i => exact i.isLt

theorem fromStr_ne {id : NodeId} (h : id ≠ .nop) : NodeId.fromStr id.name ≠ .nop := by
  intro hx
  have := node_id_round_trip id
  rw [hx] at this
  exact h this.symm

theorem nodeId_round {id : NodeId} (h : id ≠ .nop) {v : Value F} {i1 i2 : Nat} (h1 : v.at i1 = .str id.name) (h2 : v.at i2 = .int id.inst) :
    deserNodeId v i1 i2 = .ok id := by
  unfold deserNodeId
  rw [h1, h2]
  show (if NodeId.fromStr id.name = .nop then _ else Except.ok ((NodeId.fromStr id.name).toInstance (usizeOf (.int id.inst : Value F)))) = _
  rw [if_neg (fromStr_ne h), usize_small (fits_of_lt (Nat.lt_trans (inst_lt id) (by omega))), node_id_round_trip]

theorem idx_of_str {s : String} : asI16 ((Value.str s : Value F).asI64.getD (-2)) = -2 := by
  show asI16 (-2) = -2
  decide

theorem idx_of_neg : asI16 ((Value.int (-1) : Value F).asI64.getD (-2)) = -1 := by
  rw [int_round i64_neg_one]
  show asI16 (-1) = -1
  decide

theorem inCount_le (id : NodeId) : (NodeInfo.fromNodeId id).inCount ≤ 256 := by
  cases id with
  | nop => exact Nat.zero_le _
  | node k j => rw [(info_counts k j).1]; have := ok_size (table_ok k); omega

theorem outs_le : ∀ k : Fin nodeTable.length, (row k).outs.length ≤ 256 := by decide +kernel

theorem outCount_le (id : NodeId) : (NodeInfo.fromNodeId id).outCount ≤ 256 := by
  cases id with
  | nop => exact Nat.zero_le _
  | node k j =>
    have := outs_le k
    simpa [NodeInfo.fromNodeId, NodeInfo.outCount] using this

theorem inp_name {id : NodeId} {n : Nat} (h : n < (NodeInfo.fromNodeId id).inCount) : ∃ s, id.inpNameByIdx n = some s ∧ id.inp s = some n := by
  have h1 := info_input_names_partial id n h
  have h2 : ∃ s, (NodeInfo.fromNodeId id).inName n = some s := by
    unfold NodeInfo.inCount at h
    unfold NodeInfo.inName
    rw [List.getElem?_eq_getElem h]
    exact ⟨_, rfl⟩
  obtain ⟨s, hs⟩ := h2
  rw [h1] at hs
  exact ⟨s, hs, (port_names id s n).1.2 ⟨hs, h⟩⟩

theorem out_name {id : NodeId} {n : Nat} (h : n < (NodeInfo.fromNodeId id).outCount) : ∃ s, id.outNameByIdx n = some s ∧ id.out s = some n := by
  have h1 := info_output_names id n
  have h2 : ∃ s, (NodeInfo.fromNodeId id).outName n = some s := by
    unfold NodeInfo.outCount at h
    unfold NodeInfo.outName
    rw [List.getElem?_eq_getElem h]
    exact ⟨_, rfl⟩
  obtain ⟨s, hs⟩ := h2
  rw [h1] at hs
  exact ⟨s, hs, (port_names id s n).2.2 hs⟩

theorem inp_round {id : NodeId} {i : Int} (h : InpOk id i) : inp2idx id (inpIdx2value id i : Value F) = i := by
  rcases h with rfl | ⟨n, rfl, hn⟩
  · unfold inpIdx2value inp2idx
    rw [if_pos rfl, idx_of_neg]
    simp
  · obtain ⟨s, h1, h2⟩ := inp_name hn
    have := inCount_le id
    unfold inpIdx2value
    rw [if_neg (by omega), asU8_of (by omega), h1]
    simp only
    unfold inp2idx
    rw [idx_of_str, if_neg (by omega)]
    show (match id.inp s with
      | none => (-1 : Int)
      | some i => (i : Int)) = (n : Int)
    rw [h2]

theorem out_round {id : NodeId} {i : Int} (h : OutOk id i) : out2idx id (outIdx2value id i : Value F) = i := by
  rcases h with rfl | ⟨n, rfl, hn⟩
  · unfold outIdx2value out2idx
    rw [if_pos rfl, idx_of_neg]
    simp
  · obtain ⟨s, h1, h2⟩ := out_name hn
    have := outCount_le id
    unfold outIdx2value
    rw [if_neg (by omega), asU8_of (by omega), h1]
    simp only
    unfold out2idx
    rw [idx_of_str, if_neg (by omega)]
    show (match id.out s with
      | none => (-1 : Int)
      | some i => (i : Int)) = (n : Int)
    rw [h2]

theorem cell_round {c : CellRepr} (h : c.Valid) : CellRepr.deserialize (c.serialize : Value F) = .ok c := by
  obtain ⟨h1, h2, h3, h4, h5, h6, h7, h8, h9⟩ := h
  unfold CellRepr.deserialize
  rw [nodeId_round h1 (v := c.serialize) (i1 := 0) (i2 := 1) rfl rfl]
  have k2 : (c.serialize : Value F).at 2 = .int c.x := rfl
  have k3 : (c.serialize : Value F).at 3 = .int c.y := rfl
  have k4 : (c.serialize : Value F).at 4 = .arr [inpIdx2value c.nodeId c.inp.1, inpIdx2value c.nodeId c.inp.2.1, inpIdx2value c.nodeId c.inp.2.2] := rfl
  have k5 : (c.serialize : Value F).at 5 = .arr [outIdx2value c.nodeId c.out.1, outIdx2value c.nodeId c.out.2.1, outIdx2value c.nodeId c.out.2.2] := rfl
  have a0 : ∀ x y z : Value F, (Value.arr [x, y, z]).at 0 = x := fun _ _ _ => rfl
  have a1 : ∀ x y z : Value F, (Value.arr [x, y, z]).at 1 = y := fun _ _ _ => rfl
  have a2 : ∀ x y z : Value F, (Value.arr [x, y, z]).at 2 = z := fun _ _ _ => rfl
  simp only [k2, k3, k4, k5, a0, a1, a2, usize_small h2, usize_small h3, inp_round h4, inp_round h5, inp_round h6, out_round h7, out_round h8, out_round h9]

theorem param_round {e : ParamId × F × Option F} (hg : Genuine e.1) (hf : O.finite e.2.1 = true) (hm : ∀ m, e.2.2 = some m → O.finite m = true) :
    deserParam O (serParam O e) = .ok e := by
  obtain ⟨p, x, m⟩ := e
  have hn : p.node ≠ .nop := by
    intro hx
    unfold Genuine at hg
    simp only at hg
    rw [hx] at hg
    cases hg
  have hx : ofFloat O x = .float x := by unfold ofFloat; simp only at hf; rw [if_pos hf]
  unfold deserParam
  rw [nodeId_round hn (v := serParam O (p, x, m)) (i1 := 0) (i2 := 1) rfl rfl]
  have k2 : (serParam O (p, x, m)).at 2 = .str p.name := rfl
  have k3 : (serParam O (p, x, m)).at 3 = ofFloat O x := rfl
  have k4 : (serParam O (p, x, m)).at 4 = (match m with
      | none => Value.null
      | some m => ofFloat O m) := by cases m <;> rfl
  have s2 : (Value.str p.name : Value F).asStr.getD "" = p.name := rfl
  simp only [k2, k3, k4, s2, hx]
  have hg' : p.node.inpParam p.name = some p := hg
  rw [hg']
  simp only
  cases m with
  | none => rfl
  | some m =>
    have h2 : ofFloat O m = .float m := by unfold ofFloat; rw [if_pos (hm m rfl)]
    simp only [h2]
    rfl

theorem finite_round {x : F} (h : O.finite x = true) : (ofFloat O x).asF64 O = some x := by unfold ofFloat; rw [if_pos h]; rfl

theorem micro_round (v : Value F) : ∀ (l : List F) (is : List Nat), l.length = is.length →
    (∀ j, (h : j < l.length) → (h' : j < is.length) → v.at (is[j] + 1) = ofFloat O l[j]) → (∀ x ∈ l, O.finite x = true) →
    deserMicro O v is = .ok l := by
  intro l
  induction l with
  | nil =>
    intro is hl _ _
    rw [List.length_nil] at hl
    rw [List.eq_nil_of_length_eq_zero hl.symm]
    rfl
  | cons x l ih =>
    intro is hl hv hf
    cases is with
    | nil => simp at hl
    | cons i is =>
      unfold deserMicro
      have h0 := hv 0 (by simp) (by simp)
      simp only [List.getElem_cons_zero] at h0
      rw [h0, finite_round (hf x (by simp))]
      simp only
      rw [ih is (by simpa using hl) (fun j h h' => hv (j + 1) (Nat.succ_lt_succ h) (Nat.succ_lt_succ h')) (fun y hy => hf y (by simp [hy]))]

theorem atom_round {a : SAtom F} (h : a.Valid O) : ∃ v, serAtom O a = some v ∧ deserAtom O v = .ok a.unloaded := by
  cases a with
  | str s => exact ⟨_, rfl, rfl⟩
  | audio s d => exact ⟨_, rfl, rfl⟩
  | setting i =>
    refine ⟨_, rfl, ?_⟩
    have h' : (Value.int i : Value F).asI64 = some i := int_round h
    show (match (Value.int i : Value F).asI64 with
      | some i => Except.ok (SAtom.setting i)
      | none => Except.error Fail.invalidAtom) = _
    rw [h']
    rfl
  | param x =>
    refine ⟨_, rfl, ?_⟩
    show (match (ofFloat O x).asF64 O with
      | some i => Except.ok (SAtom.param i)
      | none => Except.error Fail.invalidAtom) = _
    rw [finite_round h]
    rfl
  | micro l =>
    obtain ⟨hl, hf⟩ := h
    refine ⟨.arr (.str "ms" :: l.map (ofFloat O)), ?_, ?_⟩
    · unfold serAtom
      simp only
      rw [if_pos (by omega), List.take_of_length_le (by omega)]
    · show (match deserMicro O (.arr (.str "ms" :: l.map (ofFloat O))) (List.range 8) with
        | .error e => Except.error e
        | .ok l => Except.ok (SAtom.micro l)) = _
      rw [micro_round _ l (List.range 8) (by simp [hl]) ?_ hf]
      · rfl
      · intro j h h'
        rw [List.getElem_range]
        show (Value.str "ms" :: l.map (ofFloat O)).getD (j + 1) .null = _
        rw [List.getD_cons_succ, List.getD_eq_getElem?_getD, List.getElem?_map, List.getElem?_eq_getElem h]
        rfl

theorem atomRow_round {e : ParamId × SAtom F} (hg : Genuine e.1) (h : e.2.Valid O) :
    ∃ v, serAtomRow O e = some v ∧ deserAtomRow O v = .ok (some (e.1, e.2.unloaded)) := by
  obtain ⟨p, a⟩ := e
  obtain ⟨v, h1, h2⟩ := atom_round h
  have hn : p.node ≠ .nop := by
    intro hx
    unfold Genuine at hg
    simp only at hg
    rw [hx] at hg
    cases hg
  refine ⟨.arr [.str p.node.name, .int p.node.inst, .str p.name, v], ?_, ?_⟩
  · unfold serAtomRow
    simp only at h1 ⊢
    rw [h1]
    rfl
  · unfold deserAtomRow
    rw [nodeId_round hn (v := .arr [.str p.node.name, .int p.node.inst, .str p.name, v]) (i1 := 0) (i2 := 1) rfl rfl]
    have k2 : ((Value.arr [.str p.node.name, .int p.node.inst, .str p.name, v] : Value F).at 2).asStr.getD "" = p.name := rfl
    have k3 : (Value.arr [.str p.node.name, .int p.node.inst, .str p.name, v] : Value F).at 3 = v := rfl
    have hg' : p.node.inpParam p.name = some p := hg
    simp only [k2, k3, hg', h2]

theorem prop_round {e : String × SAtom F} (h : e.2.Valid O) : ∃ v, serProp O e = some v ∧ deserProp O v = .ok (e.1, e.2.unloaded) := by
  obtain ⟨k, a⟩ := e
  obtain ⟨v, h1, h2⟩ := atom_round h
  refine ⟨.arr [.str k, v], ?_, ?_⟩
  · unfold serProp
    simp only at h1 ⊢
    rw [h1]
    rfl
  · unfold deserProp
    have k3 : (Value.arr [.str k, v] : Value F).at 1 = v := rfl
    rw [k3, h2]
    rfl

theorem gather_ok {α β : Type} {f : α → Except Fail β} {g : α → β} : ∀ {l : List α}, (∀ a ∈ l, f a = .ok (g a)) → gather f l = .ok (l.map g) := by
  intro l
  induction l with
  | nil => intro _; rfl
  | cons a l ih =>
    intro h
    unfold gather
    rw [h a (by simp)]
    simp only
    rw [ih (fun b hb => h b (by simp [hb]))]
    rfl

theorem collect_gather {α β γ : Type} {f : α → Option β} {d : β → Except Fail γ} {g : α → γ} : ∀ {l : List α},
    (∀ a ∈ l, ∃ v, f a = some v ∧ d v = .ok (g a)) → ∃ vs, collect f l = some vs ∧ gather d vs = .ok (l.map g) := by
  intro l
  induction l with
  | nil => intro _; exact ⟨[], rfl, rfl⟩
  | cons a l ih =>
    intro h
    obtain ⟨v, h1, h2⟩ := h a (by simp)
    obtain ⟨vs, h3, h4⟩ := ih (fun b hb => h b (by simp [hb]))
    refine ⟨v :: vs, ?_, ?_⟩
    · unfold collect
      rw [h1]
      simp only
      rw [h3]
    · unfold gather
      rw [h2]
      simp only
      rw [h4]
      rfl

theorem sortByKey_perm {α K : Type} [LinearOrder K] (key : α → K) (l : List α) : (sortByKey key l).Perm l := List.perm_insertionSort _ _

theorem pattern_round {p : PatternRepr} (h : PatternValid p) : deserPattern (serPattern p : Value F) = .ok p := by
  obtain ⟨h1, h2, h3, h4, h5, h6, h7⟩ := h
  have kc : ((serPattern p : Value F).key "col_types").elems = (List.finRange 6).map (fun c => .int (p.colTypes c)) := rfl
  have kd : ((serPattern p : Value F).key "data").elems = p.data.map (fun row => .arr (row.map (fun v => .int v))) := rfl
  have kr : (serPattern p : Value F).key "rows" = .int p.rows := rfl
  have ke : (serPattern p : Value F).key "edit_step" = .int p.editStep := rfl
  have k1 : (serPattern p : Value F).key "cursor_row" = .int p.cursor.1 := rfl
  have k2 : (serPattern p : Value F).key "cursor_col" = .int p.cursor.2 := rfl
  have hl : tooLarge (p.data.map (fun row => (Value.arr (row.map (fun v => .int v)) : Value F))) = false := by
    unfold tooLarge
    rw [List.any_eq_false]
    rintro ⟨v, i⟩ hm
    rw [List.mem_zipIdx_iff_getElem?] at hm
    rw [List.getElem?_map, Option.map_eq_some_iff] at hm
    obtain ⟨row, hr, rfl⟩ := hm
    have hi := (List.getElem?_eq_some_iff.1 hr).1
    have hlen := (h3 row (List.mem_of_getElem? hr)).1
    have he : (Value.arr (row.map (fun v => .int v)) : Value F).elems.length = 6 := by show (row.map _).length = 6; rw [List.length_map, hlen]
    simp only
    rw [he]
    simp only [Nat.lt_irrefl, decide_false, Bool.false_or]
    rw [decide_eq_false (by omega)]
    simp
  unfold deserPattern
  simp only [kc, kd, kr, ke, k1, k2, hl, usize_small h4, usize_small h5, usize_small h6, usize_small h7]
  rw [if_neg (by simp)]
  simp only [Bool.false_eq_true, if_false]
  congr 1
  obtain ⟨ct, data, rows, es, cur⟩ := p
  simp only at h1 h2 h3 ⊢
  congr 1
  · funext c
    rw [List.getElem?_map, List.getElem?_eq_getElem (by simp), Option.map_some]
    simp only [List.getElem_finRange]
    rw [int_round (i64_nat (h1 _)), Option.getD_some]
    exact asU8_of (h1 _)
  · refine List.ext_getElem? ?_
    intro r
    rw [List.getElem?_map]
    by_cases hr : r < 256
    · rw [List.getElem?_range hr, Option.map_some, List.getElem?_map, List.getElem?_eq_getElem (h := show r < data.length by omega), Option.map_some]
      simp only
      congr 1
      refine List.ext_getElem? ?_
      intro c
      rw [List.getElem?_map]
      obtain ⟨g1, g2⟩ := h3 data[r] (List.getElem_mem _)
      have he : (Value.arr (data[r].map (fun v => .int v)) : Value F).elems = data[r].map (fun v => .int v) := rfl
      rw [he]
      by_cases hc : c < 6
      · rw [List.getElem?_range hc, Option.map_some, List.getElem?_map, List.getElem?_eq_getElem (h := show c < data[r].length by omega), Option.map_some]
        simp only
        have := g2 (data[r][c]'(by omega)) (List.getElem_mem _)
        rw [int_round (i64_of_i32 this), Option.getD_some, asI32_of this]
      · rw [List.getElem?_eq_none (by simp; omega), List.getElem?_eq_none (by omega)]
        rfl
    · rw [List.getElem?_eq_none (by simp; omega), List.getElem?_eq_none (by omega)]
      rfl

end HexoDSP.Repr
