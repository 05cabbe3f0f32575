import Verif.Spec.Block
/-! # Numbers and blocks in documents -/

namespace HexoDSP.Block
open HexoDSP.Json

variable {F : Type}

theorem coord_round {i : Int} (h : -2 ^ 63 ≤ i ∧ i < 2 ^ 63) : (Value.int i : Value F).asI64 = some i := by
  show (if _ then _ else _) = _
  rw [if_pos h]

theorem usizeAsI64_range (n : Nat) : -2 ^ 63 ≤ usizeAsI64 n ∧ usizeAsI64 n < 2 ^ 63 := by
  unfold usizeAsI64
  omega

theorem i64AsUsize_usizeAsI64 {n : Nat} (h : n < 2 ^ 64) : i64AsUsize (usizeAsI64 n) = n := by
  unfold i64AsUsize usizeAsI64
  omega

theorem i64AsUsize_small {n : Nat} (h : n < 2 ^ 63) : i64AsUsize n = n := by
  unfold i64AsUsize
  omega

theorem usize_round {n : Nat} (h : n < 2 ^ 64) : usizeOf (.int (usizeAsI64 n) : Value F) = n := by
  unfold usizeOf
  rw [coord_round (usizeAsI64_range n), Option.getD_some, i64AsUsize_usizeAsI64 h]

theorem small_int {n : Nat} (h : n < 2 ^ 63) : (Value.int n : Value F).asI64 = some (n : Int) := coord_round (by omega)

theorem small_round {n : Nat} (h : n < 2 ^ 63) : (Value.int n : Value F).asI64.map i64AsUsize = some n := by
  rw [small_int h, Option.map_some, i64AsUsize_small h]

theorem small_usize {n : Nat} (h : n < 2 ^ 63) : usizeOf (.int n : Value F) = n := by
  unfold usizeOf
  rw [small_int h, Option.getD_some, i64AsUsize_small h]

theorem strs_round (l : List (Option String)) : ((l.map ofOptStr : List (Value F)).map Value.asStr) = l := by
  rw [List.map_map]
  conv => rhs; rw [← List.map_id l]
  refine List.map_congr_left ?_
  intro a _
  cases a <;> rfl

theorem deserialize_id (v : Value F) : (Block.deserialize v).id = usizeOf (v.key "id") := rfl
theorem deserialize_rows (v : Value F) : (Block.deserialize v).rows = usizeOf (v.key "rows") := rfl
theorem deserialize_color (v : Value F) : (Block.deserialize v).color = usizeOf (v.key "color") := rfl
theorem deserialize_contains (v : Value F) : (Block.deserialize v).contains =
    (((v.key "contains").at 0).asI64.map i64AsUsize, ((v.key "contains").at 1).asI64.map i64AsUsize) := rfl
theorem deserialize_expanded (v : Value F) : (Block.deserialize v).expanded = (v.key "expanded").asBool.getD true := rfl
theorem deserialize_typ (v : Value F) : (Block.deserialize v).typ = (v.key "typ").asStr.getD "?" := rfl
theorem deserialize_lbl (v : Value F) : (Block.deserialize v).lbl = (v.key "lbl").asStr.getD "?" := rfl
theorem deserialize_inputs (v : Value F) : (Block.deserialize v).inputs = (v.key "inputs").elems.map Value.asStr := rfl
theorem deserialize_outputs (v : Value F) : (Block.deserialize v).outputs = (v.key "outputs").elems.map Value.asStr := rfl
theorem deserialize_size (v : Value F) : (Area.deserialize v).size = (usizeOf ((v.key "size").at 0), usizeOf ((v.key "size").at 1)) := rfl
theorem deserialize_curId (v : Value F) : (Snapshot.deserialize v).curId = usizeOf (v.key "current_block_id_counter") := rfl

theorem block_round (b : Block) (h1 : b.id < 2 ^ 64) (h2 : b.rows < 2 ^ 64) (h3 : ∀ c ∈ b.subs, c < 2 ^ 63) (h4 : b.color < 2 ^ 63) :
    Block.deserialize (b.serialize : Value F) = b := by
  have kid : (b.serialize : Value F).key "id" = .int (usizeAsI64 b.id) := rfl
  have kc1 : ((b.serialize : Value F).key "contains").at 0 = (match b.contains.1 with
      | some n => (Value.int n : Value F)
      | none => .null) := rfl
  have kc2 : ((b.serialize : Value F).key "contains").at 1 = (match b.contains.2 with
      | some n => (Value.int n : Value F)
      | none => .null) := rfl
  have kexp : (b.serialize : Value F).key "expanded" = .bool b.expanded := rfl
  have ktyp : (b.serialize : Value F).key "typ" = .str b.typ := rfl
  have klbl : (b.serialize : Value F).key "lbl" = .str b.lbl := rfl
  have kin : (b.serialize : Value F).key "inputs" = .arr (b.inputs.map ofOptStr) := rfl
  have kout : (b.serialize : Value F).key "outputs" = .arr (b.outputs.map ofOptStr) := rfl
  have krows : (b.serialize : Value F).key "rows" = .int (usizeAsI64 b.rows) := rfl
  have kcolor : (b.serialize : Value F).key "color" = .int b.color := rfl
  have hs : ∀ l : List (Option String), ((Value.arr (l.map ofOptStr) : Value F).elems.map Value.asStr) = l := strs_round
  have hc : ∀ c : Option Nat, (∀ n, c = some n → n < 2 ^ 63) → (match c with
      | some n => (Value.int n : Value F)
      | none => .null).asI64.map i64AsUsize = c := by
    intro c hc
    cases c with
    | none => rfl
    | some n => exact small_round (hc n rfl)
  have e1 := hc b.contains.1 (fun n hn => h3 n (by unfold Block.subs; simp [hn]))
  have e2 := hc b.contains.2 (fun n hn => h3 n (by unfold Block.subs; simp [hn]))
  have k : ∀ {a b : Block}, a.id = b.id → a.rows = b.rows → a.contains = b.contains → a.expanded = b.expanded → a.typ = b.typ → a.lbl = b.lbl →
      a.inputs = b.inputs → a.outputs = b.outputs → a.color = b.color → a = b := by
    intro a b g1 g2 g3 g4 g5 g6 g7 g8 g9
    cases a; cases b
    simp only at g1 g2 g3 g4 g5 g6 g7 g8 g9
    subst g1 g2 g3 g4 g5 g6 g7 g8 g9
    rfl
  refine k ?_ ?_ ?_ ?_ ?_ ?_ ?_ ?_ ?_
  · rw [deserialize_id, kid, usize_round h1]
  · rw [deserialize_rows, krows, usize_round h2]
  · rw [deserialize_contains, kc1, kc2, e1, e2]
  · rw [deserialize_expanded, kexp]; rfl
  · rw [deserialize_typ, ktyp]; rfl
  · rw [deserialize_lbl, klbl]; rfl
  · rw [deserialize_inputs, kin, hs]
  · rw [deserialize_outputs, kout, hs]
  · rw [deserialize_color, kcolor, small_usize h4]

end HexoDSP.Block
