import Verif.Props.Block
/-! # What the calls on block programs do -/

set_option linter.unusedSectionVars false
set_option linter.dupNamespace false

namespace HexoDSP.BlockProps
open HexoDSP.Block HexoDSP.Json

theorem modify_blockAt {areas : List Area} {cur g id : Nat} {p : Pos} {b : Block} (h : id < areas.length) (j : Nat) (q : Pos) :
    BlockFun.blockAt { areas := areas.modify id (fun a => a.setBlockAt p b), curId := cur, generation := g } j q =
      if j = id ∧ q = p then some b else (areas[j]?).bind (fun a => a.blocks.lookup q) := by
  have ha := List.getElem?_eq_getElem h
  unfold BlockFun.blockAt
  simp only
  rw [modify_eq_set _ _ _ _ ha, List.getElem?_set]
  by_cases hj : id = j
  · subst hj
    rw [if_pos rfl, if_pos h, Option.bind_some, ha, Option.bind_some]
    simp only [true_and]
    show (Map.insert _ p b).lookup q = _
    by_cases hq : q = p
    · subst hq
      rw [if_pos rfl, HexoDSP.lookup_insert_self]
    · rw [if_neg hq, HexoDSP.lookup_insert_ne _ _ _ _ hq]
  · rw [if_neg hj, if_neg (fun hx => hj hx.1.symm)]

theorem append_blockAt (areas : List Area) (k j : Nat) (q : Pos) :
    ((areas ++ List.replicate k BlockFun.subArea)[j]?).bind (fun a => a.blocks.lookup q) = (areas[j]?).bind (fun a => a.blocks.lookup q) := by
  rw [List.getElem?_append]
  split
  · rfl
  · rename_i hj
    rw [List.getElem?_eq_none (l := areas) (by omega)]
    cases hx : (List.replicate k BlockFun.subArea)[j - areas.length]? with
    | none => rfl
    | some a => rw [(List.mem_replicate.1 (List.mem_of_getElem? hx)).2]; rfl

theorem createAreas_fields (f : BlockFun) (b : Block) : ∃ k, (f.createAreas b).1 = { f with areas := f.areas ++ List.replicate k BlockFun.subArea } ∧
    (f.createAreas b).2 = { b with contains := (f.createAreas b).2.contains } ∧
    (f.createAreas b).2.subs = List.range' f.areas.length k ∧ k = b.subs.length := by
  obtain ⟨id, rows, ⟨c1, c2⟩, expanded, typ, lbl, inputs, outputs, color⟩ := b
  unfold BlockFun.createAreas Block.subs
  cases c1 with
  | none =>
    cases c2 with
    | none => exact ⟨0, by simp, rfl, rfl, rfl⟩
    | some d => exact ⟨1, rfl, rfl, rfl, rfl⟩
  | some c =>
    cases c2 with
    | none => exact ⟨1, rfl, rfl, rfl, rfl⟩
    | some d => exact ⟨2, by simp, rfl, by simp [List.range'], rfl⟩

theorem touch_subs (t : BlockType) (b : Block) : (t.touchContains b).subs.length = t.subCount := by
  unfold BlockType.touchContains Block.subs BlockType.subCount
  match t.areaCount with
  | 0 => rfl
  | 1 => rfl
  | 2 => rfl
  | n + 3 => simp

/-- **C67** Placing a new block works exactly if the area and the type exist and the slots are free. -/
theorem instanciate_succeeds {L : Lang} (w : World) (id : Nat) (p : Pos) (typ : String) (ui : Option String) :
    (∃ w', w.step L (.instanciate id p typ ui) = some (w', .ok ())) ↔
      id < w.fn.areas.length ∧ ∃ t, L typ = some t ∧ ∀ r : Nat, r < t.rows → w.fn.originAt id (p.1, p.2 + r) = none := by
  simp only [World.step, Option.some.injEq, Prod.mk.injEq]
  unfold BlockFun.instanciateAt
  cases ha : w.fn.areas[id]? with
  | none =>
    constructor
    · rintro ⟨w', _, h⟩; cases h
    · rintro ⟨h, _⟩
      rw [List.getElem?_eq_getElem h] at ha
      cases ha
  | some a =>
    have hlt := (List.getElem?_eq_some_iff.1 ha).1
    simp only
    cases ht : L typ with
    | none =>
      constructor
      · rintro ⟨w', _, h⟩; cases h
      · rintro ⟨_, t, h, _⟩; cases h
    | some t =>
      simp only
      have hsp : a.checkSpace p t.rows = true ↔ ∀ r : Nat, r < t.rows → w.fn.originAt id (p.1, p.2 + r) = none := by
        unfold Area.checkSpace BlockFun.originAt
        rw [ha, List.all_eq_true]
        simp only [List.mem_range, Option.isNone_iff_eq_none, Option.bind_some]
      split
      · rename_i hc
        constructor
        · intro _; exact ⟨hlt, t, rfl, hsp.1 hc⟩
        · intro _; exact ⟨_, rfl, rfl⟩
      · rename_i hc
        constructor
        · rintro ⟨w', _, h⟩; cases h
        · rintro ⟨_, t', h, h2⟩
          cases h
          exact absurd (hsp.2 h2) hc

/-- **C67** A new block is placed at the slot, with the next id, the label given or the name of the type, and with new areas; all other blocks
stay. -/
theorem instanciate_places {L : Lang} {w w' : World} {id : Nat} {p : Pos} {typ : String} {ui : Option String}
    (hs : w.step L (.instanciate id p typ ui) = some (w', .ok ())) :
    ∃ t b, L typ = some t ∧ b.IsNew t (ui.getD t.name) (w.fn.curId + 1) ∧
      b.subs = List.range' w.fn.areas.length t.subCount ∧ w'.fn.areas.length = w.fn.areas.length + t.subCount ∧
      w'.fn.curId = w.fn.curId + 1 ∧ ∀ j q, w'.fn.blockAt j q = if j = id ∧ q = p then some b else w.fn.blockAt j q := by
  simp only [World.step, Option.some.injEq, Prod.mk.injEq] at hs
  obtain ⟨rfl, hs⟩ := hs
  unfold BlockFun.instanciateAt at hs ⊢
  cases ha : w.fn.areas[id]? with
  | none => rw [ha] at hs; cases hs
  | some a =>
    have hlt := (List.getElem?_eq_some_iff.1 ha).1
    rw [ha] at hs
    simp only at hs ⊢
    cases ht : L typ with
    | none => rw [ht] at hs; cases hs
    | some t =>
      rw [ht] at hs
      simp only at hs ⊢
      split at hs
      · rename_i hc
        obtain ⟨k, h1, h2, h3, h4⟩ := createAreas_fields { areas := w.fn.areas, curId := w.fn.curId + 1, generation := w.fn.generation }
          (t.instanciate ui (w.fn.curId + 1))
        have hk : k = t.subCount := h4.trans (touch_subs t _)
        subst hk
        rw [if_pos hc]
        generalize BlockFun.createAreas _ _ = cr at h1 h2 h3
        obtain ⟨f2, b2⟩ := cr
        simp only at h1 h2 h3 ⊢
        subst h1
        refine ⟨t, b2, rfl, ?_, h3, ?_, rfl, ?_⟩
        · rw [h2]; exact ⟨rfl, rfl, rfl, rfl, rfl, rfl, rfl, rfl⟩
        · simp
        · intro j q
          rw [modify_blockAt (by simp; omega), append_blockAt]
          rfl
      · cases hs

/-- **C67** Removing takes away the block of the slot and nothing else. -/
theorem remove_removes_partial {L : Lang} (hL : L.Tall) {w w' : World} (h : Reached L w) {id : Nat} {p : Pos}
    (hs : w.step L (.remove id p) = some (w', .ok ())) :
    ∃ o b, w.fn.blockAt id o = some b ∧ Covers o b p ∧
      ∀ j q, w'.fn.blockAt j q = if j = id ∧ q = o then none else w.fn.blockAt j q := by
  have hf := (reached_ok hL h).1
  simp only [World.step, Option.some.injEq, Prod.mk.injEq] at hs
  obtain ⟨rfl, hs⟩ := hs
  unfold BlockFun.removeAt at hs ⊢
  cases ha : w.fn.areas[id]? with
  | none => rw [ha] at hs; cases hs
  | some a =>
    have hlt := (List.getElem?_eq_some_iff.1 ha).1
    rw [ha] at hs
    simp only at hs ⊢
    cases hr : a.removeAt p with
    | none => rw [hr] at hs; cases hs
    | some r =>
      obtain ⟨b, o, a'⟩ := r
      obtain ⟨hmem, hcov, hok, hp, hbl, hrest⟩ := removeAt_some (hf.area ha) hr
      simp only at hmem hcov hok hp hbl hrest ⊢
      refine ⟨o, b, (blockAt_iff hf).2 ⟨a, ha, hmem⟩, hcov, ?_⟩
      intro j q
      unfold BlockFun.blockAt
      simp only [List.getElem?_set]
      by_cases hj : id = j
      · subst hj
        rw [if_pos rfl, if_pos hlt, ha]
        simp only [Option.bind_some, true_and]
        rw [hbl, lookup_filter a.blocks (fun p => p == o) q]
        by_cases hq : q = o
        · subst hq; simp
        · simp [hq]
      · rw [if_neg hj, if_neg (fun hx => hj hx.1.symm)]

/-- **C67** Moving a block: the block of the slot is at the target afterwards, so that the slot it was taken at is at the target, but not above
row zero; all other blocks stay. -/
theorem move_moves_partial {L : Lang} (hL : L.Tall) {w w' : World} (h : Reached L w) {id id2 : Nat} {p p2 : Pos}
    (hs : w.step L (.move id p id2 p2) = some (w', .ok ())) :
    ∃ o b y, w.fn.blockAt id o = some b ∧ Covers o b p ∧ (p.2 = o.2 → y = p2.2) ∧ (p.2 ≠ o.2 → y = max (p2.2 - (p.2 - o.2)) 0) ∧
      ∀ j q, w'.fn.blockAt j q = if j = id2 ∧ q = (p2.1, y) then some b else if j = id ∧ q = o then none else w.fn.blockAt j q := by
  have hf := (reached_ok hL h).1
  simp only [World.step, Option.map_eq_some_iff, Prod.mk.injEq] at hs
  obtain ⟨⟨f', r⟩, hmv, rfl, hr⟩ := hs
  simp only at hr
  subst hr
  unfold BlockFun.moveBlock at hmv
  split at hmv
  · cases hmv
  · cases hmv
  · cases ha : w.fn.areas[id]? with
    | none => rw [ha] at hmv; cases hmv
    | some a =>
      have hlt := (List.getElem?_eq_some_iff.1 ha).1
      rw [ha] at hmv
      simp only at hmv
      cases hrm : a.removeAt p with
      | none => rw [hrm] at hmv; cases hmv
      | some r =>
        obtain ⟨b, o, a'⟩ := r
        rw [hrm] at hmv
        obtain ⟨hmem, hcov, hok, hp, hbl, hrest⟩ := removeAt_some (hf.area ha) hrm
        simp only at hmv hmem hcov hok hp hbl hrest
        split at hmv
        · cases hmv
        · rename_i area2 ha2
          split at hmv
          · cases hmv
            have hlt2 : id2 < (w.fn.areas.set id a').length := (List.getElem?_eq_some_iff.1 ha2).1
            refine ⟨o, b, BlockFun.destY p.2 o.2 p2.2, (blockAt_iff hf).2 ⟨a, ha, hmem⟩, hcov, ?_, ?_, ?_⟩
            · intro he; unfold BlockFun.destY; rw [if_neg (by omega)]
            · intro hne; have := hcov.2.1; unfold BlockFun.destY; rw [if_pos (by omega)]
            · intro j q
              simp only
              rw [modify_blockAt hlt2]
              congr 1
              unfold BlockFun.blockAt
              rw [List.getElem?_set]
              by_cases hj : id = j
              · subst hj
                rw [if_pos rfl, if_pos hlt, ha]
                simp only [Option.bind_some, true_and]
                rw [hbl, lookup_filter a.blocks (fun p => p == o) q]
                by_cases hq : q = o
                · subst hq; simp
                · simp [hq]
              · rw [if_neg hj, if_neg (fun hx => hj hx.1.symm)]
          · cases hmv

/-- **C67** Cloning a block: the clone is at the target (as for moving), a block of the same type with the next id and with new areas; all other
blocks stay. -/
theorem clone_clones_partial {L : Lang} (hL : L.Tall) {w w' : World} (h : Reached L w) {id id2 : Nat} {p p2 : Pos}
    (hs : w.step L (.clone id p id2 p2) = some (w', .ok ())) :
    ∃ o b b' y, w.fn.blockAt id o = some b ∧ Covers o b p ∧ (p.2 = o.2 → y = p2.2) ∧ (p.2 ≠ o.2 → y = max (p2.2 - (p.2 - o.2)) 0) ∧
      b' = { b with id := w.fn.curId + 1, contains := b'.contains } ∧ w'.fn.curId = w.fn.curId + 1 ∧
      (∀ t, L b.typ = some t → b'.subs = List.range' w.fn.areas.length t.subCount ∧ w'.fn.areas.length = w.fn.areas.length + t.subCount) ∧
      ∀ j q, w'.fn.blockAt j q = if j = id2 ∧ q = (p2.1, y) then some b' else w.fn.blockAt j q := by
  have hf := (reached_ok hL h).1
  simp only [World.step, Option.some.injEq, Prod.mk.injEq] at hs
  obtain ⟨rfl, hs⟩ := hs
  unfold BlockFun.cloneBlock at hs ⊢
  cases ha : w.fn.areas[id]? with
  | none => rw [ha] at hs; cases hs
  | some a =>
    rw [ha] at hs
    simp only at hs ⊢
    cases hr : a.refAtOrigin p with
    | none => rw [hr] at hs; cases hs
    | some r =>
      obtain ⟨b, o⟩ := r
      rw [hr] at hs
      obtain ⟨hmem, hcov⟩ := (hf.area ha).refAt_some.1 hr
      simp only at hs ⊢
      have key : ∃ b1 : Block, (match L (b.cloneWithNewId (w.fn.curId + 1)).typ with
          | none => b.cloneWithNewId (w.fn.curId + 1)
          | some t => t.touchContains (b.cloneWithNewId (w.fn.curId + 1))) = b1 ∧
          b1 = { b with id := w.fn.curId + 1, contains := b1.contains } ∧ ∀ t, L b.typ = some t → b1.subs.length = t.subCount := by
        show ∃ b1 : Block, (match L b.typ with
          | none => b.cloneWithNewId (w.fn.curId + 1)
          | some t => t.touchContains (b.cloneWithNewId (w.fn.curId + 1))) = b1 ∧
          b1 = { b with id := w.fn.curId + 1, contains := b1.contains } ∧ ∀ t, L b.typ = some t → b1.subs.length = t.subCount
        cases L b.typ with
        | none => exact ⟨_, rfl, rfl, fun t ht => by cases ht⟩
        | some t => exact ⟨_, rfl, rfl, fun t' ht => by cases ht; exact touch_subs t _⟩
      obtain ⟨b1, hb1, hb1f, hb1s⟩ := key
      obtain ⟨k, h1, h2, h3, h4⟩ := createAreas_fields { areas := w.fn.areas, curId := w.fn.curId + 1, generation := w.fn.generation }
        (match L (b.cloneWithNewId (w.fn.curId + 1)).typ with
          | none => b.cloneWithNewId (w.fn.curId + 1)
          | some t => t.touchContains (b.cloneWithNewId (w.fn.curId + 1)))
      generalize BlockFun.createAreas _ _ = cr at hs h1 h2 h3 ⊢
      obtain ⟨f2, b2⟩ := cr
      rw [hb1] at h2 h4
      simp only at hs h1 h2 h3 ⊢
      subst h1
      split at hs
      · cases hs
      · rename_i area2 ha2
        split at hs
        · rename_i hc
          rw [if_pos hc]
          have hlt2 := (List.getElem?_eq_some_iff.1 ha2).1
          refine ⟨o, b, b2, BlockFun.destY p.2 o.2 p2.2, (blockAt_iff hf).2 ⟨a, ha, hmem⟩, hcov, ?_, ?_, ?_, rfl, ?_, ?_⟩
          · intro he; unfold BlockFun.destY; rw [if_neg (by omega)]
          · intro hne; have := hcov.2.1; unfold BlockFun.destY; rw [if_pos (by omega)]
          · rw [h2]; rw [hb1f]
          · intro t ht
            have hk : k = t.subCount := h4.trans (hb1s t ht)
            subst hk
            exact ⟨h3, by simp⟩
          · intro j q
            simp only
            rw [modify_blockAt hlt2, append_blockAt]
            rfl
        · cases hs

theorem mem_connected_iff {l : Load} {x : Int} {q : Pos} : q ∈ connectedInputs l x ↔ ∃ e e' : Pos × Block, ∃ r r' : Nat, e ∈ l ∧ e' ∈ l ∧
    e.1.1 = x ∧ e'.1.1 = x + 1 ∧ r ∈ e.2.outputRows ∧ r' ∈ e'.2.inputRows ∧ e.1.2 + (r : Int) = q.2 ∧ e'.1.2 + (r' : Int) = q.2 ∧ q.1 = x + 1 := by
  unfold connectedInputs
  rw [List.mem_flatMap]
  constructor
  · rintro ⟨e', he', hq⟩
    split at hq
    · rename_i hx
      obtain ⟨r', hr', rfl⟩ := List.mem_map.1 hq
      obtain ⟨h1, h2⟩ := List.mem_filter.1 hr'
      rw [decide_eq_true_eq] at h2
      obtain ⟨e, he, h3⟩ := List.mem_flatMap.1 h2
      split at h3
      · rename_i hx2
        obtain ⟨r, hr, h4⟩ := List.mem_map.1 h3
        exact ⟨e, e', r, r', he, he', hx2, hx, hr, h1, h4, rfl, hx⟩
      · cases h3
    · cases hq
  · rintro ⟨e, e', r, r', he, he', hx, hx', hr, hr', h1, h2, h3⟩
    refine ⟨e', he', ?_⟩
    rw [if_pos hx']
    refine List.mem_map.2 ⟨r', List.mem_filter.2 ⟨hr', ?_⟩, ?_⟩
    · rw [decide_eq_true_eq, List.mem_flatMap]
      refine ⟨e, he, ?_⟩
      rw [if_pos hx]
      exact List.mem_map.2 ⟨r, hr, by omega⟩
    · exact Prod.ext (by simp only; omega) h2

theorem mem_fillers_iff {t : BlockType} {cur : Nat} {ps : List Pos} {q : Pos} {b : Block} :
    (q, b) ∈ BlockFun.fillers t cur ps ↔ ∃ i, ps[i]? = some q ∧ b = t.instanciate none (cur + 1 + i) := by
  unfold BlockFun.fillers
  rw [List.mem_map]
  constructor
  · rintro ⟨⟨q', i⟩, hm, he⟩
    rw [List.mem_zipIdx_iff_getElem?] at hm
    cases he
    exact ⟨i, hm, rfl⟩
  · rintro ⟨i, hi, rfl⟩
    exact ⟨(q, i), by rw [List.mem_zipIdx_iff_getElem?]; exact hi, rfl⟩

/-- **C67** Splitting a chain right of the column of the slot. All blocks connected to the block of the slot and right of this column are moved
one column to the right; with a filler, wherever a connection crosses from this column to the next one, but not in the row of the slot, a new
block of this type is put in between; all other blocks stay, and there are no further blocks. -/
theorem chain_split_partial {L : Lang} (hL : L.Tall) {w w' : World} (h : Reached L w) (id : Nat) (p o : Pos) (b : Block) (filler : Option String)
    (hp : w.Proper L (.split id p filler)) (hb : w.fn.blockAt id o = some b) (hc : Covers o b p)
    (hs : w.step L (.split id p filler) = some (w', .ok ())) :
    (∀ j q b0, w.fn.blockAt j q = some b0 → ¬ (j = id ∧ w.fn.Connected id o q ∧ p.1 < q.1) → w'.fn.blockAt j q = some b0) ∧
    (∀ q b0, w.fn.blockAt id q = some b0 → w.fn.Connected id o q → p.1 < q.1 → w'.fn.blockAt id (q.1 + 1, q.2) = some b0) ∧
    (∀ s t, filler = some s → L s = some t → ∀ y, y ≠ p.2 →
      (∃ o1 o2, w.fn.Connected id o o1 ∧ w.fn.Connected id o o2 ∧ o1.1 = p.1 ∧ w.fn.WiredAt id o1 o2 y) →
      ∃ b' n, w'.fn.blockAt id (p.1 + 1, y) = some b' ∧ b'.IsNew t t.name n ∧ w.fn.curId < n) ∧
    (∀ j q b', w'.fn.blockAt j q = some b' →
      (w.fn.blockAt j q = some b' ∧ ¬ (j = id ∧ w.fn.Connected id o q ∧ p.1 < q.1)) ∨
      (j = id ∧ w.fn.blockAt id (q.1 - 1, q.2) = some b' ∧ w.fn.Connected id o (q.1 - 1, q.2) ∧ p.1 < q.1 - 1) ∨
      (j = id ∧ q.1 = p.1 + 1 ∧ q.2 ≠ p.2 ∧ ∃ s t n, filler = some s ∧ L s = some t ∧ b'.IsNew t t.name n ∧ w.fn.curId < n ∧
        ∃ o1 o2, w.fn.Connected id o o1 ∧ w.fn.Connected id o o2 ∧ o1.1 = p.1 ∧ w.fn.WiredAt id o1 o2 q.2)) := by
  have hf := (reached_ok hL h).1
  obtain ⟨a, ha, hm⟩ := (blockAt_iff hf).1 hb
  have hlt := (List.getElem?_eq_some_iff.1 ha).1
  have hr := (hf.area ha).refAt_some.2 ⟨hm, hc⟩
  simp only [World.step, Option.some.injEq, Prod.mk.injEq] at hs
  obtain ⟨rfl, hs⟩ := hs
  have hch : ∃ chain, a.chainAt p = some chain := by unfold Area.chainAt; rw [hr]; exact ⟨_, rfl⟩
  obtain ⟨chain, hchain⟩ := hch
  obtain ⟨o2, b2, hr2, hn, hmem⟩ := chainAt_spec (hf.area ha) hchain
  rw [hr] at hr2
  cases hr2
  have hk : ∀ q ∈ chain, ∃ b', (q, b') ∈ a.blocks := fun q hq => chain_keys (hf.area ha) hm ((hmem q).1 hq)
  obtain ⟨hrest, hload⟩ := removeLoad_chain (hf.area ha) hn hk
  obtain ⟨hok, hpr⟩ := removeLoad_ok (hf.area ha) chain
  have hlok : LoadOk (removeLoad a chain).1 := ((hf.area ha).load.perm hpr.symm).left
  have hba : ∀ q, w.fn.blockAt id q = a.blocks.lookup q := by intro q; unfold BlockFun.blockAt; rw [ha]; rfl
  have hcon : ∀ q, w.fn.Connected id o q ↔ q ∈ chain := fun q => by rw [connected_iff ha, hmem]
  -- membership in the parts
  have inLoad : ∀ q b0, (q, b0) ∈ (removeLoad a chain).1 ↔ q ∈ chain ∧ w.fn.blockAt id q = some b0 := by
    intro q b0
    rw [mem_iff_lookup hlok.keys, hload, hba]
    by_cases hq : q ∈ chain
    · rw [if_pos hq]; simp [hq]
    · rw [if_neg hq]; simp [hq]
  have inRest : ∀ q b0, (q, b0) ∈ (removeLoad a chain).2.blocks ↔ q ∉ chain ∧ w.fn.blockAt id q = some b0 := by
    intro q b0
    rw [mem_iff_lookup hok.load.keys, hrest, hba]
    by_cases hq : q ∈ chain
    · rw [if_pos hq]; simp [hq]
    · rw [if_neg hq]; simp [hq]
  have inShift : ∀ q b0, (q, b0) ∈ (removeLoad a chain).1.map (fun e => if e.1.1 > p.1 then ((e.1.1 + 1, e.1.2), e.2) else e) ↔
      (q ∈ chain ∧ w.fn.blockAt id q = some b0 ∧ ¬ p.1 < q.1) ∨
      ((q.1 - 1, q.2) ∈ chain ∧ w.fn.blockAt id (q.1 - 1, q.2) = some b0 ∧ p.1 < q.1 - 1) := by
    intro q b0
    rw [List.mem_map]
    constructor
    · rintro ⟨⟨q0, b1⟩, he, heq⟩
      obtain ⟨h1, h2⟩ := (inLoad q0 b1).1 he
      simp only at heq
      split at heq
      · rename_i hgt
        rw [Prod.mk.injEq] at heq
        obtain ⟨rfl, rfl⟩ := heq
        right
        have e1 : ((q0.1 + 1 - 1, q0.2) : Pos) = q0 := Prod.ext (by simp only; omega) rfl
        simp only
        rw [e1]
        exact ⟨h1, h2, by omega⟩
      · rename_i hgt
        rw [Prod.mk.injEq] at heq
        obtain ⟨rfl, rfl⟩ := heq
        exact .inl ⟨h1, h2, by omega⟩
    · rintro (⟨h1, h2, h3⟩ | ⟨h1, h2, h3⟩)
      · exact ⟨(q, b0), (inLoad q b0).2 ⟨h1, h2⟩, by simp only; rw [if_neg (by omega)]⟩
      · refine ⟨((q.1 - 1, q.2), b0), (inLoad _ b0).2 ⟨h1, h2⟩, ?_⟩
        simp only
        rw [if_pos (by omega)]
        exact Prod.ext (Prod.ext (by simp only; omega) rfl) rfl
  have inConn : ∀ q, q ∈ connectedInputs (removeLoad a chain).1 p.1 ↔ q.1 = p.1 + 1 ∧
      ∃ o1 o2, w.fn.Connected id o o1 ∧ w.fn.Connected id o o2 ∧ o1.1 = p.1 ∧ w.fn.WiredAt id o1 o2 q.2 := by
    intro q
    rw [mem_connected_iff]
    unfold Block.outputRows Block.inputRows BlockFun.WiredAt
    constructor
    · rintro ⟨⟨o1, e1⟩, ⟨o2, e2⟩, r, r', he, he', hx, hx', hr, hr', h1, h2, h3⟩
      obtain ⟨c1, d1⟩ := (inLoad o1 e1).1 he
      obtain ⟨c2, d2⟩ := (inLoad o2 e2).1 he'
      obtain ⟨g1, g2⟩ := List.mem_filter.1 hr
      obtain ⟨g1', g2'⟩ := List.mem_filter.1 hr'
      simp only at hx hx' h1 h2
      exact ⟨h3, o1, o2, (hcon _).2 c1, (hcon _).2 c2, hx, e1, e2, r, r', d1, d2, List.mem_range.1 g1, List.mem_range.1 g1', g2, g2',
        by omega, h1, h2⟩
    · rintro ⟨h3, o1, o2, c1, c2, hx, e1, e2, r, r', d1, d2, g1, g1', g2, g2', hx', h1, h2⟩
      exact ⟨(o1, e1), (o2, e2), r, r', (inLoad _ _).2 ⟨(hcon _).1 c1, d1⟩, (inLoad _ _).2 ⟨(hcon _).1 c2, d2⟩, hx, by simp only; omega,
        List.mem_filter.2 ⟨List.mem_range.2 g1, g2⟩, List.mem_filter.2 ⟨List.mem_range.2 g1', g2'⟩, h1, h2, h3⟩
  -- the new area
  have key : ∃ (typ : Option BlockType) (f2 : BlockFun), (∀ t, typ = some t → t.rows = 1) ∧
      (typ = none → ∀ s t, filler = some s → L s ≠ some t) ∧ (∀ t, typ = some t → ∃ s, filler = some s ∧ L s = some t) ∧
      (BlockFun.splitChain L w.fn id p filler).1 = f2 ∧
      f2.areas = w.fn.areas.set id ((removeLoad a chain).2.setBlocksFrom (BlockFun.splitLoad (removeLoad a chain).1 p.1 p.2 typ w.fn.curId).1) ∧
      hasSpaceFor (removeLoad a chain).2 (BlockFun.splitLoad (removeLoad a chain).1 p.1 p.2 typ w.fn.curId).1 0 0 = true := by
    unfold BlockFun.splitChain at hs ⊢
    rw [ha] at hs ⊢
    simp only [hchain] at hs ⊢
    cases filler with
    | none =>
      simp only at hs ⊢
      split at hs
      · rename_i hsp
        rw [if_pos hsp]
        exact ⟨none, _, (fun t ht => absurd ht (by simp)), (fun _ s t hx => absurd hx (by simp)), (fun t ht => absurd ht (by simp)), rfl, rfl, hsp⟩
      · cases hs
    | some s =>
      simp only at hs ⊢
      cases ht : L s with
      | none => rw [ht] at hs; cases hs
      | some t =>
        rw [ht] at hs
        simp only at hs ⊢
        split at hs
        · rename_i hsp
          rw [if_pos hsp]
          exact ⟨some t, _, (fun t' h' => by cases h'; exact (hp t ht).1), (fun hx => absurd hx (by simp)), (fun t' h' => by cases h'; exact ⟨s, rfl, ht⟩), rfl, rfl, hsp⟩
        · cases hs
  obtain ⟨typ, f2, ht1, ht2, ht3, hf2, hareas, hspace⟩ := key
  simp only
  rw [hf2]
  obtain ⟨hok2, hperm⟩ := setBlocksFrom_ok hok (splitLoad_ok hlok p.1 p.2 typ w.fn.curId ht1) hspace
  generalize hA : (removeLoad a chain).2.setBlocksFrom (BlockFun.splitLoad (removeLoad a chain).1 p.1 p.2 typ w.fn.curId).1 = A at hareas hok2 hperm
  have after : ∀ j q, f2.blockAt j q = if j = id then A.blocks.lookup q else w.fn.blockAt j q := by
    intro j q
    unfold BlockFun.blockAt
    rw [hareas, List.getElem?_set]
    by_cases hj : id = j
    · subst hj
      rw [if_pos rfl, if_pos hlt, if_pos rfl]
      rfl
    · rw [if_neg hj, if_neg (fun hx => hj hx.symm)]
  have inA : ∀ q b0, A.blocks.lookup q = some b0 ↔ ((q, b0) ∈ (BlockFun.splitLoad (removeLoad a chain).1 p.1 p.2 typ w.fn.curId).1 ∨
      (q ∉ chain ∧ w.fn.blockAt id q = some b0)) := by
    intro q b0
    rw [← mem_iff_lookup hok2.load.keys, hperm.mem_iff, List.mem_append, inRest]
  have inSplit : ∀ q b0, (q, b0) ∈ (BlockFun.splitLoad (removeLoad a chain).1 p.1 p.2 typ w.fn.curId).1 ↔
      (((q ∈ chain ∧ w.fn.blockAt id q = some b0 ∧ ¬ p.1 < q.1) ∨
      ((q.1 - 1, q.2) ∈ chain ∧ w.fn.blockAt id (q.1 - 1, q.2) = some b0 ∧ p.1 < q.1 - 1)) ∨
      ∃ t, typ = some t ∧ (q, b0) ∈ BlockFun.fillers t w.fn.curId ((connectedInputs (removeLoad a chain).1 p.1).filter (fun q => decide (q.2 ≠ p.2)))) := by
    intro q b0
    rw [← inShift]
    unfold BlockFun.splitLoad
    cases typ with
    | none =>
      simp only
      rw [(sortLoad_perm _).mem_iff]
      simp
    | some t =>
      simp only
      rw [(sortLoad_perm _).mem_iff, List.mem_append]
      simp
  refine ⟨?_, ?_, ?_, ?_⟩
  · intro j q b0 hq hnot
    rw [after]
    by_cases hj : j = id
    · subst hj
      rw [if_pos rfl, inA]
      by_cases hqc : q ∈ chain
      · exact .inl ((inSplit q b0).2 (.inl (.inl ⟨hqc, hq, fun hx => hnot ⟨rfl, (hcon q).2 hqc, hx⟩⟩)))
      · exact .inr ⟨hqc, hq⟩
    · rw [if_neg hj]; exact hq
  · intro q b0 hq hqc hgt
    rw [after, if_pos rfl, inA]
    refine .inl ((inSplit _ b0).2 (.inl (.inr ?_)))
    have e1 : ((q.1 + 1 - 1, q.2) : Pos) = q := Prod.ext (by simp only; omega) rfl
    simp only
    rw [e1]
    exact ⟨(hcon q).1 hqc, hq, by omega⟩
  · intro s t hs1 hs2 y hy hex
    have htyp : typ = some t := by
      cases typ with
      | none => exact absurd hs2 (ht2 rfl s t hs1)
      | some t' =>
        obtain ⟨s', h1, h2⟩ := ht3 t' rfl
        rw [hs1] at h1
        cases h1
        rw [hs2] at h2
        exact h2.symm
    have hin : ((p.1 + 1, y) : Pos) ∈ (connectedInputs (removeLoad a chain).1 p.1).filter (fun q => decide (q.2 ≠ p.2)) := by
      rw [List.mem_filter, inConn]
      exact ⟨⟨rfl, hex⟩, decide_eq_true hy⟩
    obtain ⟨i, hi⟩ := List.getElem?_of_mem hin
    refine ⟨t.instanciate none (w.fn.curId + 1 + i), w.fn.curId + 1 + i, ?_, ⟨rfl, rfl, rfl, rfl, rfl, rfl, rfl, rfl⟩, by omega⟩
    rw [after, if_pos rfl, inA]
    exact .inl ((inSplit _ _).2 (.inr ⟨t, htyp, mem_fillers_iff.2 ⟨i, hi, rfl⟩⟩))
  · intro j q b' hq
    rw [after] at hq
    by_cases hj : j = id
    · subst hj
      rw [if_pos rfl, inA] at hq
      rcases hq with hq | ⟨h1, h2⟩
      · rcases (inSplit q b').1 hq with (⟨h1, h2, h3⟩ | ⟨h1, h2, h3⟩) | ⟨t, h1, h2⟩
        · exact .inl ⟨h2, fun hx => h3 hx.2.2⟩
        · exact .inr (.inl ⟨rfl, h2, (hcon _).2 h1, h3⟩)
        · obtain ⟨i, hi, rfl⟩ := mem_fillers_iff.1 h2
          obtain ⟨h4, h5⟩ := List.mem_filter.1 (List.mem_of_getElem? hi)
          obtain ⟨h6, h7⟩ := (inConn q).1 h4
          obtain ⟨s, h8, h9⟩ := ht3 t h1
          exact .inr (.inr ⟨rfl, h6, of_decide_eq_true h5, s, t, w.fn.curId + 1 + i, h8, h9, ⟨rfl, rfl, rfl, rfl, rfl, rfl, rfl, rfl⟩, by omega, h7⟩)
      · exact .inl ⟨h2, fun hx => h1 ((hcon q).1 hx.2.1)⟩
    · rw [if_neg hj] at hq
      exact .inl ⟨hq, fun hx => hj hx.1⟩

/-! ## Snapshots -/

theorem step_saved {L : Lang} {w w' : World} {op : Op} {r : Except Err Unit} (hs : w.step L op = some (w', r)) : w.saved <+: w'.saved := by
  cases op with
  | save =>
    simp only [World.step, Option.some.injEq, Prod.mk.injEq] at hs
    obtain ⟨rfl, _⟩ := hs
    exact List.prefix_append _ _
  | restore k =>
    simp only [World.step] at hs
    split at hs
    · cases hs; exact List.prefix_refl _
    · rw [Option.map_eq_some_iff] at hs
      obtain ⟨f', _, h1⟩ := hs
      cases h1
      exact List.prefix_refl _
  | _ =>
    first
    | (simp only [World.step, Option.some.injEq, Prod.mk.injEq] at hs
       obtain ⟨rfl, _⟩ := hs
       exact List.prefix_refl _)
    | (simp only [World.step, Option.map_eq_some_iff, Prod.mk.injEq] at hs
       obtain ⟨_, _, rfl, _⟩ := hs
       exact List.prefix_refl _)

theorem onward_ok {L : Lang} (hL : L.Tall) {w w' : World} (hw : WorldOk w) (h : Onward L w w') : WorldOk w' ∧ w.saved <+: w'.saved := by
  induction h with
  | refl => exact ⟨hw, List.prefix_refl _⟩
  | step _ hp hs ih => exact ⟨(step_ok hL ih.1 hp hs).1, ih.2.trans (step_saved hs)⟩

/-- **C68** A snapshot loaded later, after any calls, brings back the blocks at the time it was taken, and the next new block gets the id it would
have got then. -/
theorem snapshot_restores_partial {L : Lang} (hL : L.Tall) {w0 w1 w : World} {r : Except Err Unit} (h : Reached L w0)
    (hsave : w0.step L .save = some (w1, r)) (hon : Onward L w1 w) :
    ∃ w', w.step L (.restore w0.saved.length) = some (w', .ok ()) ∧ w'.fn.curId = w0.fn.curId ∧ w'.fn.areas.length = w0.fn.areas.length ∧
      (∀ id p, w'.fn.blockAt id p = w0.fn.blockAt id p) ∧ ∀ id p, w'.fn.originAt id p = w0.fn.originAt id p := by
  have hw0 := reached_ok hL h
  have hw1 := (step_ok (op := .save) hL hw0 trivial hsave).1
  obtain ⟨hw, hpre⟩ := onward_ok hL hw1 hon
  simp only [World.step, Option.some.injEq, Prod.mk.injEq] at hsave
  obtain ⟨rfl, _⟩ := hsave
  have hk : w.saved[w0.saved.length]? = some w0.fn.saveSnapshot := by
    obtain ⟨l, hl⟩ := hpre
    rw [← hl]
    simp
  obtain ⟨sz, areas', h1, h2, _⟩ := recalculate_terminates (gen_irrel (g' := w.fn.generation) (hw.2 _ (List.mem_of_getElem? hk)))
  simp only [World.step, hk, BlockFun.loadSnapshot, h1, Option.map_some]
  refine ⟨_, rfl, rfl, ?_, ?_, ?_⟩
  · refine Nat.le_antisymm ?_ ?_
    · refine Nat.le_of_not_lt fun hlt => ?_
      have h3 := h2 w0.fn.areas.length
      replace h3 : areas'[w0.fn.areas.length]? = (w0.fn.areas[w0.fn.areas.length]?).map _ := h3
      rw [List.getElem?_eq_none (l := w0.fn.areas) (Nat.le_refl _)] at h3
      rw [List.getElem?_eq_getElem hlt] at h3
      cases h3
    · refine Nat.le_of_not_lt fun hlt => ?_
      have h3 := h2 areas'.length
      rw [List.getElem?_eq_none (Nat.le_refl _)] at h3
      replace h3 : none = (w0.fn.areas[areas'.length]?).map _ := h3
      rw [List.getElem?_eq_getElem hlt] at h3
      cases h3
  · intro id p
    unfold BlockFun.blockAt
    simp only [h2]
    show ((w0.fn.areas[id]?).map _).bind _ = _
    cases w0.fn.areas[id]? <;> rfl
  · intro id p
    unfold BlockFun.originAt
    simp only [h2]
    show ((w0.fn.areas[id]?).map _).bind _ = _
    cases w0.fn.areas[id]? <;> rfl

/-! ## Shifting ports -/

/-- **C67** Shifting a port of a block of more than one row moves it one row down, the port of the last row to the first row; all other ports
keep their order, and everything else stays. -/
theorem shift_port_shifts_partial {L : Lang} (hL : L.Tall) {w w' : World} (h : Reached L w) {id : Nat} {p : Pos} {row : Nat} {output : Bool}
    {r : Except Err Unit} (hs : w.step L (.shiftPort id p row output) = some (w', r)) (o : Pos) (b : Block) (hb : w.fn.blockAt id o = some b)
    (hc : Covers o b p) (h1 : 1 < b.rows) :
    ∃ b' : Block, (∀ j q, w'.fn.blockAt j q = if j = id ∧ q = o then some b' else w.fn.blockAt j q) ∧
      (output = true → b' = { b with outputs := b'.outputs } ∧ ∃ e, (padTo b.rows b.outputs)[row]? = some e ∧
        b'.outputs[(row + 1) % (padTo b.rows b.outputs).length]? = some e ∧
        b'.outputs.eraseIdx ((row + 1) % (padTo b.rows b.outputs).length) = (padTo b.rows b.outputs).eraseIdx row) ∧
      (output = false → b' = { b with inputs := b'.inputs } ∧ ∃ e, (padTo b.rows b.inputs)[row]? = some e ∧
        b'.inputs[(row + 1) % (padTo b.rows b.inputs).length]? = some e ∧
        b'.inputs.eraseIdx ((row + 1) % (padTo b.rows b.inputs).length) = (padTo b.rows b.inputs).eraseIdx row) := by
  have hf := (reached_ok hL h).1
  obtain ⟨a, ha, hm⟩ := (blockAt_iff hf).1 hb
  have hlt := (List.getElem?_eq_some_iff.1 ha).1
  have hr := (hf.area ha).refAt_some.2 ⟨hm, hc⟩
  simp only [World.step, Option.map_eq_some_iff, Prod.mk.injEq] at hs
  obtain ⟨f', hsp, rfl, _⟩ := hs
  unfold BlockFun.shiftPort at hsp
  rw [ha] at hsp
  simp only at hsp
  rw [hr] at hsp
  simp only [Option.map_eq_some_iff] at hsp
  obtain ⟨b', hb', rfl⟩ := hsp
  have rot : ∀ (v v' : List (Option String)) (n : Nat), rotatePort v n = some v' → ∃ e, v[n]? = some e ∧ v'[(n + 1) % v.length]? = some e ∧
      v'.eraseIdx ((n + 1) % v.length) = v.eraseIdx n := by
    intro v v' n hv
    unfold rotatePort at hv
    cases he : v[n]? with
    | none => rw [he] at hv; cases hv
    | some e =>
      rw [he] at hv
      cases hv
      have hn := (List.getElem?_eq_some_iff.1 he).1
      have hlen : (n + 1) % v.length ≤ (v.eraseIdx n).length := by
        rw [List.length_eraseIdx_of_lt hn]
        have := Nat.mod_lt (n + 1) (show 0 < v.length by omega)
        omega
      refine ⟨e, rfl, ?_, ?_⟩
      · rw [List.getElem?_insertIdx_self, if_pos hlen]
      · exact List.eraseIdx_insertIdx_self _
  refine ⟨b', ?_, ?_, ?_⟩
  · intro j q
    unfold BlockFun.blockAt
    simp only [List.getElem?_set]
    by_cases hj : id = j
    · subst hj
      rw [if_pos rfl, if_pos hlt, ha]
      simp only [Option.bind_some, true_and]
      rw [HexoDSP.lookup_insert]
      by_cases hq : q = o
      · subst hq; simp
      · simp [hq]
    · rw [if_neg hj, if_neg (fun hx => hj hx.1.symm)]
  · rintro rfl
    unfold Block.shiftPort at hb'
    rw [if_neg (by omega), if_pos rfl, Option.map_eq_some_iff] at hb'
    obtain ⟨v, hv, rfl⟩ := hb'
    exact ⟨rfl, rot _ _ _ hv⟩
  · rintro rfl
    unfold Block.shiftPort at hb'
    rw [if_neg (by omega), if_neg (by simp), Option.map_eq_some_iff] at hb'
    obtain ⟨v, hv, rfl⟩ := hb'
    exact ⟨rfl, rot _ _ _ hv⟩

/-! ## Changes are noticed -/

/-- **C69** Whenever a call changes the blocks of a program its generation grows, so that a later look at the generation tells; but for chains
that are taken out, and for moving to an area that does not exist. -/
theorem changes_noticed_partial {L : Lang} (hL : L.Tall) {w w' : World} (h : Reached L w) {op : Op} (hp : w.Proper L op) {r : Except Err Unit}
    (hs : w.step L op = some (w', r)) (hmv : ∀ id p id2 p2, op = .move id p id2 p2 → id2 < w.fn.areas.length)
    (hrt : ∀ id p, op ≠ .retrieve id p true) :
    w.fn.generation < w'.fn.generation ∨ (w'.fn.generation = w.fn.generation ∧ ∀ id q, w'.fn.blockAt id q = w.fn.blockAt id q) := by
  have hw := reached_ok hL h
  cases op with
  | instanciate id p typ ui =>
    simp only [World.step, Option.some.injEq, Prod.mk.injEq] at hs
    obtain ⟨rfl, _⟩ := hs
    unfold BlockFun.instanciateAt
    cases w.fn.areas[id]? with
    | none => exact .inr ⟨rfl, fun _ _ => rfl⟩
    | some a =>
      simp only
      cases L typ with
      | none => exact .inr ⟨rfl, fun _ _ => rfl⟩
      | some t =>
        simp only
        split
        · obtain ⟨k, h1, _⟩ := createAreas_fields { areas := w.fn.areas, curId := w.fn.curId + 1, generation := w.fn.generation }
            (t.instanciate ui (w.fn.curId + 1))
          left
          generalize BlockFun.createAreas _ _ = cr at h1
          obtain ⟨f2, b2⟩ := cr
          simp only at h1 ⊢
          subst h1
          exact Nat.lt_succ_self _
        · exact .inr ⟨rfl, fun _ _ => rfl⟩
  | remove id p =>
    simp only [World.step, Option.some.injEq, Prod.mk.injEq] at hs
    obtain ⟨rfl, _⟩ := hs
    unfold BlockFun.removeAt
    cases w.fn.areas[id]? with
    | none => exact .inr ⟨rfl, fun _ _ => rfl⟩
    | some a =>
      simp only
      cases a.removeAt p with
      | none => exact .inr ⟨rfl, fun _ _ => rfl⟩
      | some x => exact .inl (Nat.lt_succ_self _)
  | move id p id2 p2 =>
    simp only [World.step, Option.map_eq_some_iff, Prod.mk.injEq] at hs
    obtain ⟨⟨f', r'⟩, hs, rfl, _⟩ := hs
    have hid := hmv id p id2 p2 rfl
    unfold BlockFun.moveBlock at hs
    split at hs
    · cases hs
    · cases hs; exact .inr ⟨rfl, fun _ _ => rfl⟩
    · cases ha : w.fn.areas[id]? with
      | none => rw [ha] at hs; cases hs; exact .inr ⟨rfl, fun _ _ => rfl⟩
      | some a =>
        rw [ha] at hs
        simp only at hs
        cases hrm : a.removeAt p with
        | none => rw [hrm] at hs; cases hs; exact .inr ⟨rfl, fun _ _ => rfl⟩
        | some x =>
          rw [hrm] at hs
          simp only at hs
          split at hs
          · rename_i hx
            rw [List.getElem?_eq_none_iff, List.length_set] at hx
            omega
          · split at hs <;> (cases hs; exact .inl (Nat.lt_succ_self _))
  | clone id p id2 p2 =>
    simp only [World.step, Option.some.injEq, Prod.mk.injEq] at hs
    obtain ⟨rfl, _⟩ := hs
    unfold BlockFun.cloneBlock
    cases w.fn.areas[id]? with
    | none => exact .inr ⟨rfl, fun _ _ => rfl⟩
    | some a =>
      simp only
      cases a.refAtOrigin p with
      | none => exact .inr ⟨rfl, fun _ _ => rfl⟩
      | some x =>
        obtain ⟨b, o⟩ := x
        simp only
        obtain ⟨k, h1, _⟩ := createAreas_fields { areas := w.fn.areas, curId := w.fn.curId + 1, generation := w.fn.generation }
          (match L (b.cloneWithNewId (w.fn.curId + 1)).typ with
            | none => b.cloneWithNewId (w.fn.curId + 1)
            | some t => t.touchContains (b.cloneWithNewId (w.fn.curId + 1)))
        generalize BlockFun.createAreas _ _ = cr at h1
        obtain ⟨f2, b2⟩ := cr
        simp only at h1 ⊢
        subst h1
        have same : ∀ j q, BlockFun.blockAt { areas := w.fn.areas ++ List.replicate k BlockFun.subArea, curId := w.fn.curId + 1, generation := w.fn.generation } j q =
            w.fn.blockAt j q := fun j q => append_blockAt _ _ _ _
        split
        · exact .inr ⟨rfl, same⟩
        · split
          · exact .inl (Nat.lt_succ_self _)
          · exact .inr ⟨rfl, same⟩
  | split id p filler =>
    simp only [World.step, Option.some.injEq, Prod.mk.injEq] at hs
    obtain ⟨rfl, _⟩ := hs
    unfold BlockFun.splitChain
    cases w.fn.areas[id]? with
    | none => exact .inr ⟨rfl, fun _ _ => rfl⟩
    | some a =>
      simp only
      cases a.chainAt p with
      | none => exact .inr ⟨rfl, fun _ _ => rfl⟩
      | some chain =>
        simp only
        split
        · exact .inr ⟨rfl, fun _ _ => rfl⟩
        · split
          · exact .inl (Nat.lt_succ_self _)
          · exact .inr ⟨rfl, fun _ _ => rfl⟩
  | moveChain id p id2 p2 =>
    simp only [World.step, Option.map_eq_some_iff, Prod.mk.injEq] at hs
    obtain ⟨⟨f', r'⟩, hs, rfl, _⟩ := hs
    unfold BlockFun.moveChain at hs
    cases ha : w.fn.areas[id]? with
    | none => rw [ha] at hs; cases hs; exact .inr ⟨rfl, fun _ _ => rfl⟩
    | some a =>
      rw [ha] at hs
      simp only at hs
      cases hch : a.chainAt p with
      | none => rw [hch] at hs; cases hs; exact .inr ⟨rfl, fun _ _ => rfl⟩
      | some chain =>
        rw [hch] at hs
        simp only at hs
        left
        split at hs
        · split at hs <;> (cases hs; simp only; omega)
        · split at hs
          · cases hs
          · cases hs; simp only; omega
          · split at hs
            · cases hs; simp only; omega
            · split at hs <;> (cases hs; simp only; omega)
  | retrieve id p remove =>
    simp only [World.step, Option.some.injEq, Prod.mk.injEq] at hs
    obtain ⟨rfl, _⟩ := hs
    cases remove with
    | true => exact absurd rfl (hrt id p)
    | false =>
      right
      unfold BlockFun.retrieveChain
      cases w.fn.areas[id]? with
      | none => exact ⟨rfl, fun _ _ => rfl⟩
      | some a =>
        simp only
        cases a.chainAt p with
        | none => exact ⟨rfl, fun _ _ => rfl⟩
        | some chain => exact ⟨rfl, fun _ _ => rfl⟩
  | shiftPort id p row output =>
    simp only [World.step, Option.map_eq_some_iff, Prod.mk.injEq] at hs
    obtain ⟨f', hs, rfl, _⟩ := hs
    unfold BlockFun.shiftPort at hs
    cases ha : w.fn.areas[id]? with
    | none => rw [ha] at hs; cases hs; exact .inr ⟨rfl, fun _ _ => rfl⟩
    | some a =>
      rw [ha] at hs
      simp only at hs
      cases hch : a.refAtOrigin p with
      | none => rw [hch] at hs; cases hs; exact .inr ⟨rfl, fun _ _ => rfl⟩
      | some x =>
        rw [hch] at hs
        simp only [Option.map_eq_some_iff] at hs
        obtain ⟨b', _, rfl⟩ := hs
        exact .inl (Nat.lt_succ_self _)
  | recalculate =>
    simp only [World.step, Option.map_eq_some_iff, Prod.mk.injEq] at hs
    obtain ⟨f', hs, rfl, _⟩ := hs
    right
    obtain ⟨sz, areas', h1, h2, _⟩ := recalculate_terminates hw.1
    rw [hs] at h1
    cases h1
    refine ⟨rfl, fun id q => ?_⟩
    unfold BlockFun.blockAt
    simp only [h2]
    cases w.fn.areas[id]? <;> rfl
  | save =>
    simp only [World.step, Option.some.injEq, Prod.mk.injEq] at hs
    obtain ⟨rfl, _⟩ := hs
    exact .inr ⟨rfl, fun _ _ => rfl⟩
  | restore k =>
    simp only [World.step] at hs
    split at hs
    · cases hs; exact .inr ⟨rfl, fun _ _ => rfl⟩
    · rename_i s hk
      simp only [Option.map_eq_some_iff, Prod.mk.injEq] at hs
      obtain ⟨f', hs, rfl, _⟩ := hs
      left
      obtain ⟨sz, areas', h1, h2, _⟩ := recalculate_terminates (gen_irrel (g' := w.fn.generation) (hw.2 _ (List.mem_of_getElem? hk)))
      unfold BlockFun.loadSnapshot at hs
      simp only [h1, Option.map_some, Option.some.injEq] at hs
      subst hs
      exact Nat.lt_succ_self _

/-! ## Examples -/

/-- The call works. -/
def okOf (r : Option (World × Except Err Unit)) : Bool := match r with
  | some (_, .ok _) => true
  | _ => false

theorem okOf_spec {r : Option (World × Except Err Unit)} (h : okOf r = true) : ∃ w', r = some (w', .ok ()) := by
  unfold okOf at h
  split at h
  · exact ⟨_, rfl⟩
  · cases h

example : ∃ w', exWorld.step base (.instanciate 1 (3, 3) "if" none) = some (w', .ok ()) := okOf_spec (by decide +kernel)
example : ∃ w', exWorld.step base (.remove 0 (4, 3)) = some (w', .ok ()) := okOf_spec (by decide +kernel)
-- taken at its second row
example : ∃ w', exWorld.step base (.move 0 (4, 3) 1 (2, 7)) = some (w', .ok ()) := okOf_spec (by decide +kernel)
example : ((exWorld.step base (.move 0 (4, 3) 1 (2, 7))).bind (fun r => r.1.fn.blockAt 1 (2, 6))).map (·.typ) = some "+" := by decide +kernel
example : ∃ w', exWorld.step base (.clone 0 (0, 0) 2 (1, 1)) = some (w', .ok ()) := okOf_spec (by decide +kernel)
-- the chain of the example split once more, with two fillers
example : ∃ w', exWorld.step base (.split 0 (2, 2) (some "->")) = some (w', .ok ()) := okOf_spec (by decide +kernel)
example : exWorld.Proper base (.split 0 (2, 2) (some "->")) := properB_spec (by decide +kernel)
example : ((exWorld.step base (.split 0 (2, 2) (some "->"))).bind (fun r => r.1.fn.blockAt 0 (5, 2))).map (·.typ) = some "+" := by decide +kernel
-- a snapshot loaded after the block at its time was removed
example : ∃ w', Onward base exWorld w' ∧ w'.fn.allBlocks.length = 6 :=
  have h : ∃ w', exWorld.step base (.remove 0 (4, 3)) = some (w', .ok ()) := okOf_spec (by decide +kernel)
  ⟨h.choose, .step (op := .remove 0 (4, 3)) .refl trivial h.choose_spec, by
    have h2 : (exWorld.step base (.remove 0 (4, 3))).map (fun r => r.1.fn.allBlocks.length) = some 6 := by decide +kernel
    rw [h.choose_spec] at h2
    exact Option.some.inj h2⟩

-- the first input of the "+" block
example : ∃ w', exWorld.step base (.shiftPort 0 (4, 2) 0 false) = some (w', .ok ()) := okOf_spec (by decide +kernel)

/-- **C69** fails for chains that are taken out: the program is another one, with the same generation. -/
theorem taking_out_not_noticed : ∃ w w' r, Reached base w ∧ w.step base (.retrieve 0 (4, 2) true) = some (w', r) ∧
    w'.fn.generation = w.fn.generation ∧ w'.fn.allBlocks.length < w.fn.allBlocks.length := by
  refine ⟨exWorld, _, _, ex_reached, rfl, ?_, ?_⟩
  · decide +kernel
  · decide +kernel

end HexoDSP.BlockProps
