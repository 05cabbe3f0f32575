import Verif.Lemmas.BlockSize
import Verif.Lemmas.BlockChain
import Verif.Lemmas.BlockDoc
import Verif.Model.BlockLang
/-! # Block programs -/

set_option linter.unusedSectionVars false
set_option linter.dupNamespace false

namespace HexoDSP.BlockProps
open HexoDSP.Block HexoDSP.Json

/-- The invariant of a program and of its snapshots. -/
def WorldOk (w : World) : Prop := FunOk w.fn ∧ ∀ s ∈ w.saved, FunOk { areas := s.areas, curId := s.curId, generation := 0 }

theorem recalc_next {f f' : BlockFun} (h : FunOk f) (hr : f.recalculate = some f') : Next f f' := by
  obtain ⟨sz, areas', h1, h2, _⟩ := recalculate_terminates h
  rw [h1] at hr
  cases hr
  exact h.resize h2

theorem gen_irrel {areas : List Area} {cur g g' : Nat} (h : FunOk { areas := areas, curId := cur, generation := g }) :
    FunOk { areas := areas, curId := cur, generation := g' } := ⟨h.areas, h.ids, h.idRange, h.subs, h.subRange, h.rank, h.root⟩

theorem step_ok {L : Lang} (hL : L.Tall) {w w' : World} {op : Op} {r : Except Err Unit} (h : WorldOk w) (hp : w.Proper L op)
    (hs : w.step L op = some (w', r)) : WorldOk w' ∧ ((∀ k, op ≠ .restore k) → Next w.fn w'.fn) := by
  obtain ⟨hf, hsv⟩ := h
  have done : ∀ f', Next w.fn f' → WorldOk { w with fn := f' } ∧ Next w.fn f' := fun f' hn => ⟨⟨hn.ok, hsv⟩, hn⟩
  have fin : ∀ f', Next w.fn f' → w' = { w with fn := f' } → WorldOk w' ∧ ((∀ k, op ≠ .restore k) → Next w.fn w'.fn) := by
    intro f' hn he
    subst he
    exact ⟨(done f' hn).1, fun _ => hn⟩
  cases op with
  | instanciate id p typ ui =>
    simp only [World.step, Option.some.injEq, Prod.mk.injEq] at hs
    exact fin _ (instanciateAt_ok hL hf id p typ ui) hs.1.symm
  | remove id p =>
    simp only [World.step, Option.some.injEq, Prod.mk.injEq] at hs
    exact fin _ (removeAt_ok hf id p) hs.1.symm
  | move id p id2 p2 =>
    obtain ⟨r2, h1, h2⟩ := moveBlock_ok hf id p id2 p2
    simp only [World.step, h1, Option.map_some, Option.some.injEq, Prod.mk.injEq] at hs
    exact fin _ h2 hs.1.symm
  | clone id p id2 p2 =>
    simp only [World.step, Option.some.injEq, Prod.mk.injEq] at hs
    exact fin _ (cloneBlock_ok hf id p id2 p2 hp) hs.1.symm
  | split id p filler =>
    simp only [World.step, Option.some.injEq, Prod.mk.injEq] at hs
    refine fin _ (splitChain_ok hf id p filler ?_) hs.1.symm
    intro s he
    subst he
    exact hp
  | moveChain id p id2 p2 =>
    obtain ⟨r2, h1, h2⟩ := moveChain_ok hf id p id2 p2
    simp only [World.step, h1, Option.map_some, Option.some.injEq, Prod.mk.injEq] at hs
    exact fin _ h2 hs.1.symm
  | retrieve id p remove =>
    simp only [World.step, Option.some.injEq, Prod.mk.injEq] at hs
    exact fin _ (retrieveChain_ok hf id p remove) hs.1.symm
  | shiftPort id p row output =>
    simp only [World.step, Option.map_eq_some_iff, Prod.mk.injEq] at hs
    obtain ⟨f', h1, h2, _⟩ := hs
    exact fin _ (shiftPort_ok hf h1) h2.symm
  | recalculate =>
    simp only [World.step, Option.map_eq_some_iff, Prod.mk.injEq] at hs
    obtain ⟨f', h1, h2, _⟩ := hs
    exact fin _ (recalc_next hf h1) h2.symm
  | save =>
    simp only [World.step, Option.some.injEq, Prod.mk.injEq] at hs
    obtain ⟨rfl, _⟩ := hs
    refine ⟨⟨hf, ?_⟩, fun _ => .refl hf⟩
    intro s hs
    rcases List.mem_append.1 hs with h1 | h1
    · exact hsv s h1
    · rw [List.mem_singleton] at h1
      subst h1
      exact gen_irrel (g := w.fn.generation) hf
  | restore k =>
    simp only [World.step] at hs
    cases hk : w.saved[k]? with
    | none =>
      rw [hk] at hs
      simp only [Option.some.injEq, Prod.mk.injEq] at hs
      obtain ⟨rfl, _⟩ := hs
      exact ⟨⟨hf, hsv⟩, fun hne => absurd rfl (hne k)⟩
    | some s =>
      rw [hk] at hs
      simp only [Option.map_eq_some_iff, Prod.mk.injEq, BlockFun.loadSnapshot] at hs
      obtain ⟨f', ⟨f2, h1, rfl⟩, rfl, _⟩ := hs
      have hsn := hsv s (List.mem_of_getElem? hk)
      have := recalc_next (gen_irrel (g' := w.fn.generation) hsn) h1
      exact ⟨⟨gen_irrel (g := f2.generation) this.ok, hsv⟩, fun hne => absurd rfl (hne k)⟩

theorem new_ok : WorldOk World.new := by
  refine ⟨⟨?_, ?_, ?_, ?_, ?_, ⟨fun _ => 0, ?_⟩, ?_⟩, ?_⟩
  · intro a ha
    have : a = Area.new 16 16 := by simpa [World.new, BlockFun.new] using ha
    subst this
    exact ⟨⟨List.Pairwise.nil, by intro e he; cases he⟩, by
      intro q o
      constructor
      · intro h; cases h
      · rintro ⟨b, hb, _⟩; cases hb⟩
  · exact List.nodup_nil
  · intro b hb; cases hb
  · exact List.nodup_nil
  · intro c hc; cases hc
  · intro i a ha c hc
    cases i with
    | zero => cases ha; cases hc
    | succ i => simp [World.new, BlockFun.new] at ha
  · exact List.cons_ne_nil _ _
  · intro s hs; cases hs

theorem reached_ok {L : Lang} (hL : L.Tall) {w : World} (h : Reached L w) : WorldOk w := by
  induction h with
  | new => exact new_ok
  | step _ hp hs ih => exact (step_ok hL ih hp hs).1

theorem blockAt_iff {f : BlockFun} (h : FunOk f) {id : Nat} {o : Pos} {b : Block} :
    f.blockAt id o = some b ↔ ∃ a, f.areas[id]? = some a ∧ (o, b) ∈ a.blocks := by
  unfold BlockFun.blockAt
  rw [Option.bind_eq_some_iff]
  constructor
  · rintro ⟨a, ha, hl⟩; exact ⟨a, ha, (h.area ha).lookup.1 hl⟩
  · rintro ⟨a, ha, hl⟩; exact ⟨a, ha, (h.area ha).lookup.2 hl⟩

/-- **C38** In every reached state the slot `p` of an area belongs to the block at `o` exactly if it is one of the slots of the rows of this
block. (`_partial`: chains are split with fillers of one row and without sub areas, and no block is cloned into an area that this call makes;
otherwise it is false, `wide_filler_overlaps`.) -/
theorem slots_found_partial {L : Lang} (hL : L.Tall) {w : World} (h : Reached L w) (id : Nat) (p o : Pos) :
    w.fn.originAt id p = some o ↔ ∃ b, w.fn.blockAt id o = some b ∧ Covers o b p := by
  have hf := (reached_ok hL h).1
  unfold BlockFun.originAt
  rw [Option.bind_eq_some_iff]
  constructor
  · rintro ⟨a, ha, ho⟩
    obtain ⟨b, hb, hc⟩ := ((hf.area ha).orig p o).1 ho
    exact ⟨b, (blockAt_iff hf).2 ⟨a, ha, hb⟩, hc⟩
  · rintro ⟨b, hb, hc⟩
    obtain ⟨a, ha, hm⟩ := (blockAt_iff hf).1 hb
    exact ⟨a, ha, ((hf.area ha).orig p o).2 ⟨b, hm, hc⟩⟩

/-- **C38** No slot belongs to two blocks. -/
theorem blocks_apart_partial {L : Lang} (hL : L.Tall) {w : World} (h : Reached L w) (id : Nat) (p o o' : Pos) (b b' : Block)
    (hb : w.fn.blockAt id o = some b) (hb' : w.fn.blockAt id o' = some b') (hc : Covers o b p) (hc' : Covers o' b' p) : o = o' ∧ b = b' := by
  have h1 := (slots_found_partial hL h id p o).2 ⟨b, hb, hc⟩
  have h2 := (slots_found_partial hL h id p o').2 ⟨b', hb', hc'⟩
  rw [h1] at h2
  cases h2
  rw [hb] at hb'
  cases hb'
  exact ⟨rfl, rfl⟩

/-- **C38** The block found at a slot, by any call that takes a position, is the block this slot belongs to. -/
theorem block_found_partial {L : Lang} (hL : L.Tall) {w : World} (h : Reached L w) (id : Nat) (p : Pos) (b : Block) :
    w.fn.blockRef id p = some b ↔ ∃ o, w.fn.blockAt id o = some b ∧ Covers o b p := by
  have hf := (reached_ok hL h).1
  unfold BlockFun.blockRef Area.refAt
  rw [Option.bind_eq_some_iff]
  constructor
  · rintro ⟨a, ha, ho⟩
    rw [Option.map_eq_some_iff] at ho
    obtain ⟨⟨b2, o⟩, hr, rfl⟩ := ho
    obtain ⟨hm, hc⟩ := (hf.area ha).refAt_some.1 hr
    exact ⟨o, (blockAt_iff hf).2 ⟨a, ha, hm⟩, hc⟩
  · rintro ⟨o, hb, hc⟩
    obtain ⟨a, ha, hm⟩ := (blockAt_iff hf).1 hb
    exact ⟨a, ha, by rw [(hf.area ha).refAt_some.2 ⟨hm, hc⟩]; rfl⟩

/-! ## Errors -/

/-- **C39** After an error every area shows the same blocks at the same places. (`_partial`: for `move_block_from_to` the target area exists;
otherwise it is false, `move_to_unknown_area_loses_block`.) -/
theorem error_changes_nothing_partial {L : Lang} (hL : L.Tall) {w w' : World} {op : Op} {e : Err} (h : Reached L w)
    (hs : w.step L op = some (w', .error e)) (hm : ∀ id p id2 p2, op = .move id p id2 p2 → id2 < w.fn.areas.length) :
    (∀ id p, w'.fn.blockAt id p = w.fn.blockAt id p) ∧ (∀ id p, w'.fn.originAt id p = w.fn.originAt id p) ∧
      (∀ id, id < w.fn.areas.length → w'.fn.width id = w.fn.width id ∧ w'.fn.height id = w.fn.height id) ∧ w'.saved = w.saved := by
  have hf := (reached_ok hL h).1
  have same : ∀ f' : BlockFun, f'.areas = w.fn.areas → (∀ id p, f'.blockAt id p = w.fn.blockAt id p) ∧
      (∀ id p, f'.originAt id p = w.fn.originAt id p) ∧
      (∀ id, id < w.fn.areas.length → f'.width id = w.fn.width id ∧ f'.height id = w.fn.height id) := by
    intro f' he
    unfold BlockFun.blockAt BlockFun.originAt BlockFun.width BlockFun.height
    rw [he]
    exact ⟨fun _ _ => rfl, fun _ _ => rfl, fun _ _ => ⟨rfl, rfl⟩⟩
  have sameW : w'.fn.areas = w.fn.areas → w'.saved = w.saved → (∀ id p, w'.fn.blockAt id p = w.fn.blockAt id p) ∧
      (∀ id p, w'.fn.originAt id p = w.fn.originAt id p) ∧
      (∀ id, id < w.fn.areas.length → w'.fn.width id = w.fn.width id ∧ w'.fn.height id = w.fn.height id) ∧ w'.saved = w.saved := by
    intro h1 h2
    obtain ⟨a, b, c⟩ := same w'.fn h1
    exact ⟨a, b, c, h2⟩
  cases op with
  | instanciate id p typ ui =>
    simp only [World.step, Option.some.injEq, Prod.mk.injEq] at hs
    obtain ⟨rfl, he⟩ := hs
    refine sameW ?_ rfl
    simp only
    unfold BlockFun.instanciateAt at he ⊢
    cases ha : w.fn.areas[id]? with
    | none => rfl
    | some a =>
      rw [ha] at he
      cases ht : L typ with
      | none => rfl
      | some t =>
        rw [ht] at he
        simp only at he ⊢
        split
        · rename_i hc; rw [if_pos hc] at he; cases he
        · rfl
  | remove id p =>
    simp only [World.step, Option.some.injEq, Prod.mk.injEq] at hs
    obtain ⟨rfl, he⟩ := hs
    refine sameW ?_ rfl
    simp only
    unfold BlockFun.removeAt at he ⊢
    cases ha : w.fn.areas[id]? with
    | none => rfl
    | some a =>
      rw [ha] at he
      simp only at he ⊢
      cases hr : a.removeAt p with
      | none => rfl
      | some r =>
        obtain ⟨b, o, a'⟩ := r
        rw [hr] at he
        cases he
  | move id p id2 p2 =>
    simp only [World.step, Option.map_eq_some_iff, Prod.mk.injEq] at hs
    obtain ⟨⟨f', r⟩, hmv, rfl, hr⟩ := hs
    simp only at hr
    subst hr
    have hid2 := hm id p id2 p2 rfl
    unfold BlockFun.moveBlock at hmv
    split at hmv
    · cases hmv
    · cases hmv; exact sameW rfl rfl
    · cases ha : w.fn.areas[id]? with
      | none =>
        rw [ha] at hmv
        cases hmv
        exact sameW rfl rfl
      | some a =>
        rw [ha] at hmv
        simp only at hmv
        cases hrm : a.removeAt p with
        | none =>
          rw [hrm] at hmv
          cases hmv
          exact sameW rfl rfl
        | some r =>
          obtain ⟨b, o, a'⟩ := r
          rw [hrm] at hmv
          simp only at hmv
          have hlen : id2 < (w.fn.areas.set id a').length := by simpa using hid2
          rw [List.getElem?_eq_getElem hlen] at hmv
          simp only at hmv
          split at hmv
          · cases hmv
          · cases hmv
            obtain ⟨hmem, _, hok, hp, hbl, hrest⟩ := removeAt_some (hf.area ha) hrm
            simp only at hmem hok hp hbl hrest
            have hself : (w.fn.areas.set id a')[id]? = some a' := set_self ha
            have hrows : 1 ≤ b.rows := (hf.area ha).load.rows _ hmem
            have hspace : a'.checkSpace o b.rows = true := by
              rw [hok.checkSpace_iff]
              intro b2 hb2 e he
              have hpw := ((hf.area ha).load.perm hp.symm).apart
              have := (List.pairwise_cons.1 hpw).1 e he
              intro q hq
              refine this q ?_
              unfold Covers at hq ⊢
              rw [hb2] at hq
              exact hq
            obtain ⟨hok2, hset⟩ := setBlockAt_ok hok hrows hspace
            have hperm : (a'.setBlockAt o b).blocks.Perm a.blocks := by rw [hset]; exact hp
            have hlook : ∀ q, (a'.setBlockAt o b).blocks.lookup q = a.blocks.lookup q := fun q => perm_lookup hperm hok2.load.keys q
            have horig : ∀ q, (a'.setBlockAt o b).origin.lookup q = a.origin.lookup q := by
              intro q
              refine Option.ext fun o2 => ?_
              rw [hok2.orig, (hf.area ha).orig]
              simp only [hperm.mem_iff]
            have hareas : ∀ j, ((w.fn.areas.set id a').modify id (fun a => a.setBlockAt o b))[j]? =
                if j = id then some (a'.setBlockAt o b) else w.fn.areas[j]? := by
              intro j
              rw [modify_eq_set _ _ _ _ hself, List.set_set, List.getElem?_set]
              have hlt := (List.getElem?_eq_some_iff.1 ha).1
              by_cases hj : id = j
              · rw [if_pos hj, if_pos hlt, if_pos hj.symm]
              · rw [if_neg hj, if_neg (fun he => hj he.symm)]
            have hsz : (a'.setBlockAt o b).size = a.size := by
              have : a'.size = a.size := by rw [hrest]
              exact this
            refine ⟨?_, ?_, ?_, rfl⟩
            · intro j q
              unfold BlockFun.blockAt
              simp only [hareas]
              by_cases hj : j = id
              · subst hj
                simp only [if_true, ha, Option.bind_some, hlook]
              · simp only [if_neg hj]
            · intro j q
              unfold BlockFun.originAt
              simp only [hareas]
              by_cases hj : j = id
              · subst hj
                simp only [if_true, ha, Option.bind_some, horig]
              · simp only [if_neg hj]
            · intro j _
              unfold BlockFun.width BlockFun.height
              simp only [hareas]
              by_cases hj : j = id
              · subst hj
                simp only [if_true, ha, hsz, and_self]
              · simp only [if_neg hj, and_self]
  | clone id p id2 p2 =>
    simp only [World.step, Option.some.injEq, Prod.mk.injEq] at hs
    obtain ⟨rfl, he⟩ := hs
    have key : ∃ k, ((w.fn.cloneBlock L id p id2 p2).1).areas = w.fn.areas ++ List.replicate k BlockFun.subArea := by
      unfold BlockFun.cloneBlock at he ⊢
      cases ha : w.fn.areas[id]? with
      | none => exact ⟨0, by simp⟩
      | some a =>
        rw [ha] at he
        simp only at he ⊢
        cases hr : a.refAtOrigin p with
        | none => exact ⟨0, by simp⟩
        | some r =>
          obtain ⟨b, o⟩ := r
          rw [hr] at he
          simp only at he ⊢
          obtain ⟨k, _, h1, _⟩ := createAreas_spec { areas := w.fn.areas, curId := w.fn.curId + 1, generation := w.fn.generation }
            (match L (b.cloneWithNewId (w.fn.curId + 1)).typ with
              | none => b.cloneWithNewId (w.fn.curId + 1)
              | some t => t.touchContains (b.cloneWithNewId (w.fn.curId + 1)))
          refine ⟨k, ?_⟩
          generalize BlockFun.createAreas _ _ = cr at he h1 ⊢
          obtain ⟨f2, b2⟩ := cr
          simp only at he h1 ⊢
          subst h1
          split
          · rfl
          · rename_i area2 h2
            rw [h2] at he
            simp only at he
            split
            · rename_i hc; rw [if_pos hc] at he; cases he
            · rfl
    obtain ⟨k, hk⟩ := key
    have hget : ∀ j, ((w.fn.cloneBlock L id p id2 p2).1).areas[j]? = if j < w.fn.areas.length then w.fn.areas[j]? else
        (List.replicate k BlockFun.subArea)[j - w.fn.areas.length]? := by
      intro j
      rw [hk, List.getElem?_append]
    have hnew : ∀ (i : Nat) (a : Area), (List.replicate k BlockFun.subArea)[i]? = some a → a = BlockFun.subArea := by
      intro i a ha
      exact (List.mem_replicate.1 (List.mem_of_getElem? ha)).2
    refine ⟨?_, ?_, ?_, rfl⟩
    · intro j q
      unfold BlockFun.blockAt
      simp only [hget]
      split
      · rfl
      · rename_i hj
        rw [List.getElem?_eq_none (l := w.fn.areas) (by omega)]
        cases hx : (List.replicate k BlockFun.subArea)[j - w.fn.areas.length]? with
        | none => rfl
        | some a => rw [hnew _ a hx]; rfl
    · intro j q
      unfold BlockFun.originAt
      simp only [hget]
      split
      · rfl
      · rename_i hj
        rw [List.getElem?_eq_none (l := w.fn.areas) (by omega)]
        cases hx : (List.replicate k BlockFun.subArea)[j - w.fn.areas.length]? with
        | none => rfl
        | some a => rw [hnew _ a hx]; rfl
    · intro j hj
      unfold BlockFun.width BlockFun.height
      simp only [hget, if_pos hj, and_self]
  | split id p filler =>
    simp only [World.step, Option.some.injEq, Prod.mk.injEq] at hs
    obtain ⟨rfl, he⟩ := hs
    refine sameW ?_ rfl
    simp only
    unfold BlockFun.splitChain at he ⊢
    cases ha : w.fn.areas[id]? with
    | none => rfl
    | some a =>
      rw [ha] at he
      simp only at he ⊢
      cases hr : a.chainAt p with
      | none => rfl
      | some chain =>
        rw [hr] at he
        simp only at he ⊢
        split
        · rfl
        · rename_i typ ht
          rw [ht] at he
          simp only at he
          split
          · rename_i hc; rw [if_pos hc] at he; cases he
          · rfl
  | moveChain id p id2 p2 =>
    simp only [World.step, Option.map_eq_some_iff, Prod.mk.injEq] at hs
    obtain ⟨⟨f', r⟩, hmv, rfl, hr⟩ := hs
    simp only at hr
    subst hr
    refine sameW ?_ rfl
    simp only
    unfold BlockFun.moveChain at hmv
    cases ha : w.fn.areas[id]? with
    | none => rw [ha] at hmv; cases hmv; rfl
    | some a =>
      rw [ha] at hmv
      simp only at hmv
      cases hch : a.chainAt p with
      | none => rw [hch] at hmv; cases hmv; rfl
      | some chain =>
        rw [hch] at hmv
        simp only at hmv
        split at hmv
        · split at hmv
          · cases hmv; rfl
          · cases hmv
        · split at hmv
          · cases hmv
          · cases hmv; rfl
          · split at hmv
            · cases hmv; rfl
            · split at hmv
              · cases hmv; rfl
              · cases hmv
  | retrieve id p remove => simp [World.step] at hs
  | shiftPort id p row output => simp [World.step] at hs
  | recalculate => simp [World.step] at hs
  | save => simp [World.step] at hs
  | restore k =>
    simp only [World.step] at hs
    split at hs <;> simp at hs

/-! ## Nesting -/

theorem nests_edge {f : BlockFun} (h : FunOk f) {a c : Nat} : f.Nests a c ↔ Edge f.areas a c := by
  unfold BlockFun.Nests Edge
  constructor
  · rintro ⟨p, b, hb, hc⟩
    obtain ⟨ar, ha, hm⟩ := (blockAt_iff h).1 hb
    exact edge_of_block ha (mem_bs hm) hc
  · rintro ⟨ar, ha, hc⟩
    rw [directSubs_eq] at hc
    obtain ⟨b, hb, hcb⟩ := List.mem_flatMap.1 hc
    obtain ⟨⟨p, b'⟩, hm, rfl⟩ := List.mem_map.1 hb
    exact ⟨p, b', (blockAt_iff h).2 ⟨ar, ha, hm⟩, hcb⟩

/-- **C40** No area is inside itself. (`_partial`: see `slots_found_partial`; otherwise it is false, `clone_into_itself`.) -/
theorem no_area_inside_itself_partial {L : Lang} (hL : L.Tall) {w : World} (h : Reached L w) (a : Nat) :
    ¬ Relation.TransGen w.fn.Nests a a := by
  have hf := (reached_ok hL h).1
  obtain ⟨rank, hr⟩ := hf.rank
  intro ht
  have : ∀ x y, Relation.TransGen w.fn.Nests x y → rank x < rank y := by
    intro x y hxy
    induction hxy with
    | single he => obtain ⟨ar, ha, hc⟩ := (nests_edge hf).1 he; exact hr _ ar ha _ hc
    | tail _ he ih => obtain ⟨ar, ha, hc⟩ := (nests_edge hf).1 he; exact Nat.lt_trans ih (hr _ ar ha _ hc)
  exact absurd (this a a ht) (Nat.lt_irrefl _)

/-- **C40** An area belongs to at most one block, and once; the first area to none; and the areas of all blocks exist. (`_partial`: as above;
otherwise false, `filler_without_area`.) -/
theorem one_block_per_area_partial {L : Lang} (hL : L.Tall) {w : World} (h : Reached L w) (a a' c : Nat) (p p' : Pos) (b b' : Block)
    (hb : w.fn.blockAt a p = some b) (hb' : w.fn.blockAt a' p' = some b') (hc : c ∈ b.subs) (hc' : c ∈ b'.subs) :
    a = a' ∧ p = p' ∧ b.contains ≠ (some c, some c) ∧ 0 < c ∧ c < w.fn.areas.length := by
  have hf := (reached_ok hL h).1
  obtain ⟨ar, ha, hm⟩ := (blockAt_iff hf).1 hb
  obtain ⟨ar', ha', hm'⟩ := (blockAt_iff hf).1 hb'
  have he := edge_of_block ha (mem_bs hm) hc
  have haa := hf.parent he (edge_of_block ha' (mem_bs hm') hc')
  subst haa
  rw [ha] at ha'
  cases ha'
  have hn := hf.subs
  rw [allSubs_eq, List.nodup_flatMap] at hn
  have hn1 := hn.1 ar (List.mem_of_getElem? ha)
  have hn2 : (ar.blocks.flatMap (fun e => e.2.subs)).Nodup := hn1
  have hn3 := List.nodup_flatMap.1 hn2
  have hpp : (p, b) = (p', b') := by
    refine Classical.byContradiction fun hne => ?_
    obtain ⟨i, hi, hi'⟩ := List.mem_iff_getElem.1 hm
    obtain ⟨j, hj, hj'⟩ := List.mem_iff_getElem.1 hm'
    have hpw := List.pairwise_iff_getElem.1 hn3.2
    rcases Nat.lt_trichotomy i j with hlt | heq | hlt
    · have := hpw i j hi hj hlt
      rw [hi', hj'] at this
      exact this hc hc'
    · subst heq
      rw [hi'] at hj'
      exact hne hj'
    · have := hpw j i hj hi hlt
      rw [hi', hj'] at this
      exact this hc' hc
  cases hpp
  refine ⟨rfl, rfl, ?_, (hf.edge_lt he).1, (hf.edge_lt he).2⟩
  intro hcc
  have := hn3.1 (p, b) hm
  unfold Block.subs at this
  simp only at this
  rw [hcc] at this
  simp at this

/-- **C40** Recalculating the sizes ends and shows the same blocks. -/
theorem recalculate_returns_partial {L : Lang} (hL : L.Tall) {w : World} (h : Reached L w) :
    ∃ f', w.fn.recalculate = some f' ∧ (∀ id p, f'.blockAt id p = w.fn.blockAt id p) ∧ ∀ id p, f'.originAt id p = w.fn.originAt id p := by
  obtain ⟨sz, areas', h1, h2, _⟩ := recalculate_terminates (reached_ok hL h).1
  refine ⟨_, h1, ?_, ?_⟩
  · intro id p
    unfold BlockFun.blockAt
    simp only [h2]
    cases w.fn.areas[id]? <;> rfl
  · intro id p
    unfold BlockFun.originAt
    simp only [h2]
    cases w.fn.areas[id]? <;> rfl

/-! ## Ids -/

/-- **C41** No two blocks of a program have the same id, also in areas that are not shown any more, and no id is zero. (`_partial`: blocks that
are in the program at the same time; see `slots_found_partial` for `Reached`.) -/
theorem ids_unique_partial {L : Lang} (hL : L.Tall) {w : World} (h : Reached L w) (a a' : Nat) (p p' : Pos) (b b' : Block)
    (hb : w.fn.blockAt a p = some b) (hb' : w.fn.blockAt a' p' = some b') : b.id ≠ 0 ∧ (b.id = b'.id → a = a' ∧ p = p') := by
  have hf := (reached_ok hL h).1
  obtain ⟨ar, ha, hm⟩ := (blockAt_iff hf).1 hb
  obtain ⟨ar', ha', hm'⟩ := (blockAt_iff hf).1 hb'
  have hall : b ∈ w.fn.allBlocks := List.mem_flatMap.2 ⟨ar, List.mem_of_getElem? ha, mem_bs hm⟩
  refine ⟨by have := (hf.idRange b hall).1; omega, ?_⟩
  intro hid
  have hn := hf.ids
  unfold BlockFun.allBlocks at hn
  rw [List.map_flatMap, List.nodup_flatMap] at hn
  obtain ⟨i1, i2⟩ := List.getElem?_eq_some_iff.1 ha
  obtain ⟨j1, j2⟩ := List.getElem?_eq_some_iff.1 ha'
  have hpw := List.pairwise_iff_getElem.1 hn.2
  have m1 : b.id ∈ (ar.blocks.map (·.2)).map (·.id) := List.mem_map.2 ⟨b, mem_bs hm, rfl⟩
  have m2 : b.id ∈ (ar'.blocks.map (·.2)).map (·.id) := List.mem_map.2 ⟨b', mem_bs hm', hid.symm⟩
  have haa : a = a' := by
    rcases Nat.lt_trichotomy a a' with hlt | heq | hlt
    · have := hpw a a' i1 j1 hlt
      rw [i2, j2] at this
      exact absurd m2 (this m1)
    · exact heq
    · have := hpw a' a j1 i1 hlt
      rw [i2, j2] at this
      exact absurd m1 (this m2)
  refine ⟨haa, ?_⟩
  subst haa
  rw [ha] at ha'
  cases ha'
  have hn1 := hn.1 ar (List.mem_of_getElem? ha)
  rw [List.map_map] at hn1
  have hinj := List.inj_on_of_nodup_map hn1 hm hm' hid
  exact congrArg Prod.fst hinj

theorem later_next {L : Lang} (hL : L.Tall) {w w' : World} (hw : WorldOk w) (h : Later L w w') : WorldOk w' ∧ Next w.fn w'.fn := by
  induction h with
  | refl => exact ⟨hw, .refl hw.1⟩
  | step _ hp hne hs ih =>
    obtain ⟨h1, h2⟩ := step_ok hL ih.1 hp hs
    exact ⟨h1, ih.2.trans (h2 hne)⟩

/-- **C41** As long as no snapshot is loaded, an id is not given out again: after any further calls, a block has an id that was in the program
before or one larger than all ids given out before. (`_partial`: with loading snapshots it is false, `ids_reused_after_restore`.) -/
theorem ids_not_reused_partial {L : Lang} (hL : L.Tall) {w w' : World} (h : Reached L w) (hl : Later L w w') :
    w.fn.curId ≤ w'.fn.curId ∧ (∀ a p b, w.fn.blockAt a p = some b → b.id ≤ w.fn.curId) ∧
      ∀ a p b, w'.fn.blockAt a p = some b → w.fn.curId < b.id ∨ ∃ a0 p0 b0, w.fn.blockAt a0 p0 = some b0 ∧ b0.id = b.id := by
  have hw := reached_ok hL h
  obtain ⟨h1, h2⟩ := later_next hL hw hl
  refine ⟨h2.cur, ?_, ?_⟩
  · intro a p b hb
    obtain ⟨ar, ha, hm⟩ := (blockAt_iff hw.1).1 hb
    exact (hw.1.idRange b (List.mem_flatMap.2 ⟨ar, List.mem_of_getElem? ha, mem_bs hm⟩)).2
  · intro a p b hb
    obtain ⟨ar, ha, hm⟩ := (blockAt_iff h1.1).1 hb
    rcases h2.new b (List.mem_flatMap.2 ⟨ar, List.mem_of_getElem? ha, mem_bs hm⟩) with h3 | ⟨b0, hb0, he⟩
    · exact .inl h3
    · obtain ⟨ar0, har0, hb1⟩ := List.mem_flatMap.1 hb0
      obtain ⟨⟨p0, b1⟩, hm0, rfl⟩ := List.mem_map.1 hb1
      obtain ⟨a0, ha0⟩ := List.getElem?_of_mem har0
      exact .inr ⟨a0, p0, b1, (blockAt_iff hw.1).2 ⟨ar0, ha0, hm0⟩, he⟩

/-! ## Calls return -/

/-- **C66** All calls but `shift_port` return, without a panic. (`_partial`: as `slots_found_partial`; false for `shift_port` with a row out of
range, `shift_port_panics`, and after a block was cloned into an area of its own, `move_hangs`.) -/
theorem calls_return_partial {L : Lang} (hL : L.Tall) {w : World} (h : Reached L w) (op : Op)
    (hop : ∀ id p row output, op ≠ .shiftPort id p row output) : ∃ r, w.step L op = some r := by
  obtain ⟨hf, hsv⟩ := reached_ok hL h
  cases op with
  | instanciate id p typ ui => exact ⟨_, rfl⟩
  | remove id p => exact ⟨_, rfl⟩
  | move id p id2 p2 =>
    obtain ⟨r2, h1, _⟩ := moveBlock_ok hf id p id2 p2
    exact ⟨_, by simp only [World.step, h1, Option.map_some]; rfl⟩
  | clone id p id2 p2 => exact ⟨_, rfl⟩
  | split id p filler => exact ⟨_, rfl⟩
  | moveChain id p id2 p2 =>
    obtain ⟨r2, h1, _⟩ := moveChain_ok hf id p id2 p2
    exact ⟨_, by simp only [World.step, h1, Option.map_some]; rfl⟩
  | retrieve id p remove => exact ⟨_, rfl⟩
  | shiftPort id p row output => exact absurd rfl (hop id p row output)
  | recalculate =>
    obtain ⟨sz, areas', h1, _⟩ := recalculate_terminates hf
    exact ⟨_, by simp only [World.step, h1, Option.map_some]; rfl⟩
  | save => exact ⟨_, rfl⟩
  | restore k =>
    simp only [World.step]
    cases hk : w.saved[k]? with
    | none => exact ⟨_, rfl⟩
    | some s =>
      obtain ⟨sz, areas', h1, _⟩ := recalculate_terminates (gen_irrel (g' := w.fn.generation) (hsv s (List.mem_of_getElem? hk)))
      exact ⟨_, by simp only [BlockFun.loadSnapshot, h1, Option.map_some]; rfl⟩

theorem eraseIdx_length {α : Type} (l : List α) (i : Nat) (h : i < l.length) : (l.eraseIdx i).length + 1 = l.length := by
  rw [List.length_eraseIdx]
  simp only [h, if_true]
  omega

/-- **C66** `shift_port` returns for the rows of the block. -/
theorem shift_port_returns_partial {L : Lang} (hL : L.Tall) {w : World} (h : Reached L w) (id : Nat) (p : Pos) (row : Nat) (output : Bool)
    (hrow : ∀ b, w.fn.blockRef id p = some b → row < b.rows) : ∃ r, w.step L (.shiftPort id p row output) = some r := by
  have hf := (reached_ok hL h).1
  simp only [World.step]
  unfold BlockFun.shiftPort
  cases ha : w.fn.areas[id]? with
  | none => exact ⟨_, rfl⟩
  | some a =>
    simp only
    cases hr : a.refAtOrigin p with
    | none => exact ⟨_, rfl⟩
    | some r =>
      obtain ⟨b, o⟩ := r
      have hlt : row < b.rows := hrow b (by unfold BlockFun.blockRef Area.refAt; rw [ha]; simp [hr])
      have : ∃ b', b.shiftPort row output = some b' := by
        have hrot : ∀ v : List (Option String), ∃ v', rotatePort (padTo b.rows v) row = some v' := by
          intro v
          unfold rotatePort padTo
          have : row < (v ++ List.replicate (b.rows - v.length) none).length := by
            rw [List.length_append, List.length_replicate]; omega
          rw [List.getElem?_eq_getElem this]
          exact ⟨_, rfl⟩
        unfold Block.shiftPort
        split
        · exact ⟨_, rfl⟩
        · split
          · obtain ⟨v', hv⟩ := hrot b.outputs; exact ⟨_, by rw [hv]; rfl⟩
          · obtain ⟨v', hv⟩ := hrot b.inputs; exact ⟨_, by rw [hv]; rfl⟩
      obtain ⟨b', hb'⟩ := this
      exact ⟨_, by simp only [hb', Option.map_some]; rfl⟩

/-! ## Sizes -/

/-- **C64** After recalculating, an area that can be reached from the first one by going into blocks has the smallest width in which its blocks
and their sub areas fit, but an area that does not shrink keeps at least the width it had. The same for the height. -/
theorem size_fits_partial {L : Lang} (hL : L.Tall) {w : World} (h : Reached L w) {f' : BlockFun} (hr : w.fn.recalculate = some f') (id : Nat)
    (hin : Relation.ReflTransGen w.fn.Nests 0 id) :
    (∀ x, f'.width id ≤ x ↔ f'.WideEnough id x ∧ (w.fn.shrinks id = false → w.fn.width id ≤ x)) ∧
    (∀ x, f'.height id ≤ x ↔ f'.HighEnough id x ∧ (w.fn.shrinks id = false → w.fn.height id ≤ x)) := by
  have hf := (reached_ok hL h).1
  obtain ⟨sz, areas', h1, h2, h3⟩ := recalculate_terminates hf
  rw [h1] at hr
  cases hr
  have hreach : Relation.ReflTransGen (Edge w.fn.areas) 0 id := reach_mono (fun _ _ he => (nests_edge hf).1 he) hin
  have hlt : id < w.fn.areas.length := by
    rcases Relation.ReflTransGen.cases_tail hreach with h4 | ⟨c, _, h4⟩
    · rw [h4]; exact List.length_pos_iff.2 hf.root
    · exact (hf.edge_lt h4).2
  have ha : w.fn.areas[id]? = some w.fn.areas[id] := List.getElem?_eq_getElem hlt
  generalize w.fn.areas[id] = a at ha
  have hnext := hf.resize (g := w.fn.generation) h2
  have hok' : FunOk { w.fn with areas := areas' } := hnext.ok
  have ha' : areas'[id]? = some { a with size := sz id } := by rw [h2, ha]; rfl
  have hsz := (h3 id a ha).1 hreach
  have hwid : ∀ c, c < w.fn.areas.length → ({ w.fn with areas := areas' } : BlockFun).width c = (sz c).1 ∧
      ({ w.fn with areas := areas' } : BlockFun).height c = (sz c).2 := by
    intro c hc
    unfold BlockFun.width BlockFun.height
    simp only [h2, List.getElem?_eq_getElem hc, Option.map_some, and_self]
  have hsub : ∀ e ∈ a.blocks, ∀ c ∈ e.2.subs, c < w.fn.areas.length := by
    intro e he c hc
    exact (hf.edge_lt (edge_of_block ha (mem_bs (o := e.1) (b := e.2) he) hc)).2
  have hblk : ∀ o b, ({ w.fn with areas := areas' } : BlockFun).blockAt id o = some b ↔ (o, b) ∈ a.blocks := by
    intro o b
    rw [blockAt_iff hok']
    constructor
    · rintro ⟨a2, h4, h5⟩
      have h4' : areas'[id]? = some a2 := h4
      rw [ha'] at h4'
      cases h4'
      exact h5
    · intro h5; exact ⟨_, ha', h5⟩
  have horig : ∀ q, (∃ o, ({ w.fn with areas := areas' } : BlockFun).originAt id q = some o) ↔ ∃ e ∈ a.origin, e.1 = q := by
    intro q
    unfold BlockFun.originAt
    simp only [ha', Option.bind_some]
    constructor
    · rintro ⟨o, ho⟩
      exact ⟨(q, o), mem_of_lookup ho, rfl⟩
    · rintro ⟨e, he, rfl⟩
      have : (a.origin.lookup e.1).isSome = true := by
        rw [List.lookup_isSome_iff]
        exact ⟨e, he, by simp⟩
      exact Option.isSome_iff_exists.1 this
  have hsubs1 : ∀ (b : Block) (c : Nat), b.contains.1 = some c → c ∈ b.subs := by
    intro b c hc; unfold Block.subs; rw [hc]; simp
  have hsubs2 : ∀ (b : Block) (c : Nat), b.contains.2 = some c → c ∈ b.subs := by
    intro b c hc; unfold Block.subs; rw [hc]; simp
  have hneedW : ∀ x, (need a sz).1 ≤ x ↔ ({ w.fn with areas := areas' } : BlockFun).WideEnough id x := by
    intro x
    rw [need_w]
    unfold BlockFun.WideEnough
    constructor
    · rintro ⟨g1, g2, g3⟩
      refine ⟨g1, ?_, ?_⟩
      · intro q o ho
        obtain ⟨e, he, rfl⟩ := (horig q).1 ⟨o, ho⟩
        have := g2 e he
        omega
      · intro o b hb c hc
        have hm := (hblk o b).1 hb
        rw [(hwid c (hsub _ hm c hc)).1]
        unfold Block.subs at hc
        rcases List.mem_append.1 hc with h5 | h5
        · have := (g3 _ hm).1 c (by simpa using h5)
          simp only at this
          omega
        · have := (g3 _ hm).2 c (by simpa using h5)
          simp only at this
          omega
    · rintro ⟨g1, g2, g3⟩
      refine ⟨g1, ?_, ?_⟩
      · intro e he
        obtain ⟨o, ho⟩ := (horig e.1).2 ⟨e, he, rfl⟩
        have := g2 e.1 o ho
        omega
      · intro e he
        have hb := (hblk e.1 e.2).2 he
        refine ⟨fun c hc => ?_, fun c hc => ?_⟩
        · have hcs := hsubs1 e.2 c hc
          have := g3 e.1 e.2 hb c hcs
          rw [(hwid c (hsub _ he c hcs)).1] at this
          omega
        · have hcs := hsubs2 e.2 c hc
          have := g3 e.1 e.2 hb c hcs
          rw [(hwid c (hsub _ he c hcs)).1] at this
          omega
  have hneedH : ∀ x, (need a sz).2 ≤ x ↔ ({ w.fn with areas := areas' } : BlockFun).HighEnough id x := by
    intro x
    rw [need_h]
    unfold BlockFun.HighEnough
    constructor
    · rintro ⟨g1, g2, g3⟩
      refine ⟨g1, ?_, ?_⟩
      · intro q o ho
        obtain ⟨e, he, rfl⟩ := (horig q).1 ⟨o, ho⟩
        have := g2 e he
        omega
      · intro o b hb
        have hm := (hblk o b).1 hb
        refine ⟨fun c hc => ?_, fun c hc hd => ?_, fun c d hc hd => ?_⟩
        · rw [(hwid c (hsub _ hm c (hsubs1 b c hc))).2]
          have := (g3 _ hm).1 c hc
          simp only at this
          omega
        · rw [(hwid c (hsub _ hm c (hsubs2 b c hc))).2]
          have := (g3 _ hm).2 c hc
          simp only [hd] at this
          omega
        · rw [(hwid c (hsub _ hm c (hsubs2 b c hc))).2, (hwid d (hsub _ hm d (hsubs1 b d hd))).2]
          have := (g3 _ hm).2 c hc
          simp only [hd] at this
          replace this : (max o.2 0).toNat + ((sz d).2 + 1) + (sz c).2 + 2 ≤ x := this
          omega
    · rintro ⟨g1, g2, g3⟩
      refine ⟨g1, ?_, ?_⟩
      · intro e he
        obtain ⟨o, ho⟩ := (horig e.1).2 ⟨e, he, rfl⟩
        have := g2 e.1 o ho
        omega
      · intro e he
        have hb := (hblk e.1 e.2).2 he
        obtain ⟨k1, k2, k3⟩ := g3 e.1 e.2 hb
        refine ⟨fun c hc => ?_, fun c hc => ?_⟩
        · have := k1 c hc
          rw [(hwid c (hsub _ he c (hsubs1 e.2 c hc))).2] at this
          omega
        · cases hd : e.2.contains.1 with
          | none =>
            have := k2 c hc hd
            rw [(hwid c (hsub _ he c (hsubs2 e.2 c hc))).2] at this
            simp only
            omega
          | some d =>
            have := k3 c d hc hd
            rw [(hwid c (hsub _ he c (hsubs2 e.2 c hc))).2, (hwid d (hsub _ he d (hsubs1 e.2 d hd))).2] at this
            simp only
            omega
  have hshr : w.fn.shrinks id = a.autoShrink := by unfold BlockFun.shrinks; rw [ha]
  have hw0 : w.fn.width id = a.size.1 := by unfold BlockFun.width; rw [ha]
  have hh0 : w.fn.height id = a.size.2 := by unfold BlockFun.height; rw [ha]
  constructor
  · intro x
    rw [(hwid id hlt).1, ← hneedW, hshr, hw0, hsz]
    cases a.autoShrink with
    | true => simp
    | false => simp only [Bool.false_eq_true, if_false, forall_const, Nat.max_le]; exact And.comm
  · intro x
    rw [(hwid id hlt).2, ← hneedH, hshr, hh0, hsz]
    cases a.autoShrink with
    | true => simp
    | false => simp only [Bool.false_eq_true, if_false, forall_const, Nat.max_le]; exact And.comm

/-! ## Chains -/

theorem wired_joined {f : BlockFun} {id : Nat} {a : Area} (ha : f.areas[id]? = some a) (o o' : Pos) : f.Wired id o o' ↔ a.Joined o o' := by
  unfold BlockFun.Wired Area.Joined BlockFun.blockAt
  rw [ha]
  rfl

theorem connected_iff {f : BlockFun} {id : Nat} {a : Area} (ha : f.areas[id]? = some a) (o q : Pos) :
    f.Connected id o q ↔ Relation.ReflTransGen a.Adj o q := by
  have : (fun o o' => f.Wired id o o' ∨ f.Wired id o' o) = a.Adj := by
    funext o o'
    unfold Area.Adj
    rw [wired_joined ha, wired_joined ha]
  unfold BlockFun.Connected
  rw [this]

theorem chain_keys {a : Area} (h : AreaOk a) {o : Pos} {b : Block} (hb : (o, b) ∈ a.blocks) {q : Pos} (hq : Relation.ReflTransGen a.Adj o q) :
    ∃ b', (q, b') ∈ a.blocks := by
  rcases Relation.ReflTransGen.cases_tail hq with h1 | ⟨c, _, h1⟩
  · rw [h1]; exact ⟨b, hb⟩
  · rcases h1 with ⟨b1, b2, _, _, _, h2, _⟩ | ⟨b1, b2, _, _, h2, _⟩
    · exact ⟨b2, h.lookup.1 h2⟩
    · exact ⟨b1, h.lookup.1 h2⟩

open Classical in
/-- **C65** Taking out the chain at a slot takes out exactly the blocks connected to the block there. -/
theorem chain_taken_out_partial {L : Lang} (hL : L.Tall) {w w' : World} (h : Reached L w) (id : Nat) (p o : Pos) (b : Block)
    (hb : w.fn.blockAt id o = some b) (hc : Covers o b p) {r : Except Err Unit} (hs : w.step L (.retrieve id p true) = some (w', r))
    (j : Nat) (q : Pos) : w'.fn.blockAt j q = if j = id ∧ w.fn.Connected id o q then none else w.fn.blockAt j q := by
  have hf := (reached_ok hL h).1
  obtain ⟨a, ha, hm⟩ := (blockAt_iff hf).1 hb
  have hr := (hf.area ha).refAt_some.2 ⟨hm, hc⟩
  simp only [World.step, Option.some.injEq, Prod.mk.injEq] at hs
  obtain ⟨rfl, _⟩ := hs
  have hch : ∃ chain, a.chainAt p = some chain := by unfold Area.chainAt; rw [hr]; exact ⟨_, rfl⟩
  obtain ⟨chain, hchain⟩ := hch
  obtain ⟨o2, b2, hr2, hn, hmem⟩ := chainAt_spec (hf.area ha) hchain
  rw [hr] at hr2
  cases hr2
  have hk : ∀ q ∈ chain, ∃ b', (q, b') ∈ a.blocks := fun q hq => chain_keys (hf.area ha) hm ((hmem q).1 hq)
  obtain ⟨hrest, _⟩ := removeLoad_chain (hf.area ha) hn hk
  unfold BlockFun.retrieveChain
  rw [ha]
  simp only [hchain, if_true]
  unfold BlockFun.blockAt
  simp only [List.getElem?_set]
  by_cases hj : id = j
  · subst hj
    rw [if_pos rfl, if_pos (List.getElem?_eq_some_iff.1 ha).1, ha]
    simp only [Option.bind_some, hrest, hmem, true_and, connected_iff ha]
  · rw [if_neg hj, if_neg (fun hx => hj hx.1.symm)]

open Classical in
/-- **C65** Moving a chain: there is one offset by which all blocks connected to the block at the slot are moved into the target area, and all
other blocks stay where they are. -/
theorem chain_moved_partial {L : Lang} (hL : L.Tall) {w w' : World} (h : Reached L w) (id id2 : Nat) (p p2 o : Pos) (b : Block)
    (hb : w.fn.blockAt id o = some b) (hc : Covers o b p) (hs : w.step L (.moveChain id p id2 p2) = some (w', .ok ())) :
    ∃ d : Pos, ∀ j q, w'.fn.blockAt j q =
      if j = id2 ∧ w.fn.Connected id o (q.1 - d.1, q.2 - d.2) then w.fn.blockAt id (q.1 - d.1, q.2 - d.2)
      else if j = id ∧ w.fn.Connected id o q then none
      else w.fn.blockAt j q := by
  have hf := (reached_ok hL h).1
  obtain ⟨a, ha, hm⟩ := (blockAt_iff hf).1 hb
  have hr := (hf.area ha).refAt_some.2 ⟨hm, hc⟩
  simp only [World.step, Option.map_eq_some_iff, Prod.mk.injEq] at hs
  obtain ⟨⟨f', r⟩, hmv, rfl, hrr⟩ := hs
  simp only at hrr
  subst hrr
  have hch : ∃ chain, a.chainAt p = some chain := by unfold Area.chainAt; rw [hr]; exact ⟨_, rfl⟩
  obtain ⟨chain, hchain⟩ := hch
  obtain ⟨o2, b2, hr2, hn, hmem⟩ := chainAt_spec (hf.area ha) hchain
  rw [hr] at hr2
  cases hr2
  have hk : ∀ q ∈ chain, ∃ b', (q, b') ∈ a.blocks := fun q hq => chain_keys (hf.area ha) hm ((hmem q).1 hq)
  obtain ⟨hrest, hload⟩ := removeLoad_chain (hf.area ha) hn hk
  obtain ⟨hok, hp⟩ := removeLoad_ok (hf.area ha) chain
  have hlok : LoadOk (removeLoad a chain).1 := ((hf.area ha).load.perm hp.symm).left
  have hlt := (List.getElem?_eq_some_iff.1 ha).1
  have hba : ∀ q, w.fn.blockAt id q = a.blocks.lookup q := by intro q; unfold BlockFun.blockAt; rw [ha]; rfl
  have hloadsome : ∀ q, q ∈ chain → ∃ b', a.blocks.lookup q = some b' := by
    intro q hq
    obtain ⟨b', hb'⟩ := hk q hq
    exact ⟨b', (hf.area ha).lookup.2 hb'⟩
  unfold BlockFun.moveChain at hmv
  rw [ha] at hmv
  simp only [hchain] at hmv
  split at hmv
  · rename_i hid
    subst hid
    cases ht : tryFit (removeLoad a chain).2 (moveByOffs (removeLoad a chain).1 (p2.1 - p.1) (p2.2 - p.2)) with
    | none => rw [ht] at hmv; cases hmv
    | some load2 =>
      rw [ht] at hmv
      cases hmv
      obtain ⟨d, hd⟩ := place_lookup hok (moveByOffs_ok hlok _ _) ht
      refine ⟨(d.1 + (p2.1 - p.1), d.2 + (p2.2 - p.2)), ?_⟩
      intro j q
      by_cases hj : id2 = j
      · subst hj
        have h1 : ({ fn := { areas := w.fn.areas.set id2 ((removeLoad a chain).2.setBlocksFrom load2), curId := w.fn.curId, generation := w.fn.generation + 1 + 1 }, saved := w.saved } : World).fn.blockAt id2 q = ((removeLoad a chain).2.setBlocksFrom load2).blocks.lookup q := by
          unfold BlockFun.blockAt
          simp only [List.getElem?_set_self hlt, Option.bind_some]
        rw [h1, hd q, moveByOffs_lookup, hload, hrest]
        have e1 : ((q.1 - d.1 - (p2.1 - p.1), q.2 - d.2 - (p2.2 - p.2)) : Pos) = (q.1 - (d.1 + (p2.1 - p.1)), q.2 - (d.2 + (p2.2 - p.2))) := by
          refine Prod.ext ?_ ?_ <;> simp only <;> omega
        simp only [true_and, connected_iff ha, ← hmem, hba, e1]
        split
        · rename_i hq
          obtain ⟨b', hb'⟩ := hloadsome _ hq
          rw [hb']
          rfl
        · rfl
      · have h1 : ({ fn := { areas := w.fn.areas.set id2 ((removeLoad a chain).2.setBlocksFrom load2), curId := w.fn.curId, generation := w.fn.generation + 1 + 1 }, saved := w.saved } : World).fn.blockAt j q = w.fn.blockAt j q := by
          unfold BlockFun.blockAt
          simp only [List.getElem?_set_ne hj]
        rw [h1, if_neg (fun hx => hj hx.1.symm), if_neg (fun hx => hj hx.1.symm)]
  · rename_i hid
    split at hmv
    · cases hmv
    · cases hmv
    · split at hmv
      · cases hmv
      · rename_i area2 ha2
        split at hmv
        · cases hmv
        · rename_i load2 ht
          cases hmv
          obtain ⟨d1, hd1⟩ := normalizeLoad_lookup hlok
          obtain ⟨d, hd⟩ := place_lookup (hf.area ha2) (moveByOffs_ok (normalizeLoad_ok hlok) _ _) ht
          generalize max ((normalizeLoad (removeLoad a chain).1).2.1 - p.1 + p2.1) 0 = mx at hd
          generalize max ((normalizeLoad (removeLoad a chain).1).2.2 - p.2 + p2.2) 0 = my at hd
          refine ⟨(d.1 + mx + d1.1, d.2 + my + d1.2), ?_⟩
          intro j q
          have hlt2 := (List.getElem?_eq_some_iff.1 ha2).1
          by_cases hj : id2 = j
          · subst hj
            have h1 : ({ fn := { areas := (w.fn.areas.set id (removeLoad a chain).2).set id2 (area2.setBlocksFrom load2), curId := w.fn.curId, generation := w.fn.generation + 1 + 1 }, saved := w.saved } : World).fn.blockAt id2 q = (area2.setBlocksFrom load2).blocks.lookup q := by
              unfold BlockFun.blockAt
              simp only [List.getElem?_set_self (show id2 < (w.fn.areas.set id (removeLoad a chain).2).length by simpa using hlt2), Option.bind_some]
            have hb2 : w.fn.blockAt id2 q = area2.blocks.lookup q := by unfold BlockFun.blockAt; rw [ha2]; rfl
            rw [h1, hd q, moveByOffs_lookup, hd1, hload, hb2]
            have e1 : ((q.1 - d.1 - mx - d1.1, q.2 - d.2 - my - d1.2) : Pos) = (q.1 - (d.1 + mx + d1.1), q.2 - (d.2 + my + d1.2)) := by
              refine Prod.ext ?_ ?_ <;> simp only <;> omega
            simp only [true_and, connected_iff ha, ← hmem, hba, e1, hid, false_and, if_false]
            split
            · rename_i hq
              obtain ⟨b', hb'⟩ := hloadsome _ hq
              rw [hb']
              rfl
            · rfl
          · rw [if_neg (fun hx => hj hx.1.symm)]
            by_cases hj2 : id = j
            · subst hj2
              have h1 : ({ fn := { areas := (w.fn.areas.set id (removeLoad a chain).2).set id2 (area2.setBlocksFrom load2), curId := w.fn.curId, generation := w.fn.generation + 1 + 1 }, saved := w.saved } : World).fn.blockAt id q = (removeLoad a chain).2.blocks.lookup q := by
                unfold BlockFun.blockAt
                simp only [List.getElem?_set_ne hj, List.getElem?_set_self hlt, Option.bind_some]
              rw [h1, hrest]
              simp only [true_and, connected_iff ha, ← hmem, hba]
            · have h1 : ({ fn := { areas := (w.fn.areas.set id (removeLoad a chain).2).set id2 (area2.setBlocksFrom load2), curId := w.fn.curId, generation := w.fn.generation + 1 + 1 }, saved := w.saved } : World).fn.blockAt j q = w.fn.blockAt j q := by
                unfold BlockFun.blockAt
                simp only [List.getElem?_set_ne hj, List.getElem?_set_ne hj2]
              rw [h1, if_neg (fun hx => hj2 hx.1.symm)]

/-! ## Documents -/

section
variable {F : Type}

/-- **C42** A snapshot written to a document and read back shows the same in every area, and the next new block gets the same id. (`_partial`:
ids and numbers of areas below 2^63.) -/
theorem snapshot_round_trip_partial {L : Lang} (hL : L.Tall) {w : World} (h : Reached L w) (hs : w.fn.saveSnapshot.Small) :
    let s := Snapshot.deserialize (w.fn.saveSnapshot.serialize : Value F)
    s.curId = w.fn.curId ∧ s.areas.length = w.fn.areas.length ∧
      ∀ (id : Nat) (a a' : Area), w.fn.areas[id]? = some a → s.areas[id]? = some a' → Area.Same a' a := by
  have hf := (reached_ok hL h).1
  obtain ⟨hcur, hs⟩ := hs
  have hareas : (Snapshot.deserialize (w.fn.saveSnapshot.serialize : Value F)).areas =
      w.fn.areas.map (fun a => Area.deserialize (a.serialize : Value F)) := List.map_map
  have kcur : (w.fn.saveSnapshot.serialize : Value F).key "current_block_id_counter" = .int w.fn.curId := rfl
  refine ⟨by simp only [deserialize_curId, kcur]; exact small_usize hcur, by rw [hareas, List.length_map], ?_⟩
  intro id a a' ha ha'
  rw [hareas, List.getElem?_map, ha, Option.map_some] at ha'
  cases ha'
  obtain ⟨hw, hh, hb⟩ := hs a (List.mem_of_getElem? ha)
  have hok := hf.area ha
  have hfold : ∀ (l : Load), (∀ e ∈ l, e ∈ a.blocks) → ∀ m : Load,
      (l.map (fun e : Pos × Block => (Value.obj [("x", .int e.1.1), ("y", .int e.1.2), ("block", e.2.serialize)] : Value F))).foldl
        (fun m b => Map.insert m ((b.key "x").asI64.getD 0, (b.key "y").asI64.getD 0) (Block.deserialize (b.key "block"))) m =
      l.foldl (fun m e => Map.insert m e.1 e.2) m := by
    intro l
    induction l with
    | nil => intro _ m; rfl
    | cons e l ih =>
      intro hl m
      rw [List.map_cons, List.foldl_cons, List.foldl_cons, ← ih (fun e he => hl e (List.mem_cons_of_mem _ he))]
      obtain ⟨hx, hy, hid, hro, hsu, hco⟩ := hb e (hl e List.mem_cons_self)
      have e1 : ((Value.obj [("x", .int e.1.1), ("y", .int e.1.2), ("block", e.2.serialize)] : Value F).key "x").asI64 = some e.1.1 :=
        coord_round hx
      have e2 : ((Value.obj [("x", .int e.1.1), ("y", .int e.1.2), ("block", e.2.serialize)] : Value F).key "y").asI64 = some e.1.2 :=
        coord_round hy
      have e3 : Block.deserialize ((Value.obj [("x", .int e.1.1), ("y", .int e.1.2), ("block", e.2.serialize)] : Value F).key "block") = e.2 :=
        block_round e.2 hid hro hsu hco
      rw [e1, e2, e3]
      rfl
  have hblocks : (Area.deserialize (a.serialize : Value F)).blocks = a.blocks.foldl (fun m e => Map.insert m e.1 e.2) [] :=
    hfold a.blocks (fun e he => he) []
  have hperm : (Area.deserialize (a.serialize : Value F)).blocks.Perm a.blocks := by
    rw [hblocks]
    have := setBlocksFold (l := a.blocks) [] (by rw [List.append_nil]; exact hok.load)
    rw [List.append_nil] at this
    exact this
  have hok' : AreaOk (Area.deserialize (a.serialize : Value F)) := by
    refine updateOrigin_ok (hok.load.perm (List.Perm.symm ?_))
    exact hperm
  refine ⟨fun p => perm_lookup hperm hok'.load.keys p, ?_, ?_, rfl, rfl⟩
  · intro q
    refine Option.ext fun o => ?_
    rw [hok'.orig, hok.orig]
    simp only [hperm.mem_iff]
  · have e1 : ((a.serialize : Value F).key "size").at 0 = .int (usizeAsI64 a.size.1) := rfl
    have e2 : ((a.serialize : Value F).key "size").at 1 = .int (usizeAsI64 a.size.2) := rfl
    rw [deserialize_size, e1, e2, usize_round hw, usize_round hh]
end

/-! ## The language -/

/-- Every type of the language of `setup_hxdsp_block_language` takes at least one slot, if every node of the library has a port. -/
theorem language_tall (lib : List DspNode) (h : ∀ n ∈ lib, n.inputs ≠ [] ∨ n.outputs ≠ []) : (language lib).Tall := by
  intro s t ht
  unfold language at ht
  have hm := List.mem_of_find?_eq_some ht
  rw [List.mem_reverse, List.mem_append] at hm
  rcases hm with hm | hm
  · have : ∀ t ∈ builtinTypes, 1 ≤ t.rows := by decide +kernel
    exact this t hm
  · obtain ⟨n, hn, rfl⟩ := List.mem_map.1 hm
    unfold DspNode.type
    simp only
    rcases h n hn with h1 | h1
    · have := List.length_pos_iff.2 h1; omega
    · have := List.length_pos_iff.2 h1; omega

/-- Of the types defined in the repository, `"->"`, the literals and the variables are fit as fillers; `"->2"`, `"->3"`, the arithmetics and
`"if"` are not. -/
theorem slim_types : builtinTypes.filter (fun t => decide (t.rows = 1 ∧ t.areaCount ≠ 1 ∧ t.areaCount ≠ 2)) =
    builtinTypes.filter (fun t => t.name ∈ ["zero", "π", "2π", "value", "->", "set", "get"]) := by rfl

/-- The language without a library. -/
abbrev base : Lang := language []

theorem base_tall : base.Tall := language_tall [] (by intro n hn; cases hn)

/-- The check of `Proper` as a computation. -/
def properB (L : Lang) (w : World) : Op → Bool
  | .split _ _ (some s) => match L s with
    | none => true
    | some t => decide (t.rows = 1 ∧ t.areaCount ≠ 1 ∧ t.areaCount ≠ 2)
  | .clone _ _ id2 _ => decide (¬ (w.fn.areas.length ≤ id2 ∧ id2 < w.fn.areas.length + 2))
  | _ => true

theorem properB_spec {L : Lang} {w : World} {op : Op} (h : properB L w op = true) : w.Proper L op := by
  cases op with
  | split id p f =>
    cases f with
    | none => trivial
    | some s =>
      intro t ht
      simp only [properB, ht, decide_eq_true_eq] at h
      exact h
  | clone id p id2 p2 =>
    simp only [properB, decide_eq_true_eq] at h
    exact h
  | _ => trivial

/-- A history of proper calls. -/
def runProper (L : Lang) : World → List Op → Option World
  | w, [] => some w
  | w, op :: ops => if properB L w op then (w.step L op).bind (fun r => runProper L r.1 ops) else none

theorem runProper_reached {L : Lang} (ops : List Op) : ∀ {w w' : World}, Reached L w → runProper L w ops = some w' → Reached L w' := by
  induction ops with
  | nil => intro w w' h hr; cases hr; exact h
  | cons op ops ih =>
    intro w w' h hr
    unfold runProper at hr
    split at hr
    · rename_i hp
      rw [Option.bind_eq_some_iff] at hr
      obtain ⟨⟨w2, r⟩, hs, hr⟩ := hr
      exact ih (Reached.step h (properB_spec hp) hs) hr
    · cases hr

theorem runProper_later {L : Lang} (ops : List Op) : ∀ {w0 w w' : World}, Later L w0 w → runProper L w ops = some w' →
    (ops.all (fun op => match op with | .restore _ => false | _ => true)) = true → Later L w0 w' := by
  induction ops with
  | nil => intro w0 w w' h hr _; cases hr; exact h
  | cons op ops ih =>
    intro w0 w w' h hr hall
    rw [List.all_cons, Bool.and_eq_true] at hall
    unfold runProper at hr
    split at hr
    · rename_i hp
      rw [Option.bind_eq_some_iff] at hr
      obtain ⟨⟨w2, r⟩, hs, hr⟩ := hr
      refine ih (Later.step h (properB_spec hp) ?_ hs) hr hall.2
      intro k hk
      subst hk
      exact absurd hall.1 (by simp)
    · cases hr

theorem run_any {L : Lang} (ops : List Op) : ∀ {w w' : World}, AnyReached L w → w.run L ops = some w' → AnyReached L w' := by
  induction ops with
  | nil => intro w w' h hr; cases hr; exact h
  | cons op ops ih =>
    intro w w' h hr
    unfold World.run at hr
    rw [List.foldlM_cons] at hr
    cases hs : w.step L op with
    | none => rw [hs] at hr; cases hr
    | some x =>
      rw [hs] at hr
      exact ih (AnyReached.step (r := x.2) h hs) hr

/-- The error of a call, if it returns with one. -/
def errorOf (r : Option (World × Except Err Unit)) : Option Err := r.bind (fun r => match r.2 with
  | .ok _ => none
  | .error e => some e)

theorem errorOf_spec {r : Option (World × Except Err Unit)} {e : Err} (h : errorOf r = some e) : ∃ w', r = some (w', .error e) := by
  unfold errorOf at h
  rw [Option.bind_eq_some_iff] at h
  obtain ⟨⟨w', x⟩, hr, hx⟩ := h
  cases x with
  | ok _ => cases hx
  | error e' => cases hx; exact ⟨w', hr⟩

/-- The calls of the examples: `"if"` with a block in its first area, `"->3"` with a `"+"` and a `"set"` behind it. -/
def exOps : List Op :=
  [.instanciate 0 (0, 0) "if" none, .instanciate 1 (0, 0) "value" (some "3"), .instanciate 0 (2, 2) "->3" none,
   .instanciate 0 (3, 2) "+" none, .instanciate 0 (3, 4) "set" (some "x"), .save, .split 0 (2, 2) (some "->"), .recalculate]

theorem ex_runs : (runProper base World.new exOps).isSome = true := by decide +kernel

/-- The state of the examples. -/
def exWorld : World := (runProper base World.new exOps).get ex_runs

theorem ex_reached : Reached base exWorld := runProper_reached exOps .new (Option.some_get ex_runs).symm

-- C38: eight blocks, the slot in the second row of `"+"` (moved by the split) belongs to it
example : exWorld.fn.originAt 0 (4, 3) = some (4, 2) ∧ (exWorld.fn.blockAt 0 (4, 2)).map (·.typ) = some "+" ∧
    exWorld.fn.allBlocks.length = 7 := by decide +kernel
-- C38: the fillers are at the two other rows
example : (exWorld.fn.blockRef 0 (3, 3)).map (·.typ) = some "->" ∧ (exWorld.fn.blockRef 0 (3, 4)).map (·.typ) = some "->" ∧
    exWorld.fn.originAt 0 (3, 2) = none := by decide +kernel
-- C39: an error, with the hypothesis met
example : ∃ w', exWorld.step base (.move 0 (4, 2) 0 (2, 3)) = some (w', .error (.noSpaceAvailable 0 2 3 2)) :=
  errorOf_spec (by decide +kernel)
example : ∃ w', exWorld.step base (.move 0 (0, 0) 1 (2, 3)) = some (w', .error (.circularAction 0 1)) := errorOf_spec (by decide +kernel)
-- C40: the sub areas of `"if"`
example : exWorld.fn.Nests 0 1 ∧ exWorld.fn.Nests 0 2 := by
  have h : (exWorld.fn.blockAt 0 (0, 0)).map (·.contains) = some (some 1, some 2) := by decide +kernel
  cases hb : exWorld.fn.blockAt 0 (0, 0) with
  | none => rw [hb] at h; cases h
  | some b =>
    rw [hb, Option.map_some, Option.some.injEq] at h
    exact ⟨⟨(0, 0), b, hb, by unfold Block.subs; rw [h]; simp⟩, ⟨(0, 0), b, hb, by unfold Block.subs; rw [h]; simp⟩⟩
-- C41: ids are in use
example : exWorld.fn.curId = 7 ∧ (exWorld.fn.blockAt 0 (4, 2)).map (·.id) = some 4 := by decide +kernel
-- C42: its numbers are small
example : exWorld.fn.saveSnapshot.Small := by
  refine ⟨by decide +kernel, ?_⟩
  have : exWorld.fn.saveSnapshot.areas.all (fun a => decide (a.size.1 < 2 ^ 64 ∧ a.size.2 < 2 ^ 64) && a.blocks.all (fun e =>
      decide ((-2 ^ 63 ≤ e.1.1 ∧ e.1.1 < 2 ^ 63) ∧ (-2 ^ 63 ≤ e.1.2 ∧ e.1.2 < 2 ^ 63) ∧ e.2.id < 2 ^ 64 ∧ e.2.rows < 2 ^ 64) &&
      (e.2.subs.all (fun c => decide (c < 2 ^ 63)) && decide (e.2.color < 2 ^ 63)))) = true := by decide +kernel
  simp only [List.all_eq_true, Bool.and_eq_true, decide_eq_true_eq] at this
  intro a ha
  obtain ⟨⟨h1, h2⟩, h3⟩ := this a ha
  refine ⟨h1, h2, fun e he => ?_⟩
  obtain ⟨⟨g1, g2, g3, g4⟩, g5, g6⟩ := h3 e he
  exact ⟨g1, g2, g3, g4, g5, g6⟩
-- C64: the first area keeps 16 × 16, the area of `"if"` with a block shrinks around it
example : exWorld.fn.width 0 = 16 ∧ exWorld.fn.width 1 = 1 ∧ exWorld.fn.height 1 = 1 ∧ exWorld.fn.shrinks 1 = true := by decide +kernel
-- C65: moving the chain of `"->3"` into area 2
example : (exWorld.step base (.moveChain 0 (2, 3) 2 (0, 0))).map (fun r => (r.2.toBool, (r.1.fn.blockAt 0 (4, 2)).isNone,
    (r.1.fn.blockAt 2 (0, 0)).map (·.typ), (r.1.fn.blockAt 2 (2, 0)).map (·.typ))) = some (true, true, some "->3", some "+") := by decide +kernel

/-! ## Where the properties are false -/

/-- **C38** is false without the restriction: a chain split with `"->2"` has two blocks on the same slot. -/
theorem wide_filler_overlaps : ∃ w, AnyReached base w ∧ ∃ o o' b b' p, o ≠ o' ∧ w.fn.blockAt 0 o = some b ∧ w.fn.blockAt 0 o' = some b' ∧
    Covers o b p ∧ Covers o' b' p := by
  have hrun : ((World.new).run base [.instanciate 0 (2, 2) "->3" none, .instanciate 0 (3, 2) "+" none, .instanciate 0 (3, 4) "set" none,
    .split 0 (2, 2) (some "->2")]).map (fun w => ((w.fn.blockAt 0 (3, 3)).map (·.rows), (w.fn.blockAt 0 (3, 4)).map (·.rows))) =
      some (some 2, some 2) := by decide +kernel
  rw [Option.map_eq_some_iff] at hrun
  obtain ⟨w, hw, h1⟩ := hrun
  rw [Prod.mk.injEq, Option.map_eq_some_iff, Option.map_eq_some_iff] at h1
  obtain ⟨⟨b, hb, hr⟩, ⟨b', hb', hr'⟩⟩ := h1
  refine ⟨w, run_any _ .new hw, (3, 3), (3, 4), b, b', (3, 4), by decide, hb, hb', ?_, ?_⟩
  · unfold Covers; rw [hr]; decide
  · unfold Covers; rw [hr']; decide

/-- **C39** is false without the restriction: moving a block to an area that does not exist is an error, and the block is gone. -/
theorem move_to_unknown_area_loses_block : ∃ w w', Reached base w ∧ w.step base (.move 0 (0, 0) 7 (0, 0)) = some (w', .error (.unknownArea 7)) ∧
    (w.fn.blockAt 0 (0, 0)).isSome = true ∧ w'.fn.allBlocks = [] := by
  have h1 : (runProper base World.new [.instanciate 0 (0, 0) "value" none]).map (fun w =>
      (errorOf (w.step base (.move 0 (0, 0) 7 (0, 0))), (w.fn.blockAt 0 (0, 0)).isSome,
        (w.step base (.move 0 (0, 0) 7 (0, 0))).map (fun r => r.1.fn.allBlocks))) =
      some (some (.unknownArea 7), true, some []) := by decide +kernel
  rw [Option.map_eq_some_iff] at h1
  obtain ⟨w, hw, h2⟩ := h1
  rw [Prod.mk.injEq, Prod.mk.injEq] at h2
  obtain ⟨he, h3, h4⟩ := h2
  obtain ⟨w', hs⟩ := errorOf_spec he
  rw [hs, Option.map_some, Option.some.injEq] at h4
  exact ⟨w, w', runProper_reached _ .new hw, hs, h3, h4⟩

/-- **C40** is false without the restriction: a chain split with `"if"` makes a block with the areas 1 and 1, which belong to another block or
do not exist. -/
theorem filler_without_area : ∃ w, AnyReached base w ∧ ∃ b, w.fn.blockAt 0 (3, 3) = some b ∧ b.contains = (some 1, some 1) ∧
    w.fn.areas.length = 1 := by
  have hrun : ((World.new).run base [.instanciate 0 (2, 2) "->2" none, .instanciate 0 (3, 2) "+" none,
    .split 0 (2, 2) (some "if")]).map (fun w => ((w.fn.blockAt 0 (3, 3)).map (·.contains), w.fn.areas.length)) =
      some (some (some 1, some 1), 1) := by decide +kernel
  rw [Option.map_eq_some_iff] at hrun
  obtain ⟨w, hw, h1⟩ := hrun
  rw [Prod.mk.injEq, Option.map_eq_some_iff] at h1
  obtain ⟨⟨b, hb, hr⟩, hl⟩ := h1
  exact ⟨w, run_any _ .new hw, b, hb, hr, hl⟩

theorem loops_forever (areas : List Area) (i : Nat) (a : Area) (ha : areas[i]? = some a) (hi : i ∈ a.directSubs) (fuel : Nat) :
    ∀ dq acc, i ∈ dq → BlockFun.subAreasLoop areas fuel dq acc = none := by
  induction fuel with
  | zero =>
    intro dq acc h
    cases dq with
    | nil => cases h
    | cons j dq => rfl
  | succ fuel ih =>
    intro dq acc h
    cases dq with
    | nil => cases h
    | cons j dq =>
      unfold BlockFun.subAreasLoop
      cases hj : areas[j]? with
      | none => rfl
      | some x =>
        refine ih _ _ ?_
        rcases List.mem_cons.1 h with h1 | h1
        · subst h1
          rw [ha] at hj
          cases hj
          exact List.mem_append.2 (.inr hi)
        · exact List.mem_append.2 (.inl h1)

/-- **C40**, **C66** are false without the restriction: cloning the block `"if"` into the area with the next number succeeds, the clone is then
inside its own area, and moving it never returns: the search for its sub areas does not end after any number of iterations. -/
theorem clone_into_itself : ∃ w, AnyReached base w ∧ Relation.TransGen w.fn.Nests 3 3 ∧
    w.step base (.move 3 (0, 0) 0 (5, 5)) = none ∧ ∃ b, w.fn.blockRef 3 (0, 0) = some b ∧
    ∀ fuel, BlockFun.subAreasLoop w.fn.areas fuel (b.contains.1.toList ++ b.contains.2.toList) [] = none := by
  have hrun : ((World.new).run base [.instanciate 0 (0, 0) "if" none, .clone 0 (0, 0) 3 (0, 0)]).map (fun w =>
      ((w.fn.blockRef 3 (0, 0)).map (·.contains), (w.fn.blockAt 3 (0, 0)).map (·.contains))) =
      some (some (some 3, some 4), some (some 3, some 4)) := by decide +kernel
  have hrun2 : ((World.new).run base [.instanciate 0 (0, 0) "if" none, .clone 0 (0, 0) 3 (0, 0)]).map (fun w =>
      ((w.fn.areas[3]?).map (fun a => a.directSubs), (w.step base (.move 3 (0, 0) 0 (5, 5))).isNone)) = some (some [3, 4], true) := by
    decide +kernel
  rw [Option.map_eq_some_iff] at hrun
  obtain ⟨w, hw, h1⟩ := hrun
  rw [hw, Option.map_some, Option.some.injEq] at hrun2
  simp only [Prod.mk.injEq, Option.map_eq_some_iff, Option.isNone_iff_eq_none] at h1 hrun2
  obtain ⟨⟨b, hb, hc⟩, ⟨b2, hb2, hc2⟩⟩ := h1
  obtain ⟨⟨a, ha, hd⟩, hs⟩ := hrun2
  refine ⟨w, run_any _ .new hw, .single ⟨(0, 0), b2, hb2, ?_⟩, hs, b, hb, ?_⟩
  · unfold Block.subs; rw [hc2]; simp
  · intro fuel
    refine loops_forever _ 3 a ha (by rw [hd]; simp) fuel _ _ ?_
    rw [hc]
    simp

/-- **C41** with loading snapshots is false: an id given out, and whose block was in the program, is given to another block. -/
theorem ids_reused_after_restore : ∃ w w', Reached base w ∧ Reached base w' ∧
    (∃ ops, World.run base w ops = some w') ∧ (w.fn.blockAt 0 (0, 0)).map (fun b => (b.id, b.typ)) = some (1, "value") ∧
    (w'.fn.blockAt 0 (5, 5)).map (fun b => (b.id, b.typ)) = some (1, "get") := by
  have h1 : (runProper base World.new [.save, .instanciate 0 (0, 0) "value" none]).map (fun w =>
      ((w.fn.blockAt 0 (0, 0)).map (fun b => (b.id, b.typ)),
        (runProper base w [.restore 0, .instanciate 0 (5, 5) "get" none]).map (fun w' => (w'.fn.blockAt 0 (5, 5)).map (fun b => (b.id, b.typ))),
        (World.run base w [.restore 0, .instanciate 0 (5, 5) "get" none]).isSome)) =
      some (some (1, "value"), some (some (1, "get")), true) := by decide +kernel
  rw [Option.map_eq_some_iff] at h1
  obtain ⟨w, hw, h2⟩ := h1
  simp only [Prod.mk.injEq, Option.map_eq_some_iff (x := runProper _ _ _)] at h2
  obtain ⟨h3, ⟨w', hw', h4⟩, _⟩ := h2
  have hrun : ∀ (ops : List Op) {w w' : World}, runProper base w ops = some w' → World.run base w ops = some w' := by
    intro ops
    induction ops with
    | nil => intro w w' h; exact h
    | cons op ops ih =>
      intro w w' h
      unfold runProper at h
      split at h
      · rw [Option.bind_eq_some_iff] at h
        obtain ⟨⟨w2, r⟩, hs, h⟩ := h
        unfold World.run
        rw [List.foldlM_cons, hs]
        exact ih h
      · cases h
  exact ⟨w, w', runProper_reached _ .new hw, runProper_reached _ (runProper_reached _ .new hw) hw', ⟨_, hrun _ hw'⟩, h3, h4⟩

-- C41: a later state without loading a snapshot, in which an id has gone and new ones were given out
example : ∃ w', Later base exWorld w' ∧ w'.fn.curId = 8 ∧ (w'.fn.blockAt 1 (0, 0)).isNone = true := by
  have h1 : (runProper base exWorld [.remove 1 (0, 0), .instanciate 0 (8, 8) "get" none]).map (fun w =>
      (w.fn.curId, (w.fn.blockAt 1 (0, 0)).isNone)) = some (8, true) := by decide +kernel
  rw [Option.map_eq_some_iff] at h1
  obtain ⟨w', hw, h2⟩ := h1
  rw [Prod.mk.injEq] at h2
  exact ⟨w', runProper_later _ .refl hw rfl, h2.1, h2.2⟩

/-- **C66** is false for `shift_port` with a row that the block does not have: it panics. -/
theorem shift_port_panics : ∃ w, Reached base w ∧ (w.fn.blockRef 0 (0, 0)).map (·.rows) = some 2 ∧
    w.step base (.shiftPort 0 (0, 0) 2 false) = none := by
  have h1 : (runProper base World.new [.instanciate 0 (0, 0) "+" none]).map (fun w =>
      ((w.fn.blockRef 0 (0, 0)).map (·.rows), (w.step base (.shiftPort 0 (0, 0) 2 false)).isNone)) = some (some 2, true) := by decide +kernel
  rw [Option.map_eq_some_iff] at h1
  obtain ⟨w, hw, h2⟩ := h1
  rw [Prod.mk.injEq, Option.isNone_iff_eq_none] at h2
  exact ⟨w, runProper_reached _ .new hw, h2.1, h2.2⟩

end HexoDSP.BlockProps
