import Verif.Lemmas.BlockSize
import Verif.Spec.BlockRun
import Mathlib.Data.List.Perm.Basic
/-! Blocks keep the ports of their type. -/

set_option linter.unusedSectionVars false
set_option linter.dupNamespace false

namespace HexoDSP.Block

/-- A block as its type makes it, but for the rows of its ports. -/
def Kin (L : Lang) (b : Block) : Prop :=
  b.Conforms L ∧ ∀ t, L b.typ = some t → t.areaCount ≠ 1 → t.areaCount ≠ 2 → b.contains = (none, none)

/-- The types of a language have room for their ports. -/
def Roomy (L : Lang) : Prop := ∀ s t, L s = some t → t.name = s ∧ t.inputs.length ≤ t.rows ∧ t.outputs.length ≤ t.rows

def AreaKin (L : Lang) (a : Area) : Prop := ∀ e ∈ a.blocks, Kin L e.2
def LoadKin (L : Lang) (l : Load) : Prop := ∀ e ∈ l, Kin L e.2
def FunKin (L : Lang) (f : BlockFun) : Prop := ∀ a ∈ f.areas, AreaKin L a

theorem mem_of_lookup_pos {l : Load} {p : Pos} {b : Block} (h : l.lookup p = some b) : (p, b) ∈ l := by
  induction l with
  | nil => cases h
  | cons e l ih =>
    rw [List.lookup_cons] at h
    by_cases he : p = e.1
    · rw [he] at h
      simp only [beq_self_eq_true, Option.some.injEq] at h
      rw [he, ← h]
      exact List.mem_cons_self
    · rw [beq_false_of_ne he] at h
      exact List.mem_cons_of_mem _ (ih h)

section
variable {L : Lang}

theorem Kin.instanciate (hL : Roomy L) {s : String} {t : BlockType} (h : L s = some t) (ui : Option String) (id : Nat) :
    Kin L (t.instanciate ui id) := by
  obtain ⟨h1, h2, h3⟩ := hL s t h
  subst h1
  refine ⟨⟨t, h, rfl, h2, h3, .refl _, .refl _⟩, ?_⟩
  intro t' ht' ha hb
  have : t' = t := by
    have e : L t.name = some t' := ht'
    rw [h] at e; exact (Option.some.inj e).symm
  subst this
  simp only [BlockType.instanciate, BlockType.touchContains]
  match hc : t'.areaCount, ha, hb with
  | 0, _, _ => rfl
  | 1, h, _ => exact absurd rfl h
  | 2, _, h => exact absurd rfl h
  | _ + 3, _, _ => rfl

theorem createAreas_kin {f : BlockFun} {b : Block} (hb : Kin L b) (hf : FunKin L f) :
    FunKin L (f.createAreas b).1 ∧ Kin L (f.createAreas b).2 := by
  obtain ⟨k, -, h2, h3, -, -, h6⟩ := createAreas_spec f b
  constructor
  · rw [h2]
    intro a ha
    rcases List.mem_append.1 ha with ha | ha
    · exact hf a ha
    · rw [(List.mem_replicate.1 ha).2]
      intro e he; cases he
  · have hc : b.contains = (none, none) → (f.createAreas b).2.contains = (none, none) := by
      intro hc
      unfold BlockFun.createAreas
      simp only [hc]
    rw [h6]
    refine ⟨hb.1, ?_⟩
    intro t ht ha hb'
    exact hc (hb.2 t ht ha hb')

theorem setBlockAt_kin {a : Area} (ha : AreaKin L a) {p : Pos} {b : Block} (hb : Kin L b) : AreaKin L (a.setBlockAt p b) := by
  intro e he
  have he : e ∈ Map.insert a.blocks p b := he
  unfold Map.insert at he
  rcases List.mem_cons.1 he with rfl | he
  · exact hb
  · exact ha e (List.mem_filter.1 he).1

theorem setBlocksFrom_kin {a : Area} (ha : AreaKin L a) {l : Load} (hl : LoadKin L l) : AreaKin L (a.setBlocksFrom l) := by
  have : ∀ (l m : Load), LoadKin L l → LoadKin L m → LoadKin L (l.foldl (fun m e => Map.insert m e.1 e.2) m) := by
    intro l
    induction l with
    | nil => intro m _ hm; exact hm
    | cons x l ih =>
      intro m hl hm
      refine ih _ (fun e he => hl e (List.mem_cons_of_mem _ he)) ?_
      intro e he
      unfold Map.insert at he
      rcases List.mem_cons.1 he with rfl | he
      · exact hl x List.mem_cons_self
      · exact hm e (List.mem_filter.1 he).1
  exact this l a.blocks hl ha

theorem areaRemove_kin {a a' : Area} {p o : Pos} {b : Block} (ha : AreaKin L a) (h : a.removeAt p = some (b, o, a')) : Kin L b ∧ AreaKin L a' := by
  unfold Area.removeAt at h
  cases hr : a.refAtOrigin p with
  | none => rw [hr] at h; cases h
  | some bo =>
    obtain ⟨b1, o1⟩ := bo
    rw [hr] at h
    simp only [Option.some.injEq, Prod.mk.injEq] at h
    obtain ⟨rfl, rfl, rfl⟩ := h
    constructor
    · unfold Area.refAtOrigin at hr
      cases h1 : a.origin.lookup p with
      | none => rw [h1] at hr; cases hr
      | some o2 =>
        rw [h1] at hr
        simp only [Option.map_eq_some_iff, Prod.mk.injEq] at hr
        obtain ⟨b2, h2, rfl, rfl⟩ := hr
        exact ha (o2, b2) (mem_of_lookup_pos h2)
    · intro e he
      exact ha e (List.mem_filter.1 he).1

theorem removeLoad_kin {a : Area} (ha : AreaKin L a) (chain : List Pos) : LoadKin L (removeLoad a chain).1 ∧ AreaKin L (removeLoad a chain).2 := by
  have : ∀ (chain : List Pos) (s : Load × Area), LoadKin L s.1 → AreaKin L s.2 →
      LoadKin L (chain.foldl (fun (s : Load × Area) p => match s.2.removeAt p with
        | none => s
        | some (b, o, a) => (s.1 ++ [(o, b)], a)) s).1 ∧ AreaKin L (chain.foldl (fun (s : Load × Area) p => match s.2.removeAt p with
        | none => s
        | some (b, o, a) => (s.1 ++ [(o, b)], a)) s).2 := by
    intro chain
    induction chain with
    | nil => intro s h1 h2; exact ⟨h1, h2⟩
    | cons p chain ih =>
      intro s h1 h2
      rw [List.foldl_cons]
      apply ih
      · cases hr : s.2.removeAt p with
        | none => exact h1
        | some x =>
          obtain ⟨b, o, a'⟩ := x
          simp only
          intro e he
          rcases List.mem_append.1 he with he | he
          · exact h1 e he
          · rw [List.mem_singleton] at he
            rw [he]; exact (areaRemove_kin h2 hr).1
      · cases hr : s.2.removeAt p with
        | none => exact h2
        | some x =>
          obtain ⟨b, o, a'⟩ := x
          exact (areaRemove_kin h2 hr).2
  have h := this chain ([], a) (by intro e he; cases he) ha
  refine ⟨?_, h.2⟩
  intro e he
  exact h.1 e ((sortLoad_perm _).mem_iff.1 he)

theorem loadKin_blocks {l l' : Load} (h : LoadKin L l) (hb : ∀ b ∈ l'.map (·.2), b ∈ l.map (·.2)) : LoadKin L l' := by
  intro e he
  obtain ⟨e', he', h2⟩ := List.mem_map.1 (hb e.2 (List.mem_map.2 ⟨e, he, rfl⟩))
  rw [← h2]
  exact h e' he'

theorem moveByOffs_kin {l : Load} (h : LoadKin L l) (x y : Int) : LoadKin L (moveByOffs l x y) :=
  loadKin_blocks h (by intro b hb; rw [moveByOffs_blocks] at hb; exact hb)

theorem tryFit_kin {a : Area} {l l' : Load} (h : LoadKin L l) (ht : tryFit a l = some l') : LoadKin L l' := by
  unfold tryFit at ht
  rw [Option.map_eq_some_iff] at ht
  obtain ⟨o, -, rfl⟩ := ht
  exact moveByOffs_kin h _ _

theorem normalizeLoad_kin {l : Load} (h : LoadKin L l) : LoadKin L (normalizeLoad l).1 :=
  loadKin_blocks h (fun b hb => (normalizeLoad_blocks l).mem_iff.1 hb)

theorem splitLoad_kin (hL : Roomy L) {l : Load} (h : LoadKin L l) (x y : Int) (filler : Option BlockType) (cur : Nat)
    (hf : ∀ t, filler = some t → ∃ s, L s = some t) : LoadKin L (BlockFun.splitLoad l x y filler cur).1 := by
  intro e he
  have hm : e.2 ∈ (BlockFun.splitLoad l x y filler cur).1.map (·.2) := List.mem_map.2 ⟨e, he, rfl⟩
  rw [(splitLoad_blocks l x y filler cur).1.mem_iff] at hm
  rcases List.mem_append.1 hm with hm | hm
  · obtain ⟨e', he', h2⟩ := List.mem_map.1 hm
    rw [← h2]
    exact h e' he'
  · cases filler with
    | none => cases hm
    | some t =>
      obtain ⟨i, -, hi⟩ := List.mem_map.1 hm
      rw [← hi]
      obtain ⟨s, hs⟩ := hf t rfl
      exact Kin.instanciate hL hs _ _

theorem rotatePort_perm {v v' : List (Option String)} {i : Nat} (h : rotatePort v i = some v') : v'.Perm v := by
  unfold rotatePort at h
  cases he : v[i]? with
  | none => rw [he] at h; cases h
  | some e =>
    rw [he] at h
    simp only [Option.some.injEq] at h
    subst h
    obtain ⟨hi, rfl⟩ := List.getElem?_eq_some_iff.1 he
    have hl : (i + 1) % v.length ≤ (v.eraseIdx i).length := by
      rw [List.length_eraseIdx_of_lt hi]
      have := Nat.mod_lt (i + 1) (Nat.lt_of_le_of_lt (Nat.zero_le _) hi)
      omega
    exact (List.perm_insertIdx _ _ hl).trans (List.getElem_cons_eraseIdx_perm hi)

theorem padTo_names (n : Nat) (v : List (Option String)) : (padTo n v).filterMap (fun o => o) = v.filterMap (fun o => o) := by
  unfold padTo
  rw [List.filterMap_append]
  have : ∀ k, (List.replicate k (none : Option String)).filterMap (fun o => o) = [] := by
    intro k
    induction k with
    | zero => rfl
    | succ k ih => rw [List.replicate_succ, List.filterMap_cons]; exact ih
  rw [this, List.append_nil]

theorem padTo_length (n : Nat) (v : List (Option String)) (h : v.length ≤ n) : (padTo n v).length = n := by
  unfold padTo
  rw [List.length_append, List.length_replicate]
  omega

theorem shift_kin {b b' : Block} (hb : Kin L b) {idx : Nat} {out : Bool} (h : b.shiftPort idx out = some b') : Kin L b' := by
  obtain ⟨⟨t, h1, h2, h3, h4, h5, h6⟩, h7⟩ := hb
  unfold Block.shiftPort at h
  split at h
  · cases h; exact ⟨⟨t, h1, h2, h3, h4, h5, h6⟩, h7⟩
  · split at h
    · rw [Option.map_eq_some_iff] at h
      obtain ⟨v, hv, rfl⟩ := h
      have hp := rotatePort_perm hv
      refine ⟨⟨t, h1, h2, h3, ?_, h5, ?_⟩, h7⟩
      · show v.length ≤ b.rows
        rw [hp.length_eq, padTo_length _ _ h4]
      · refine (hp.filterMap _).trans ?_
        rw [padTo_names]; exact h6
    · rw [Option.map_eq_some_iff] at h
      obtain ⟨v, hv, rfl⟩ := h
      have hp := rotatePort_perm hv
      refine ⟨⟨t, h1, h2, ?_, h4, ?_, h6⟩, h7⟩
      · show v.length ≤ b.rows
        rw [hp.length_eq, padTo_length _ _ h3]
      · refine (hp.filterMap _).trans ?_
        rw [padTo_names]; exact h5

theorem set_kin {as : List Area} (h : ∀ a ∈ as, AreaKin L a) {i : Nat} {a : Area} (ha : AreaKin L a) : ∀ x ∈ as.set i a, AreaKin L x := by
  intro x hx
  rcases List.mem_or_eq_of_mem_set hx with h1 | h1
  · exact h x h1
  · rw [h1]; exact ha

theorem modify_kin {as : List Area} (h : ∀ a ∈ as, AreaKin L a) {i : Nat} {g : Area → Area} (hg : ∀ a, AreaKin L a → AreaKin L (g a)) :
    ∀ x ∈ as.modify i g, AreaKin L x := by
  intro x hx
  obtain ⟨j, hj⟩ := List.mem_iff_getElem?.1 hx
  rw [List.getElem?_modify] at hj
  cases hy : as[j]? with
  | none => rw [hy] at hj; cases hj
  | some y =>
    rw [hy] at hj
    simp only [Option.map_eq_map, Option.map_some, Option.some.injEq] at hj
    have := h y (List.mem_of_getElem? hy)
    split at hj
    · rw [← hj]; exact hg y this
    · rw [← hj]; exact this

theorem recalc_kin {f f' : BlockFun} (hk : FunKin L f) (h : FunOk f) (hr : f.recalculate = some f') : FunKin L f' := by
  obtain ⟨sz, areas', h1, h2, -⟩ := recalculate_terminates h
  rw [h1] at hr
  cases hr
  intro a ha
  obtain ⟨j, hj⟩ := List.mem_iff_getElem?.1 ha
  have hj : areas'[j]? = some a := hj
  rw [h2] at hj
  obtain ⟨a0, h3, rfl⟩ := Option.map_eq_some_iff.1 hj
  exact hk a0 (List.mem_of_getElem? h3)

theorem refAtOrigin_kin {a : Area} (ha : AreaKin L a) {p o : Pos} {b : Block} (hr : a.refAtOrigin p = some (b, o)) : Kin L b := by
  unfold Area.refAtOrigin at hr
  cases h1 : a.origin.lookup p with
  | none => rw [h1] at hr; cases hr
  | some o2 =>
    rw [h1] at hr
    simp only [Option.map_eq_some_iff, Prod.mk.injEq] at hr
    obtain ⟨b2, h2, rfl, rfl⟩ := hr
    exact ha (o2, b2) (mem_of_lookup_pos h2)

theorem instanciateAt_kin (hL : Roomy L) {f : BlockFun} (h : FunKin L f) (id : Nat) (p : Pos) (typ : String) (ui : Option String) :
    FunKin L (f.instanciateAt L id p typ ui).1 := by
  unfold BlockFun.instanciateAt
  split
  · exact h
  · split
    · exact h
    · rename_i t ht
      split
      · have := createAreas_kin (f := { f with curId := f.curId + 1 }) (Kin.instanciate hL ht ui (f.curId + 1)) h
        exact modify_kin this.1 (fun a ha => setBlockAt_kin ha this.2)
      · exact h

theorem removeAt_kin {f : BlockFun} (h : FunKin L f) (id : Nat) (p : Pos) : FunKin L (f.removeAt id p).1 := by
  unfold BlockFun.removeAt
  split
  · exact h
  · rename_i a ha
    split
    · exact h
    · rename_i hr
      exact set_kin h (areaRemove_kin (h _ (List.mem_of_getElem? ha)) hr).2

theorem moveBlock_kin {f : BlockFun} (h : FunKin L f) (id : Nat) (p : Pos) (id2 : Nat) (p2 : Pos) {r : BlockFun × Except Err Unit}
    (hr : f.moveBlock id p id2 p2 = some r) : FunKin L r.1 := by
  unfold BlockFun.moveBlock at hr
  split at hr
  · cases hr
  · cases hr; exact h
  · split at hr
    · cases hr; exact h
    · rename_i a ha
      split at hr
      · cases hr; exact h
      · rename_i b o a' hrm
        obtain ⟨h1, h2⟩ := areaRemove_kin (h _ (List.mem_of_getElem? ha)) hrm
        have h3 : ∀ x ∈ f.areas.set id a', AreaKin L x := set_kin h h2
        simp only at hr
        split at hr
        · cases hr; exact h3
        · split at hr
          · cases hr
            exact modify_kin h3 (fun a ha => setBlockAt_kin ha h1)
          · cases hr
            exact modify_kin h3 (fun a ha => setBlockAt_kin ha h1)

theorem touch_kin {b : Block} (hb : Kin L b) {t : BlockType} (ht : L b.typ = some t) : Kin L (t.touchContains b) := by
  refine ⟨hb.1, ?_⟩
  intro t' ht' h1 h2
  have e : L b.typ = some t' := ht'
  rw [ht] at e
  cases e
  simp only [BlockType.touchContains]
  match hc : t.areaCount, h1, h2 with
  | 0, _, _ => rfl
  | 1, h, _ => exact absurd rfl h
  | 2, _, h => exact absurd rfl h
  | _ + 3, _, _ => rfl

theorem cloneBlock_kin {f : BlockFun} (h : FunKin L f) (id : Nat) (p : Pos) (id2 : Nat) (p2 : Pos) : FunKin L (f.cloneBlock L id p id2 p2).1 := by
  unfold BlockFun.cloneBlock
  split
  · exact h
  · rename_i a ha
    split
    · exact h
    · rename_i b o hr
      have hb := refAtOrigin_kin (h _ (List.mem_of_getElem? ha)) hr
      have hb1 : Kin L (b.cloneWithNewId (f.curId + 1)) := hb
      obtain ⟨t, ht, -⟩ := hb.1
      have ht' : L (b.cloneWithNewId (f.curId + 1)).typ = some t := ht
      have hb2 := touch_kin hb1 ht'
      have := createAreas_kin (f := { f with curId := f.curId + 1 }) hb2 h
      simp only [ht']
      split
      · exact this.1
      · split
        · exact modify_kin this.1 (fun a ha => setBlockAt_kin ha this.2)
        · exact this.1

theorem splitChain_kin (hL : Roomy L) {f : BlockFun} (h : FunKin L f) (id : Nat) (p : Pos) (filler : Option String) :
    FunKin L (f.splitChain L id p filler).1 := by
  unfold BlockFun.splitChain
  split
  · exact h
  · rename_i a ha
    split
    · exact h
    · rename_i chain hc
      obtain ⟨h1, h2⟩ := removeLoad_kin (h _ (List.mem_of_getElem? ha)) chain
      have key : ∀ (typ : Option BlockType), (∀ t, typ = some t → ∃ s, L s = some t) →
          FunKin L (if hasSpaceFor (removeLoad a chain).2 (BlockFun.splitLoad (removeLoad a chain).1 p.1 p.2 typ f.curId).1 0 0 then
            ((BlockFun.mk (f.areas.set id ((removeLoad a chain).2.setBlocksFrom (BlockFun.splitLoad (removeLoad a chain).1 p.1 p.2 typ f.curId).1))
              (BlockFun.splitLoad (removeLoad a chain).1 p.1 p.2 typ f.curId).2 (f.generation + 1)), (Except.ok () : Except Err Unit))
            else ({ f with curId := (BlockFun.splitLoad (removeLoad a chain).1 p.1 p.2 typ f.curId).2 }, .error (.noSpaceAvailable id p.1 p.2 0))).1 := by
        intro typ ht
        split
        · exact set_kin h (setBlocksFrom_kin h2 (splitLoad_kin hL h1 _ _ _ _ ht))
        · exact h
      cases filler with
      | none => exact key none (fun t ht => by cases ht)
      | some s =>
        cases hs : L s with
        | none => simp only [hs]; exact h
        | some t =>
          simp only [hs]
          exact key (some t) (fun t' ht => by cases ht; exact ⟨s, hs⟩)

theorem moveChain_kin {f : BlockFun} (h : FunKin L f) (id : Nat) (p : Pos) (id2 : Nat) (p2 : Pos) {r : BlockFun × Except Err Unit}
    (hr : f.moveChain id p id2 p2 = some r) : FunKin L r.1 := by
  unfold BlockFun.moveChain at hr
  split at hr
  · cases hr; exact h
  · rename_i a ha
    split at hr
    · cases hr; exact h
    · rename_i chain hc
      obtain ⟨h1, h2⟩ := removeLoad_kin (h _ (List.mem_of_getElem? ha)) chain
      simp only at hr
      split at hr
      · split at hr
        · cases hr; exact h
        · rename_i l hl
          cases hr
          exact set_kin h (setBlocksFrom_kin h2 (tryFit_kin (moveByOffs_kin h1 _ _) hl))
      · split at hr
        · cases hr
        · cases hr; exact h
        · split at hr
          · cases hr; exact h
          · rename_i a2 ha2
            split at hr
            · cases hr; exact h
            · rename_i l hl
              cases hr
              exact set_kin (set_kin h h2) (setBlocksFrom_kin (h _ (List.mem_of_getElem? ha2))
                (tryFit_kin (moveByOffs_kin (normalizeLoad_kin h1) _ _) hl))

theorem retrieveChain_kin {f : BlockFun} (h : FunKin L f) (id : Nat) (p : Pos) (remove : Bool) : FunKin L (f.retrieveChain id p remove) := by
  unfold BlockFun.retrieveChain
  split
  · exact h
  · rename_i a ha
    split
    · exact h
    · split
      · exact set_kin h (removeLoad_kin (h _ (List.mem_of_getElem? ha)) _).2
      · exact h

theorem shiftPort_kin {f f' : BlockFun} (h : FunKin L f) {id : Nat} {p : Pos} {row : Nat} {out : Bool} (hs : f.shiftPort id p row out = some f') :
    FunKin L f' := by
  unfold BlockFun.shiftPort at hs
  split at hs
  · cases hs; exact h
  · rename_i a ha
    split at hs
    · cases hs; exact h
    · rename_i b o hr
      rw [Option.map_eq_some_iff] at hs
      obtain ⟨b', hb', rfl⟩ := hs
      have hka := h _ (List.mem_of_getElem? ha)
      refine set_kin h ?_
      intro e he
      have he : e ∈ Map.insert a.blocks o b' := he
      unfold Map.insert at he
      rcases List.mem_cons.1 he with rfl | he
      · exact shift_kin (refAtOrigin_kin hka hr) hb'
      · exact hka e (List.mem_filter.1 he).1

end

end HexoDSP.Block
