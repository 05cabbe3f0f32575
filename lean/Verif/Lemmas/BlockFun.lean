import Verif.Lemmas.Block
import Mathlib.Logic.Relation
import Mathlib.Data.List.Lattice
import Mathlib.Data.List.Perm.Subperm
/-! The invariant of block programs and the three ways in which operations change the set of blocks. -/

set_option linter.unusedSectionVars false
set_option linter.dupNamespace false

namespace HexoDSP.Block

/-- The blocks of an area without their positions. -/
def Area.bs (a : Area) : List Block := a.blocks.map (·.2)

theorem directSubs_eq (a : Area) : a.directSubs = a.bs.flatMap Block.subs := by
  unfold Area.directSubs Area.bs Block.subs
  rw [List.flatMap_map]

theorem allBlocks_eq (f : BlockFun) : f.allBlocks = f.areas.flatMap Area.bs := rfl

/-- The invariant. -/
structure FunOk (f : BlockFun) : Prop where
  areas : ∀ a ∈ f.areas, AreaOk a
  ids : (f.allBlocks.map (·.id)).Nodup
  idRange : ∀ b ∈ f.allBlocks, 1 ≤ b.id ∧ b.id ≤ f.curId
  subs : (f.allBlocks.flatMap Block.subs).Nodup
  subRange : ∀ c ∈ f.allBlocks.flatMap Block.subs, 1 ≤ c ∧ c < f.areas.length
  rank : ∃ rank : Nat → Nat, ∀ i a, f.areas[i]? = some a → ∀ c ∈ a.directSubs, rank i < rank c
  root : f.areas ≠ []

/-- A later state: the ids in it are new or were in use before. -/
structure Next (f f' : BlockFun) : Prop where
  ok : FunOk f'
  cur : f.curId ≤ f'.curId
  new : ∀ b ∈ f'.allBlocks, f.curId < b.id ∨ ∃ b0 ∈ f.allBlocks, b0.id = b.id

theorem Next.refl {f : BlockFun} (h : FunOk f) : Next f f := ⟨h, Nat.le_refl _, fun b hb => .inr ⟨b, hb, rfl⟩⟩

theorem Next.trans {f g h : BlockFun} (h1 : Next f g) (h2 : Next g h) : Next f h := by
  refine ⟨h2.ok, Nat.le_trans h1.cur h2.cur, ?_⟩
  intro b hb
  rcases h2.new b hb with h3 | ⟨b0, hb0, he⟩
  · exact .inl (Nat.lt_of_le_of_lt h1.cur h3)
  · rw [← he]; exact h1.new b0 hb0

/-- Area `i` has a block with sub area `c`. -/
def Edge (areas : List Area) (i c : Nat) : Prop := ∃ a, areas[i]? = some a ∧ c ∈ a.directSubs

theorem modify_eq_set {α : Type} (l : List α) (i : Nat) (a : α) (g : α → α) (h : l[i]? = some a) : l.modify i g = l.set i (g a) := by
  induction l generalizing i with
  | nil => simp at h
  | cons x l ih =>
    cases i with
    | zero => simp at h; subst h; rfl
    | succ i => simp at h; simp [ih i h]

theorem flatMap_set {α β : Type} (g : α → List β) : ∀ (l : List α) (i : Nat) (a : α), l[i]? = some a →
    ∃ R, (l.flatMap g).Perm (g a ++ R) ∧ ∀ a', ((l.set i a').flatMap g).Perm (g a' ++ R) := by
  intro l
  induction l with
  | nil => intro i a h; simp at h
  | cons x l ih =>
    intro i a h
    cases i with
    | zero =>
      simp at h
      subst h
      exact ⟨l.flatMap g, by simp, fun a' => by simp⟩
    | succ i =>
      simp at h
      obtain ⟨R, h1, h2⟩ := ih i a h
      refine ⟨g x ++ R, ?_, fun a' => ?_⟩
      · rw [List.flatMap_cons]
        refine (h1.append_left _).trans ?_
        rw [← List.append_assoc, ← List.append_assoc]
        exact List.perm_append_comm.append_right _
      · rw [List.set_cons_succ, List.flatMap_cons]
        refine ((h2 a').append_left _).trans ?_
        rw [← List.append_assoc, ← List.append_assoc]
        exact List.perm_append_comm.append_right _

theorem areas_set {areas : List Area} {i : Nat} {a' : Area} (h : ∀ a ∈ areas, AreaOk a) (h' : AreaOk a') :
    ∀ a ∈ areas.set i a', AreaOk a := by
  intro a ha
  rcases List.mem_or_eq_of_mem_set ha with h1 | h1
  · exact h a h1
  · rw [h1]; exact h'

/-- The blocks of one area are exchanged for blocks with the same ids and sub areas. -/
theorem FunOk.swap {f : BlockFun} (h : FunOk f) {i : Nat} {a a' : Area} (ha : f.areas[i]? = some a) (ha' : AreaOk a')
    (hid : (a'.bs.map (·.id)).Perm (a.bs.map (·.id))) (hsub : a'.directSubs.Perm a.directSubs) {g : Nat} :
    Next f { f with areas := f.areas.set i a', generation := g } := by
  obtain ⟨R, h1, h2⟩ := flatMap_set Area.bs f.areas i a ha
  have hids : (((f.areas.set i a').flatMap Area.bs).map (·.id)).Perm (f.allBlocks.map (·.id)) := by
    refine ((h2 a').map _).trans (List.Perm.trans ?_ (h1.map _).symm)
    rw [List.map_append, List.map_append]
    exact hid.append_right _
  have hsubs : (((f.areas.set i a').flatMap Area.bs).flatMap Block.subs).Perm (f.allBlocks.flatMap Block.subs) := by
    refine ((h2 a').flatMap_right _).trans (List.Perm.trans ?_ (h1.flatMap_right _).symm)
    rw [List.flatMap_append, List.flatMap_append, ← directSubs_eq, ← directSubs_eq]
    exact hsub.append_right _
  refine ⟨⟨areas_set h.areas ha', hids.nodup_iff.2 h.ids, ?_, hsubs.nodup_iff.2 h.subs, ?_, ?_, ?_⟩, Nat.le_refl _, ?_⟩
  · intro b hb
    have hb' : b ∈ (f.areas.set i a').flatMap Area.bs := hb
    have := hids.mem_iff.1 (List.mem_map.2 ⟨b, hb', rfl⟩)
    obtain ⟨b2, hb2, he⟩ := List.mem_map.1 this
    have := h.idRange b2 hb2
    rw [he] at this
    exact this
  · intro c hc
    have := h.subRange c (hsubs.mem_iff.1 hc)
    simpa using this
  · obtain ⟨rank, hr⟩ := h.rank
    refine ⟨rank, ?_⟩
    intro j b hj c hc
    simp only [List.getElem?_set] at hj
    split at hj
    · rename_i hij
      subst hij
      split at hj
      · cases hj
        exact hr i a ha c (hsub.mem_iff.1 hc)
      · cases hj
    · exact hr j b hj c hc
  · simpa using h.root
  · intro b hb
    have hb' : b ∈ (f.areas.set i a').flatMap Area.bs := hb
    obtain ⟨b2, hb2, he⟩ := List.mem_map.1 (hids.mem_iff.1 (List.mem_map.2 ⟨b, hb', rfl⟩))
    exact .inr ⟨b2, hb2, he⟩

/-- Blocks of one area are removed. -/
theorem FunOk.shrink {f : BlockFun} (h : FunOk f) {i : Nat} {a a' : Area} {X : List Block} (ha : f.areas[i]? = some a) (ha' : AreaOk a')
    (hp : a.bs.Perm (X ++ a'.bs)) {g : Nat} :
    Next f { f with areas := f.areas.set i a', generation := g } ∧
      f.allBlocks.Perm (X ++ ({ f with areas := f.areas.set i a', generation := g } : BlockFun).allBlocks) := by
  obtain ⟨R, h1, h2⟩ := flatMap_set Area.bs f.areas i a ha
  have hall : f.allBlocks.Perm (X ++ (f.areas.set i a').flatMap Area.bs) := by
    refine h1.trans ((hp.append_right _).trans ?_)
    rw [List.append_assoc]
    exact (h2 a').symm.append_left _
  refine ⟨⟨⟨areas_set h.areas ha', ?_, ?_, ?_, ?_, ?_, by simpa using h.root⟩, Nat.le_refl _, fun b hb => .inr ⟨b, hall.mem_iff.2 (List.mem_append.2 (.inr hb)), rfl⟩⟩, hall⟩
  · have := (hall.map (·.id)).nodup_iff.1 h.ids
    rw [List.map_append] at this
    exact (List.nodup_append.1 this).2.1
  · intro b hb
    exact h.idRange b (hall.mem_iff.2 (List.mem_append.2 (.inr hb)))
  · have := (hall.flatMap_right Block.subs).nodup_iff.1 h.subs
    rw [List.flatMap_append] at this
    exact (List.nodup_append.1 this).2.1
  · intro c hc
    have := h.subRange c ((hall.flatMap_right Block.subs).mem_iff.2 (by
      rw [List.flatMap_append]; exact List.mem_append.2 (.inr hc)))
    simpa using this
  · obtain ⟨rank, hr⟩ := h.rank
    refine ⟨rank, ?_⟩
    intro j b hj c hc
    simp only [List.getElem?_set] at hj
    split at hj
    · rename_i hij
      subst hij
      split at hj
      · cases hj
        refine hr i a ha c ?_
        rw [directSubs_eq] at hc ⊢
        refine (hp.flatMap_right _).mem_iff.2 ?_
        rw [List.flatMap_append]
        exact List.mem_append.2 (.inr hc)
      · cases hj
    · exact hr j b hj c hc

open Classical in
/-- Blocks are added to one area. Their ids and sub areas are not in use, and the area is not inside one of these sub areas. -/
theorem FunOk.grow {f : BlockFun} (h : FunOk f) {i cur : Nat} {a a' : Area} {X : List Block} (ha : f.areas[i]? = some a) (ha' : AreaOk a')
    (hp : a'.bs.Perm (X ++ a.bs)) (hcur : f.curId ≤ cur) (hids : (X.map (·.id) ++ f.allBlocks.map (·.id)).Nodup)
    (hrange : ∀ b ∈ X, 1 ≤ b.id ∧ b.id ≤ cur) (hsubs : (X.flatMap Block.subs ++ f.allBlocks.flatMap Block.subs).Nodup)
    (hsr : ∀ c ∈ X.flatMap Block.subs, 1 ≤ c ∧ c < f.areas.length)
    (hi : ∀ s ∈ X.flatMap Block.subs, ¬ Relation.ReflTransGen (Edge f.areas) s i) {g : Nat} :
    FunOk { areas := f.areas.set i a', curId := cur, generation := g } ∧ ((f.areas.set i a').flatMap Area.bs).Perm (X ++ f.allBlocks) := by
  obtain ⟨R, h1, h2⟩ := flatMap_set Area.bs f.areas i a ha
  have hall : ((f.areas.set i a').flatMap Area.bs).Perm (X ++ f.allBlocks) := by
    refine (h2 a').trans ((hp.append_right _).trans ?_)
    rw [List.append_assoc]
    exact h1.symm.append_left _
  refine ⟨⟨areas_set h.areas ha', ?_, ?_, ?_, ?_, ?_, by simpa using h.root⟩, hall⟩
  · have := (hall.map (·.id)).nodup_iff.2 (by rw [List.map_append]; exact hids)
    exact this
  · intro b hb
    rcases List.mem_append.1 (hall.mem_iff.1 hb) with h3 | h3
    · exact hrange b h3
    · have := h.idRange b h3
      exact ⟨this.1, Nat.le_trans this.2 hcur⟩
  · exact (hall.flatMap_right Block.subs).nodup_iff.2 (by rw [List.flatMap_append]; exact hsubs)
  · intro c hc
    have := (hall.flatMap_right Block.subs).mem_iff.1 hc
    rw [List.flatMap_append] at this
    rcases List.mem_append.1 this with h3 | h3
    · simpa using hsr c h3
    · simpa using h.subRange c h3
  · obtain ⟨rank, hr⟩ := h.rank
    let D : Nat → Prop := fun y => ∃ s ∈ X.flatMap Block.subs, Relation.ReflTransGen (Edge f.areas) s y
    have hD : ∀ y c, D y → Edge f.areas y c → D c := fun y c ⟨s, hs, hy⟩ he => ⟨s, hs, hy.tail he⟩
    have hiD : ¬ D i := fun ⟨s, hs, hy⟩ => hi s hs hy
    refine ⟨fun y => if D y then rank y + rank i + 1 else rank y, ?_⟩
    have hold : ∀ y c, Edge f.areas y c → (if D y then rank y + rank i + 1 else rank y) < (if D c then rank c + rank i + 1 else rank c) := by
      intro y c he
      have hlt : rank y < rank c := by
        obtain ⟨b, hb, hc⟩ := he
        exact hr y b hb c hc
      by_cases hy : D y
      · rw [if_pos hy, if_pos (hD y c hy he)]; omega
      · rw [if_neg hy]
        split <;> omega
    intro j b hj c hc
    simp only [List.getElem?_set] at hj
    split at hj
    · rename_i hij
      subst hij
      split at hj
      · cases hj
        rw [directSubs_eq] at hc
        have := (hp.flatMap_right _).mem_iff.1 hc
        rw [List.flatMap_append] at this
        rcases List.mem_append.1 this with h3 | h3
        · have hDc : D c := ⟨c, h3, .refl⟩
          show (if D i then _ else _) < (if D c then _ else _)
          rw [if_neg hiD, if_pos hDc]; omega
        · exact hold i c ⟨a, ha, by rw [directSubs_eq]; exact h3⟩
      · cases hj
    · exact hold j c ⟨b, hj, hc⟩

theorem flatMap_replicate_nil {α β : Type} (g : α → List β) (x : α) (hx : g x = []) (k : Nat) : (List.replicate k x).flatMap g = [] := by
  induction k with
  | zero => rfl
  | succ n ih => rw [List.replicate_succ, List.flatMap_cons, hx, ih]; rfl

/-- Empty areas are appended and the id counter grows. -/
theorem FunOk.extend {f : BlockFun} (h : FunOk f) (k cur : Nat) (hcur : f.curId ≤ cur) {g : Nat} :
    Next f { areas := f.areas ++ List.replicate k BlockFun.subArea, curId := cur, generation := g } := by
  have hall : ({ areas := f.areas ++ List.replicate k BlockFun.subArea, curId := cur, generation := g } : BlockFun).allBlocks = f.allBlocks := by
    show (f.areas ++ List.replicate k BlockFun.subArea).flatMap Area.bs = f.areas.flatMap Area.bs
    rw [List.flatMap_append, flatMap_replicate_nil Area.bs _ rfl, List.append_nil]
  refine ⟨⟨?_, by rw [hall]; exact h.ids, ?_, by rw [hall]; exact h.subs, ?_, ?_, ?_⟩, hcur, fun b hb => .inr ⟨b, by rw [hall] at hb; exact hb, rfl⟩⟩
  · intro a ha
    rcases List.mem_append.1 ha with h1 | h1
    · exact h.areas a h1
    · have := (List.mem_replicate.1 h1).2
      subst this
      exact ⟨⟨List.Pairwise.nil, by intro e he; cases he⟩, by
        intro q o
        constructor
        · intro h; cases h
        · rintro ⟨b, hb, _⟩; cases hb⟩
  · rw [hall]
    intro b hb
    have := h.idRange b hb
    exact ⟨this.1, Nat.le_trans this.2 hcur⟩
  · rw [hall]
    intro c hc
    have := h.subRange c hc
    simp only [List.length_append]
    omega
  · obtain ⟨rank, hr⟩ := h.rank
    refine ⟨rank, ?_⟩
    intro j b hj c hc
    simp only [List.getElem?_append] at hj
    split at hj
    · exact hr j b hj c hc
    · have := List.mem_of_getElem? hj
      have := (List.mem_replicate.1 this).2
      subst this
      cases hc
  · have := h.root
    simp [this]

theorem createAreas_spec (f : BlockFun) (b : Block) :
    ∃ k, k ≤ 2 ∧ (f.createAreas b).1 = { f with areas := f.areas ++ List.replicate k BlockFun.subArea } ∧
      (f.createAreas b).2.subs = List.range' f.areas.length k ∧ (f.createAreas b).2.id = b.id ∧ (f.createAreas b).2.rows = b.rows ∧
      (f.createAreas b).2 = { b with contains := (f.createAreas b).2.contains } := by
  obtain ⟨id, rows, ⟨c1, c2⟩, ex, ty, lb, inp, out, col⟩ := b
  cases c1 <;> cases c2
  · exact ⟨0, by omega, by simp [BlockFun.createAreas], by simp [BlockFun.createAreas, Block.subs], rfl, rfl, rfl⟩
  · exact ⟨1, by omega, by simp [BlockFun.createAreas, List.replicate], by simp [BlockFun.createAreas, Block.subs], rfl, rfl, rfl⟩
  · exact ⟨1, by omega, by simp [BlockFun.createAreas, List.replicate], by simp [BlockFun.createAreas, Block.subs], rfl, rfl, rfl⟩
  · exact ⟨2, by omega, by simp [BlockFun.createAreas, List.replicate], by simp [BlockFun.createAreas, Block.subs, List.range'], rfl, rfl, rfl⟩

theorem FunOk.area {f : BlockFun} (h : FunOk f) {i : Nat} {a : Area} (ha : f.areas[i]? = some a) : AreaOk a :=
  h.areas a (List.mem_of_getElem? ha)

theorem FunOk.edge_lt {f : BlockFun} (h : FunOk f) {i c : Nat} (he : Edge f.areas i c) : 1 ≤ c ∧ c < f.areas.length := by
  obtain ⟨a, ha, hc⟩ := he
  refine h.subRange c (List.mem_flatMap.2 ?_)
  rw [directSubs_eq] at hc
  obtain ⟨b, hb, hcb⟩ := List.mem_flatMap.1 hc
  exact ⟨b, List.mem_flatMap.2 ⟨a, List.mem_of_getElem? ha, hb⟩, hcb⟩

/-- A new block with new sub areas. -/
theorem FunOk.addNew {f : BlockFun} (h : FunOk f) {i k : Nat} {a a' : Area} {b : Block} {g : Nat} (ha : (f.areas ++ List.replicate k BlockFun.subArea)[i]? = some a)
    (hi : i < f.areas.length) (ha' : AreaOk a')
    (hp : a'.bs.Perm (b :: a.bs)) (hid : b.id = f.curId + 1) (hsub : b.subs = List.range' f.areas.length k) :
    Next f { areas := (f.areas ++ List.replicate k BlockFun.subArea).set i a', curId := f.curId + 1, generation := g } := by
  have h1 := h.extend k f.curId (Nat.le_refl _) (g := g)
  have hall : ({ areas := f.areas ++ List.replicate k BlockFun.subArea, curId := f.curId, generation := g } : BlockFun).allBlocks = f.allBlocks := by
    show (f.areas ++ List.replicate k BlockFun.subArea).flatMap Area.bs = f.areas.flatMap Area.bs
    rw [List.flatMap_append, flatMap_replicate_nil Area.bs _ rfl, List.append_nil]
  have hpos : 0 < f.areas.length := List.length_pos_iff.2 h.root
  have hgrow := h1.ok.grow (X := [b]) (cur := f.curId + 1) (g := g) ha ha' hp (Nat.le_succ _) ?_ ?_ ?_ ?_ ?_
  · refine ⟨hgrow.1, Nat.le_succ _, ?_⟩
    intro b2 hb2
    rcases List.mem_append.1 (hgrow.2.mem_iff.1 hb2) with h2 | h2
    · rw [List.mem_singleton] at h2
      subst h2
      exact .inl (by omega)
    · rw [hall] at h2
      exact .inr ⟨b2, h2, rfl⟩
  · rw [hall]
    simp only [List.map_cons, List.map_nil, List.cons_append, List.nil_append, List.nodup_cons]
    refine ⟨?_, h.ids⟩
    intro hm
    obtain ⟨b2, hb2, he⟩ := List.mem_map.1 hm
    have := (h.idRange b2 hb2).2
    omega
  · intro b2 hb2
    rw [List.mem_singleton] at hb2
    subst hb2
    rw [hid]
    exact ⟨by omega, Nat.le_refl _⟩
  · rw [hall]
    simp only [List.flatMap_cons, List.flatMap_nil, List.append_nil, hsub]
    rw [List.nodup_append]
    refine ⟨List.nodup_range', h.subs, ?_⟩
    intro c hc d hd he
    subst he
    have h2 := (h.subRange c hd).2
    have h3 := List.mem_range'_1.1 hc
    omega
  · intro c hc
    simp only [List.flatMap_cons, List.flatMap_nil, List.append_nil, hsub] at hc
    have h3 := List.mem_range'_1.1 hc
    simp only [List.length_append, List.length_replicate]
    omega
  · intro s hs hreach
    simp only [List.flatMap_cons, List.flatMap_nil, List.append_nil] at hs
    rw [hsub] at hs
    have h3 := List.mem_range'_1.1 hs
    rcases Relation.ReflTransGen.cases_head hreach with he | ⟨c, hc, _⟩
    · omega
    · obtain ⟨a2, ha2, hc2⟩ := hc
      simp only [List.getElem?_append] at ha2
      rw [if_neg (by omega)] at ha2
      have := (List.mem_replicate.1 (List.mem_of_getElem? ha2)).2
      subst this
      cases hc2

/-! ## Each operation -/

theorem instanciate_fields (t : BlockType) (ui : Option String) (id : Nat) : (t.instanciate ui id).id = id ∧ (t.instanciate ui id).rows = t.rows :=
  ⟨rfl, rfl⟩

theorem instanciateAt_ok {L : Lang} (hL : L.Tall) {f : BlockFun} (h : FunOk f) (id : Nat) (p : Pos) (typ : String) (ui : Option String) :
    Next f (f.instanciateAt L id p typ ui).1 := by
  unfold BlockFun.instanciateAt
  cases ha : f.areas[id]? with
  | none => exact .refl h
  | some a =>
    cases ht : L typ with
    | none => exact .refl h
    | some t =>
      simp only
      split
      · rename_i hs
        obtain ⟨k, hk, h1, h2, h3, h4, _⟩ := createAreas_spec ({ f with curId := f.curId + 1 } : BlockFun) (t.instanciate ui (f.curId + 1))
        have hlt : id < f.areas.length := (List.getElem?_eq_some_iff.1 ha).1
        have ha2 : (f.areas ++ List.replicate k BlockFun.subArea)[id]? = some a := by
          rw [List.getElem?_append_left hlt]; exact ha
        have hset := setBlockAt_ok (h.area ha) (p := p)
          (b := (({ f with curId := f.curId + 1 } : BlockFun).createAreas (t.instanciate ui (f.curId + 1))).2)
          (by rw [h4]; exact hL typ t ht) (by rw [h4]; exact hs)
        rw [h1]
        simp only
        rw [modify_eq_set _ _ _ _ ha2]
        refine h.addNew ha2 hlt hset.1 ?_ h3 h2
        unfold Area.bs
        rw [hset.2]
        exact List.Perm.refl _
      · exact .refl h

theorem perm_bs {a : Area} {X : Load} {a' : Area} (h : (X ++ a'.blocks).Perm a.blocks) : a.bs.Perm (X.map (·.2) ++ a'.bs) := by
  have := h.symm.map (·.2)
  rw [List.map_append] at this
  exact this

theorem removeAt_ok {f : BlockFun} (h : FunOk f) (id : Nat) (p : Pos) : Next f (f.removeAt id p).1 := by
  unfold BlockFun.removeAt
  cases ha : f.areas[id]? with
  | none => exact .refl h
  | some a =>
    simp only
    cases hr : a.removeAt p with
    | none => exact .refl h
    | some r =>
      obtain ⟨b, o, a'⟩ := r
      obtain ⟨_, _, hok, hp, _, _⟩ := removeAt_some (h.area ha) hr
      exact (h.shrink ha hok (perm_bs (X := [(o, b)]) hp)).1

theorem cloneBlock_ok {L : Lang} {f : BlockFun} (h : FunOk f) (id : Nat) (p : Pos) (id2 : Nat) (p2 : Pos)
    (hid2 : ¬ (f.areas.length ≤ id2 ∧ id2 < f.areas.length + 2)) :
    Next f (f.cloneBlock L id p id2 p2).1 := by
  unfold BlockFun.cloneBlock
  cases ha : f.areas[id]? with
  | none => exact .refl h
  | some a =>
    simp only
    cases hr : a.refAtOrigin p with
    | none => exact .refl h
    | some r =>
      obtain ⟨b, o⟩ := r
      simp only
      have hm := ((h.area ha).refAt_some.1 hr).1
      have hrows := (h.area ha).load.rows _ hm
      have key : ∀ b' : Block, b'.id = f.curId + 1 → b'.rows = b.rows →
          Next f (match (({ f with curId := f.curId + 1 } : BlockFun).createAreas b').1.areas[id2]? with
            | none => ((({ f with curId := f.curId + 1 } : BlockFun).createAreas b').1, Except.error (ε := Err) (α := Unit) (Err.unknownArea id2))
            | some area2 =>
              if area2.checkSpace (p2.1, BlockFun.destY p.2 o.2 p2.2) (({ f with curId := f.curId + 1 } : BlockFun).createAreas b').2.rows = true then
                ({ (({ f with curId := f.curId + 1 } : BlockFun).createAreas b').1 with areas := (({ f with curId := f.curId + 1 } : BlockFun).createAreas b').1.areas.modify id2 (fun a => a.setBlockAt (p2.1, BlockFun.destY p.2 o.2 p2.2) (({ f with curId := f.curId + 1 } : BlockFun).createAreas b').2), generation := (({ f with curId := f.curId + 1 } : BlockFun).createAreas b').1.generation + 1 }, .ok ())
              else ((({ f with curId := f.curId + 1 } : BlockFun).createAreas b').1, .error (.noSpaceAvailable id2 p2.1 (BlockFun.destY p.2 o.2 p2.2) (({ f with curId := f.curId + 1 } : BlockFun).createAreas b').2.rows))).1 := by
        intro b' hb1 hb2
        obtain ⟨k, hk, h1, h2, h3, h4, _⟩ := createAreas_spec ({ f with curId := f.curId + 1 } : BlockFun) b'
        rw [h1]
        simp only
        have hext := h.extend k (f.curId + 1) (Nat.le_succ _) (g := f.generation)
        cases ha2 : (f.areas ++ List.replicate k BlockFun.subArea)[id2]? with
        | none => exact hext
        | some area2 =>
          simp only
          split
          · rename_i hs
            rw [modify_eq_set _ _ _ _ ha2]
            have hset := setBlockAt_ok (hext.ok.area ha2) (by rw [h4, hb2]; exact hrows) hs
            have hlt : id2 < f.areas.length := by
              have := (List.getElem?_eq_some_iff.1 ha2).1
              rw [List.length_append, List.length_replicate] at this
              omega
            refine h.addNew ha2 hlt hset.1 ?_ (h3.trans hb1) h2
            unfold Area.bs
            rw [hset.2]
            exact List.Perm.refl _
          · exact hext
      refine key _ ?_ ?_ <;> cases L (b.cloneWithNewId (f.curId + 1)).typ <;> rfl

/-! ## The areas inside a block -/

theorem allSubs_eq (f : BlockFun) : f.allBlocks.flatMap Block.subs = f.areas.flatMap Area.directSubs := by
  rw [allBlocks_eq, List.flatMap_assoc]
  refine congrFun (congrArg _ ?_) _
  funext a
  rw [directSubs_eq]

/-- An area has at most one parent. -/
theorem FunOk.parent {f : BlockFun} (h : FunOk f) {i j c : Nat} (h1 : Edge f.areas i c) (h2 : Edge f.areas j c) : i = j := by
  have hn := h.subs
  rw [allSubs_eq, List.nodup_flatMap] at hn
  have hp := List.pairwise_iff_getElem.1 hn.2
  obtain ⟨a, ha, hc⟩ := h1
  obtain ⟨b, hb, hd⟩ := h2
  obtain ⟨hi, hi'⟩ := List.getElem?_eq_some_iff.1 ha
  obtain ⟨hj, hj'⟩ := List.getElem?_eq_some_iff.1 hb
  rcases Nat.lt_trichotomy i j with hlt | heq | hlt
  · have := hp i j hi hj hlt
    rw [hi', hj'] at this
    exact absurd hd (this hc)
  · exact heq
  · have := hp j i hj hi hlt
    rw [hi', hj'] at this
    exact absurd hc (this hd)

theorem rank_le {areas : List Area} {rank : Nat → Nat} (hr : ∀ i c, Edge areas i c → rank i < rank c) {s y : Nat}
    (h : Relation.ReflTransGen (Edge areas) s y) : rank s ≤ rank y := by
  induction h with
  | refl => exact Nat.le_refl _
  | tail _ he ih => exact Nat.le_of_lt (Nat.lt_of_le_of_lt ih (hr _ _ he))

theorem subAreasLoop_spec {f : BlockFun} (h : FunOk f) (i0 : Nat) (init : List Nat) (hinit : ∀ c ∈ init, Edge f.areas i0 c) :
    ∀ (fuel : Nat) (dq acc : List Nat), (acc ++ dq).Nodup → f.areas.length ≤ fuel + acc.length →
      (∀ y ∈ acc ++ dq, y ∈ init ∨ ∃ j ∈ acc, Edge f.areas j y) → (∀ y ∈ init, y ∈ acc ++ dq) →
      (∀ j ∈ acc, ∀ y, Edge f.areas j y → y ∈ acc ++ dq) →
      (∀ y ∈ acc ++ dq, ∃ s ∈ init, Relation.ReflTransGen (Edge f.areas) s y) →
      ∃ l, BlockFun.subAreasLoop f.areas fuel dq acc = some l ∧ l.Nodup ∧
        ∀ y, y ∈ l ↔ ∃ s ∈ init, Relation.ReflTransGen (Edge f.areas) s y := by
  obtain ⟨rank, hr⟩ := h.rank
  have hr : ∀ i c, Edge f.areas i c → rank i < rank c := fun i c ⟨a, ha, hc⟩ => hr i a ha c hc
  intro fuel
  induction fuel with
  | zero =>
    intro dq acc hn hlen hpar hin hcl hre
    have hlt : ∀ y ∈ acc ++ dq, y < f.areas.length := by
      intro y hy
      rcases hpar y hy with h1 | ⟨j, _, h1⟩
      · exact (h.edge_lt (hinit y h1)).2
      · exact (h.edge_lt h1).2
    have hle : (acc ++ dq).length ≤ f.areas.length := by
      have := (List.subperm_of_subset hn (l₂ := List.range f.areas.length) (fun y hy => List.mem_range.2 (hlt y hy))).length_le
      rwa [List.length_range] at this
    rw [List.length_append] at hle
    have hdq : dq = [] := List.length_eq_zero_iff.1 (by omega)
    subst hdq
    refine ⟨acc, rfl, by rwa [List.append_nil] at hn, ?_⟩
    rw [List.append_nil] at *
    intro y
    refine ⟨hre y, ?_⟩
    rintro ⟨s, hs, hy⟩
    induction hy with
    | refl => exact hin s hs
    | tail _ he ih => exact hcl _ ih _ he
  | succ n ih =>
    intro dq acc hn hlen hpar hin hcl hre
    cases dq with
    | nil =>
      refine ⟨acc, rfl, by rwa [List.append_nil] at hn, ?_⟩
      rw [List.append_nil] at *
      intro y
      refine ⟨hre y, ?_⟩
      rintro ⟨s, hs, hy⟩
      induction hy with
      | refl => exact hin s hs
      | tail _ he ih => exact hcl _ ih _ he
    | cons i dq =>
      have him : i ∈ acc ++ i :: dq := by simp
      have hlt : i < f.areas.length := by
        rcases hpar i him with h1 | ⟨j, _, h1⟩
        · exact (h.edge_lt (hinit i h1)).2
        · exact (h.edge_lt h1).2
      have ha : f.areas[i]? = some f.areas[i] := List.getElem?_eq_getElem hlt
      unfold BlockFun.subAreasLoop
      rw [ha]
      have hrank : rank i0 < rank i := by
        obtain ⟨s, hs, hy⟩ := hre i him
        exact Nat.lt_of_lt_of_le (hr _ _ (hinit s hs)) (rank_le hr hy)
      have hcons : acc ++ i :: dq = (acc ++ [i]) ++ dq := by simp
      rw [hcons] at hn hpar hin hcl hre him
      have hperm : (acc ++ [i] ++ (dq ++ f.areas[i].directSubs)) = (acc ++ [i] ++ dq) ++ f.areas[i].directSubs := by
        simp only [List.append_assoc]
      have hsubn : f.areas[i].directSubs.Nodup := by
        have := h.subs
        rw [allSubs_eq, List.nodup_flatMap] at this
        exact this.1 _ (List.getElem_mem hlt)
      refine ih (dq ++ f.areas[i].directSubs) (acc ++ [i]) ?_ ?_ ?_ ?_ ?_ ?_
      · rw [hperm, List.nodup_append]
        refine ⟨hn, hsubn, ?_⟩
        intro y hy c hc he
        subst he
        have hec : Edge f.areas i y := ⟨_, ha, hc⟩
        rcases hpar y hy with h1 | ⟨j, hj, h1⟩
        · have := h.parent (hinit y h1) hec
          rw [this] at hrank
          omega
        · have hji := h.parent h1 hec
          subst hji
          have hn2 := (List.nodup_append.1 (List.nodup_append.1 hn).1).2.2
          exact hn2 j hj j (List.mem_singleton.2 rfl) rfl
      · rw [List.length_append, List.length_singleton]; omega
      · intro y hy
        rw [hperm] at hy
        rcases List.mem_append.1 hy with h1 | h1
        · rcases hpar y h1 with h2 | ⟨j, hj, h2⟩
          · exact .inl h2
          · exact .inr ⟨j, List.mem_append.2 (.inl hj), h2⟩
        · exact .inr ⟨i, by simp, _, ha, h1⟩
      · intro y hy
        rw [hperm]
        exact List.mem_append.2 (.inl (hin y hy))
      · intro j hj y he
        rw [hperm]
        rcases List.mem_append.1 hj with h1 | h1
        · exact List.mem_append.2 (.inl (hcl j h1 y he))
        · rw [List.mem_singleton] at h1
          subst h1
          obtain ⟨a2, ha2, hc⟩ := he
          rw [ha] at ha2
          cases ha2
          exact List.mem_append.2 (.inr hc)
      · intro y hy
        rw [hperm] at hy
        rcases List.mem_append.1 hy with h1 | h1
        · exact hre y h1
        · obtain ⟨s, hs, hi⟩ := hre i him
          exact ⟨s, hs, hi.tail ⟨_, ha, h1⟩⟩

theorem mem_bs {a : Area} {o : Pos} {b : Block} (h : (o, b) ∈ a.blocks) : b ∈ a.bs := List.mem_map.2 ⟨_, h, rfl⟩

theorem edge_of_block {f : BlockFun} {i : Nat} {a : Area} (ha : f.areas[i]? = some a) {b : Block} (hb : b ∈ a.bs) {c : Nat} (hc : c ∈ b.subs) :
    Edge f.areas i c := ⟨a, ha, by rw [directSubs_eq]; exact List.mem_flatMap.2 ⟨b, hb, hc⟩⟩

/-- `all_sub_areas_of` finds the areas inside a block. -/
theorem sub_areas_found {f : BlockFun} (h : FunOk f) {i : Nat} {a : Area} (ha : f.areas[i]? = some a) {b : Block} (hb : b ∈ a.bs) :
    ∃ l, f.allSubAreasOf b = some l ∧ l.Nodup ∧ ∀ y, y ∈ l ↔ ∃ s ∈ b.subs, Relation.ReflTransGen (Edge f.areas) s y := by
  have hbm : b ∈ f.allBlocks := List.mem_flatMap.2 ⟨a, List.mem_of_getElem? ha, hb⟩
  have hn : b.subs.Nodup := (List.nodup_flatMap.1 h.subs).1 b hbm
  refine subAreasLoop_spec h i b.subs (fun c hc => edge_of_block ha hb hc) f.areas.length b.subs [] hn (by simp) ?_ ?_ ?_ ?_
  · intro y hy; exact .inl hy
  · intro y hy; exact hy
  · intro j hj; cases hj
  · intro y hy; exact ⟨y, hy, .refl⟩

theorem not_inside_own {f : BlockFun} (h : FunOk f) {i : Nat} {a : Area} (ha : f.areas[i]? = some a) {b : Block} (hb : b ∈ a.bs) :
    ∀ s ∈ b.subs, ¬ Relation.ReflTransGen (Edge f.areas) s i := by
  intro s hs hre
  obtain ⟨rank, hr⟩ := h.rank
  have hr : ∀ i c, Edge f.areas i c → rank i < rank c := fun i c ⟨a, ha, hc⟩ => hr i a ha c hc
  have h1 := hr _ _ (edge_of_block ha hb hs)
  have h2 := rank_le hr hre
  omega

/-! ## Moves -/

theorem edge_mono {areas : List Area} {i : Nat} {a a' : Area} (ha : areas[i]? = some a) {X : List Block} (hp : a.bs.Perm (X ++ a'.bs))
    {j c : Nat} (h : Edge (areas.set i a') j c) : Edge areas j c := by
  obtain ⟨b, hb, hc⟩ := h
  simp only [List.getElem?_set] at hb
  split at hb
  · rename_i hij
    subst hij
    split at hb
    · cases hb
      refine ⟨a, ha, ?_⟩
      rw [directSubs_eq] at hc ⊢
      refine (hp.flatMap_right _).mem_iff.2 ?_
      rw [List.flatMap_append]
      exact List.mem_append.2 (.inr hc)
    · cases hb
  · exact ⟨b, hb, hc⟩

theorem reach_mono {R S : Nat → Nat → Prop} (h : ∀ a b, R a b → S a b) {x y : Nat} (hr : Relation.ReflTransGen R x y) :
    Relation.ReflTransGen S x y := by
  induction hr with
  | refl => exact .refl
  | tail _ he ih => exact ih.tail (h _ _ he)

/-- Blocks move from one area into another one. -/
theorem FunOk.transfer {f : BlockFun} (h : FunOk f) {i i2 : Nat} {a a' a2 a2' : Area} {X : List Block} (ha : f.areas[i]? = some a)
    (ha' : AreaOk a') (hp : a.bs.Perm (X ++ a'.bs)) (ha2 : (f.areas.set i a')[i2]? = some a2) (ha2' : AreaOk a2')
    (hp2 : a2'.bs.Perm (X ++ a2.bs)) (hin : ∀ b ∈ X, ∀ s ∈ b.subs, ¬ Relation.ReflTransGen (Edge f.areas) s i2) {g : Nat} :
    Next f { areas := (f.areas.set i a').set i2 a2', curId := f.curId, generation := g } := by
  obtain ⟨h1, hall⟩ := h.shrink ha ha' hp (g := f.generation)
  have hgrow := h1.ok.grow (cur := f.curId) (g := g) ha2 ha2' hp2 (Nat.le_refl _) ?_ ?_ ?_ ?_ ?_
  · refine ⟨hgrow.1, Nat.le_refl _, ?_⟩
    intro b2 hb2
    exact .inr ⟨b2, hall.mem_iff.2 (hgrow.2.mem_iff.1 hb2), rfl⟩
  · rw [← List.map_append]
    exact (hall.map _).nodup_iff.1 h.ids
  · intro b hb
    exact h.idRange b (hall.mem_iff.2 (List.mem_append.2 (.inl hb)))
  · rw [← List.flatMap_append]
    exact (hall.flatMap_right _).nodup_iff.1 h.subs
  · intro c hc
    have := h.subRange c ((hall.flatMap_right _).mem_iff.2 (by rw [List.flatMap_append]; exact List.mem_append.2 (.inl hc)))
    simpa using this
  · intro s hs hre
    obtain ⟨b, hb, hsb⟩ := List.mem_flatMap.1 hs
    exact hin b hb s hsb (reach_mono (fun _ _ he => edge_mono ha hp he) hre)

theorem set_self {α : Type} {l : List α} {i : Nat} {a b : α} (h : l[i]? = some a) : (l.set i b)[i]? = some b := by
  have := (List.getElem?_eq_some_iff.1 h).1
  rw [List.getElem?_set_self this]

theorem moveBlock_ok {f : BlockFun} (h : FunOk f) (id : Nat) (p : Pos) (id2 : Nat) (p2 : Pos) :
    ∃ r, f.moveBlock id p id2 p2 = some r ∧ Next f r.1 := by
  unfold BlockFun.moveBlock BlockFun.areaIsSubareaOf BlockFun.blockRef
  cases ha : f.areas[id]? with
  | none => exact ⟨_, rfl, .refl h⟩
  | some a =>
    simp only [Option.bind_some]
    unfold Area.refAt
    cases hr : a.refAtOrigin p with
    | none =>
      rw [removeAt_none.2 hr]
      exact ⟨_, rfl, .refl h⟩
    | some r =>
      obtain ⟨b, o⟩ := r
      have hm := (h.area ha).refAt_some.1 hr
      obtain ⟨l, hl, _, hmem⟩ := sub_areas_found h ha (mem_bs hm.1)
      simp only [Option.map_some, hl]
      by_cases hc : id2 ∈ l
      · simp only [hc, decide_true]
        exact ⟨_, rfl, .refl h⟩
      · simp only [hc, decide_false]
        have hrem : a.removeAt p = some (b, o, ({ a with blocks := a.blocks.filter (fun e => !(e.1 == o)) } : Area).updateOrigin) := by
          unfold Area.removeAt; rw [hr]
        rw [hrem]
        simp only
        generalize ha'e : ({ a with blocks := a.blocks.filter (fun e => !(e.1 == o)) } : Area).updateOrigin = a' at hrem
        obtain ⟨_, _, hok, hp, _, _⟩ := removeAt_some (h.area ha) hrem
        simp only at hok hp
        have hps : a.bs.Perm ([b] ++ a'.bs) := perm_bs (X := [(o, b)]) hp
        have hrows : 1 ≤ b.rows := (h.area ha).load.rows _ hm.1
        cases ha2 : (f.areas.set id a')[id2]? with
        | none => exact ⟨_, rfl, (h.shrink ha hok hps (g := f.generation)).1⟩
        | some area2 =>
          simp only
          split
          · rename_i hs
            refine ⟨_, rfl, ?_⟩
            rw [modify_eq_set _ _ _ _ ha2]
            have hset := setBlockAt_ok ((h.shrink ha hok hps (g := f.generation)).1.ok.area ha2) hrows hs
            refine h.transfer (X := [b]) ha hok hps ha2 hset.1 ?_ ?_
            · unfold Area.bs
              rw [hset.2]
              exact List.Perm.refl _
            · intro b2 hb2 s hsb hre
              rw [List.mem_singleton] at hb2
              subst hb2
              exact hc ((hmem id2).2 ⟨s, hsb, hre⟩)
          · refine ⟨_, rfl, ?_⟩
            have hself : (f.areas.set id a')[id]? = some a' := set_self ha
            rw [modify_eq_set _ _ _ _ hself]
            have hspace : a'.checkSpace o b.rows = true := by
              rw [hok.checkSpace_iff]
              intro b2 hb2 e he
              have hpw := ((h.area ha).load.perm hp.symm).apart
              have := (List.pairwise_cons.1 hpw).1 e he
              intro q hq
              refine this q ?_
              unfold Covers at hq ⊢
              rw [hb2] at hq
              exact hq
            have hset := setBlockAt_ok hok hrows hspace
            refine h.transfer (X := [b]) ha hok hps hself hset.1 ?_ ?_
            · unfold Area.bs
              rw [hset.2]
              exact List.Perm.refl _
            · intro b2 hb2
              rw [List.mem_singleton] at hb2
              subst hb2
              exact not_inside_own h ha (mem_bs hm.1)

theorem mapM_some {α β : Type} {g : α → Option β} : ∀ {l : List α}, (∀ x ∈ l, ∃ y, g x = some y) → ∃ ys, l.mapM g = some ys ∧ ∀ z, z ∈ ys ↔ ∃ x ∈ l, g x = some z := by
  intro l
  induction l with
  | nil => exact fun _ => ⟨[], rfl, by simp⟩
  | cons x l ih =>
    intro h
    obtain ⟨y, hy⟩ := h x (by simp)
    obtain ⟨ys, hys, hm⟩ := ih (fun x hx => h x (by simp [hx]))
    refine ⟨y :: ys, by rw [List.mapM_cons, hy, hys]; rfl, ?_⟩
    intro z
    simp only [List.mem_cons, hm]
    constructor
    · rintro (h1 | ⟨x', hx', h1⟩)
      · exact ⟨x, .inl rfl, by rw [hy, h1]⟩
      · exact ⟨x', .inr hx', h1⟩
    · rintro ⟨x', h1 | h1, h2⟩
      · subst h1
        rw [hy] at h2
        cases h2
        exact .inl rfl
      · exact .inr ⟨x', h1, h2⟩

theorem loaded_spec {f : BlockFun} (h : FunOk f) {i : Nat} {a : Area} (ha : f.areas[i]? = some a) {l : Load} (hl : ∀ e ∈ l, e.2 ∈ a.bs) (area : Nat) :
    ∃ r, f.areaIsSubareaOfLoaded area l = some r ∧ (r = true ↔ ∃ e ∈ l, ∃ s ∈ e.2.subs, Relation.ReflTransGen (Edge f.areas) s area) := by
  obtain ⟨ys, hys, hm⟩ := mapM_some (g := fun e : Pos × Block => f.allSubAreasOf e.2) (l := l)
    (fun e he => (sub_areas_found h ha (hl e he)).imp fun _ h => h.1)
  unfold BlockFun.areaIsSubareaOfLoaded
  rw [hys]
  refine ⟨_, rfl, ?_⟩
  rw [decide_eq_true_iff, List.mem_flatten]
  constructor
  · rintro ⟨z, hz, hzm⟩
    obtain ⟨e, he, hez⟩ := (hm z).1 hz
    obtain ⟨z', hz', _, hmem⟩ := sub_areas_found h ha (hl e he)
    rw [hz'] at hez
    cases hez
    exact ⟨e, he, (hmem area).1 hzm⟩
  · rintro ⟨e, he, hs⟩
    obtain ⟨z', hz', _, hmem⟩ := sub_areas_found h ha (hl e he)
    exact ⟨z', (hm z').2 ⟨e, he, hz'⟩, (hmem area).2 hs⟩

theorem moveChain_ok {f : BlockFun} (h : FunOk f) (id : Nat) (p : Pos) (id2 : Nat) (p2 : Pos) :
    ∃ r, f.moveChain id p id2 p2 = some r ∧ Next f r.1 := by
  have hgen : Next f { f with generation := f.generation + 1 } := ⟨⟨h.areas, h.ids, h.idRange, h.subs, h.subRange, h.rank, h.root⟩, Nat.le_refl _, fun b hb => .inr ⟨b, hb, rfl⟩⟩
  unfold BlockFun.moveChain
  cases ha : f.areas[id]? with
  | none => exact ⟨_, rfl, .refl h⟩
  | some a =>
    simp only
    cases hch : a.chainAt p with
    | none => exact ⟨_, rfl, .refl h⟩
    | some chain =>
      simp only
      obtain ⟨hok, hp⟩ := removeLoad_ok (h.area ha) chain
      generalize removeLoad a chain = rl at hok hp
      obtain ⟨load, a'⟩ := rl
      simp only at hok hp ⊢
      have hload : LoadOk load := ((h.area ha).load.perm hp.symm).left
      have hps : a.bs.Perm (load.map (·.2) ++ a'.bs) := perm_bs hp
      split
      · rename_i hid
        subst hid
        cases ht : tryFit a' (moveByOffs load (p2.1 - p.1) (p2.2 - p.2)) with
        | none => exact ⟨_, rfl, hgen⟩
        | some load2 =>
          refine ⟨_, rfl, ?_⟩
          obtain ⟨hl2, hs2, hb2⟩ := tryFit_ok (moveByOffs_ok hload _ _) ht
          obtain ⟨hok2, hp2⟩ := setBlocksFrom_ok hok hl2 hs2
          rw [moveByOffs_blocks] at hb2
          have hbs : (a'.setBlocksFrom load2).bs.Perm a.bs := by
            refine (hp2.map (·.2)).trans (List.Perm.trans ?_ hps.symm)
            rw [List.map_append, hb2]
            exact List.Perm.refl _
          refine h.swap ha hok2 (hbs.map _) ?_
          rw [directSubs_eq, directSubs_eq]
          exact hbs.flatMap_right _
      · rename_i hid
        obtain ⟨r, hr, hrs⟩ := loaded_spec hgen.ok ha (l := load) (by
          intro e he
          exact hps.mem_iff.2 (List.mem_append.2 (.inl (List.mem_map.2 ⟨e, he, rfl⟩)))) id2
        rw [hr]
        cases r with
        | true => exact ⟨_, rfl, hgen⟩
        | false =>
          simp only
          cases ha2 : f.areas[id2]? with
          | none => exact ⟨_, rfl, hgen⟩
          | some area2 =>
            simp only
            cases ht : tryFit area2 (moveByOffs (normalizeLoad load).1 (max ((normalizeLoad load).2.1 - p.1 + p2.1) 0) (max ((normalizeLoad load).2.2 - p.2 + p2.2) 0)) with
            | none => exact ⟨_, rfl, hgen⟩
            | some load2 =>
              refine ⟨_, rfl, ?_⟩
              obtain ⟨hl2, hs2, hb2⟩ := tryFit_ok (moveByOffs_ok (normalizeLoad_ok hload) _ _) ht
              obtain ⟨hok2, hp2⟩ := setBlocksFrom_ok (h.area ha2) hl2 hs2
              rw [moveByOffs_blocks] at hb2
              have ha2' : (f.areas.set id a')[id2]? = some area2 := by
                rw [List.getElem?_set_ne (fun he => hid he.symm)]; exact ha2
              refine h.transfer (X := load.map (·.2)) ha hok hps ha2' hok2 ?_ ?_
              · refine (hp2.map (·.2)).trans ?_
                rw [List.map_append, hb2]
                exact (normalizeLoad_blocks load).append_right _
              · intro b hb s hs hre
                obtain ⟨e, he, rfl⟩ := List.mem_map.1 hb
                have := hrs.2 ⟨e, he, s, hs, hre⟩
                cases this

theorem instanciate_slim {t : BlockType} (h : t.Slim) (ui : Option String) (n : Nat) : (t.instanciate ui n).subs = [] := by
  unfold BlockType.instanciate BlockType.touchContains Block.subs
  obtain ⟨_, h1, h2⟩ := h
  split <;> first | rfl | (exfalso; omega)

theorem splitChain_ok {L : Lang} {f : BlockFun} (h : FunOk f) (id : Nat) (p : Pos) (filler : Option String)
    (hf : ∀ s, filler = some s → ∀ t, L s = some t → t.Slim) : Next f (f.splitChain L id p filler).1 := by
  unfold BlockFun.splitChain
  cases ha : f.areas[id]? with
  | none => exact .refl h
  | some a =>
    simp only
    cases hch : a.chainAt p with
    | none => exact .refl h
    | some chain =>
      simp only
      obtain ⟨hok, hp⟩ := removeLoad_ok (h.area ha) chain
      generalize removeLoad a chain = rl at hok hp
      obtain ⟨load, a'⟩ := rl
      simp only at hok hp ⊢
      have hload : LoadOk load := ((h.area ha).load.perm hp.symm).left
      have hps : a.bs.Perm (load.map (·.2) ++ a'.bs) := perm_bs hp
      have key : ∀ typ : Option BlockType, (∀ t, typ = some t → t.Slim) →
          Next f (if hasSpaceFor a' (BlockFun.splitLoad load p.1 p.2 typ f.curId).1 0 0 = true then
            ({ f with areas := f.areas.set id (a'.setBlocksFrom (BlockFun.splitLoad load p.1 p.2 typ f.curId).1), curId := (BlockFun.splitLoad load p.1 p.2 typ f.curId).2, generation := f.generation + 1 }, Except.ok (ε := Err) ())
            else ({ f with curId := (BlockFun.splitLoad load p.1 p.2 typ f.curId).2 }, Except.error (ε := Err) (α := Unit) (.noSpaceAvailable id p.1 p.2 0))).1 := by
        intro typ htyp
        have hlo := splitLoad_ok hload p.1 p.2 typ f.curId (fun t ht => (htyp t ht).1)
        obtain ⟨hlb, hlc⟩ := splitLoad_blocks load p.1 p.2 typ f.curId
        have hcur : f.curId ≤ (BlockFun.splitLoad load p.1 p.2 typ f.curId).2 := by rw [hlc]; exact Nat.le_add_right _ _
        generalize hX : (match typ with
          | none => []
          | some t => (List.range (fillerPos load p.1 p.2).length).map (fun i => t.instanciate none (f.curId + 1 + i))) = X
        have hlb2 : ((BlockFun.splitLoad load p.1 p.2 typ f.curId).1.map (·.2)).Perm (load.map (·.2) ++ X) := by
          subst hX
          cases typ <;> exact hlb
        have hXs : X.flatMap Block.subs = [] := by
          subst hX
          cases typ with
          | none => rfl
          | some t =>
            rw [List.flatMap_eq_nil_iff]
            intro b hb
            obtain ⟨i, _, rfl⟩ := List.mem_map.1 hb
            exact instanciate_slim (htyp t rfl) _ _
        have hXi : X.map (·.id) = List.range' (f.curId + 1) ((BlockFun.splitLoad load p.1 p.2 typ f.curId).2 - f.curId) := by
          rw [hlc]
          subst hX
          cases typ with
          | none => simp
          | some t =>
            simp only [List.map_map]
            rw [Nat.add_sub_cancel_left, List.range'_eq_map_range]
            rfl
        split
        · rename_i hs
          obtain ⟨hok2, hp2⟩ := setBlocksFrom_ok hok hlo hs
          have hbs : (a'.setBlocksFrom (BlockFun.splitLoad load p.1 p.2 typ f.curId).1).bs.Perm (X ++ a.bs) := by
            refine (hp2.map (·.2)).trans ?_
            rw [List.map_append]
            refine (hlb2.append_right _).trans ?_
            refine List.Perm.trans ?_ (hps.append_left X).symm
            rw [← List.append_assoc]
            exact List.perm_append_comm.append_right _
          have hgrow := h.grow (X := X) (g := f.generation + 1) ha hok2 hbs hcur ?_ ?_ ?_ ?_ ?_
          · refine ⟨hgrow.1, hcur, ?_⟩
            intro b2 hb2
            rcases List.mem_append.1 (hgrow.2.mem_iff.1 hb2) with h2 | h2
            · have : b2.id ∈ X.map (·.id) := List.mem_map.2 ⟨b2, h2, rfl⟩
              rw [hXi] at this
              have := List.mem_range'_1.1 this
              exact .inl (by omega)
            · exact .inr ⟨b2, h2, rfl⟩
          · rw [hXi, List.nodup_append]
            refine ⟨List.nodup_range', h.ids, ?_⟩
            intro x hx y hy he
            subst he
            obtain ⟨b, hb, rfl⟩ := List.mem_map.1 hy
            have h1 := (h.idRange b hb).2
            have h2 := List.mem_range'_1.1 hx
            omega
          · intro b hb
            have : b.id ∈ X.map (·.id) := List.mem_map.2 ⟨b, hb, rfl⟩
            rw [hXi] at this
            have := List.mem_range'_1.1 this
            omega
          · rw [hXs]; exact h.subs
          · rw [hXs]; intro c hc; cases hc
          · rw [hXs]; intro c hc; cases hc
        · refine ⟨⟨h.areas, h.ids, ?_, h.subs, h.subRange, h.rank, h.root⟩, hcur, fun b hb => .inr ⟨b, hb, rfl⟩⟩
          intro b hb
          have := h.idRange b hb
          exact ⟨this.1, Nat.le_trans this.2 hcur⟩
      cases filler with
      | none => exact key none (by intro t ht; cases ht)
      | some s =>
        simp only
        cases hL : L s with
        | none => exact .refl h
        | some t => exact key (some t) (by intro t' ht; cases ht; exact hf s rfl t hL)

theorem retrieveChain_ok {f : BlockFun} (h : FunOk f) (id : Nat) (p : Pos) (remove : Bool) : Next f (f.retrieveChain id p remove) := by
  unfold BlockFun.retrieveChain
  cases ha : f.areas[id]? with
  | none => exact .refl h
  | some a =>
    simp only
    cases hch : a.chainAt p with
    | none => exact .refl h
    | some chain =>
      simp only
      obtain ⟨hok, hp⟩ := removeLoad_ok (h.area ha) chain
      split
      · exact (h.shrink ha hok (perm_bs hp) (g := f.generation)).1
      · refine ⟨⟨h.areas, h.ids, ?_, h.subs, h.subRange, h.rank, h.root⟩, Nat.le_add_right _ _, fun b hb => .inr ⟨b, hb, rfl⟩⟩
        intro b hb
        have := h.idRange b hb
        exact ⟨this.1, Nat.le_trans this.2 (Nat.le_add_right _ _)⟩

theorem shiftPort_same {b b' : Block} {idx : Nat} {out : Bool} (h : b.shiftPort idx out = some b') :
    b'.id = b.id ∧ b'.rows = b.rows ∧ b'.contains = b.contains := by
  unfold Block.shiftPort at h
  split at h
  · cases h; exact ⟨rfl, rfl, rfl⟩
  · split at h <;> (rw [Option.map_eq_some_iff] at h; obtain ⟨v, _, rfl⟩ := h; exact ⟨rfl, rfl, rfl⟩)

theorem shiftPort_ok {f f' : BlockFun} (h : FunOk f) {id : Nat} {p : Pos} {row : Nat} {out : Bool} (hs : f.shiftPort id p row out = some f') : Next f f' := by
  unfold BlockFun.shiftPort at hs
  cases ha : f.areas[id]? with
  | none => rw [ha] at hs; cases hs; exact .refl h
  | some a =>
    rw [ha] at hs
    simp only at hs
    cases hr : a.refAtOrigin p with
    | none => rw [hr] at hs; cases hs; exact .refl h
    | some r =>
      obtain ⟨b, o⟩ := r
      rw [hr] at hs
      simp only at hs
      rw [Option.map_eq_some_iff] at hs
      obtain ⟨b', hb', rfl⟩ := hs
      have hm := ((h.area ha).refAt_some.1 hr).1
      obtain ⟨e1, e2, e3⟩ := shiftPort_same hb'
      have hperm := filter_perm (h.area ha).load.keys hm
      have hap : ∀ e, Apart (o, b) e ↔ Apart (o, b') e := by
        intro e
        unfold Apart Covers
        simp only [e2]
      have hpw := List.pairwise_cons.1 ((h.area ha).load.perm hperm.symm).apart
      have hok : AreaOk { a with blocks := Map.insert a.blocks o b' } := by
        refine ⟨⟨List.pairwise_cons.2 ⟨fun e he => (hap e).1 (hpw.1 e he), hpw.2⟩, ?_⟩, ?_⟩
        · intro e he
          rcases List.mem_cons.1 he with h1 | h1
          · subst h1
            show 1 ≤ b'.rows
            rw [e2]
            exact (h.area ha).load.rows _ hm
          · exact (h.area ha).load.rows e (List.mem_of_mem_filter h1)
        · intro q o2
          rw [show ({ a with blocks := Map.insert a.blocks o b' } : Area).origin = a.origin from rfl, (h.area ha).orig q o2]
          show _ ↔ ∃ b, (o2, b) ∈ (o, b') :: a.blocks.filter (fun e => !(e.1 == o)) ∧ Covers o2 b q
          constructor
          · rintro ⟨b2, hb2, hc⟩
            rcases List.mem_cons.1 (hperm.mem_iff.2 hb2) with h1 | h1
            · cases h1
              refine ⟨b', List.mem_cons.2 (.inl rfl), ?_⟩
              unfold Covers at hc ⊢
              rw [e2]
              exact hc
            · exact ⟨b2, List.mem_cons.2 (.inr h1), hc⟩
          · rintro ⟨b2, hb2, hc⟩
            rcases List.mem_cons.1 hb2 with h1 | h1
            · cases h1
              refine ⟨b, hm, ?_⟩
              unfold Covers at hc ⊢
              rw [e2] at hc
              exact hc
            · exact ⟨b2, hperm.mem_iff.1 (List.mem_cons.2 (.inr h1)), hc⟩
      refine h.swap ha hok ?_ ?_
      · have := (hperm.map (·.2)).map (·.id)
        refine List.Perm.trans ?_ this
        simp only [Area.bs, Map.insert, List.map_cons, e1]
        exact List.Perm.refl _
      · have := (hperm.map (·.2)).flatMap_right Block.subs
        rw [directSubs_eq, directSubs_eq]
        refine List.Perm.trans ?_ this
        have hse : b'.subs = b.subs := by unfold Block.subs; rw [e3]
        simp only [Area.bs, Map.insert, List.map_cons, List.flatMap_cons, hse]
        exact List.Perm.refl _

end HexoDSP.Block
