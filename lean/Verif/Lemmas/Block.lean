import Verif.Spec.Block
import Verif.Lemmas.Map
import Mathlib.Data.List.Perm.Basic
import Mathlib.Data.List.Nodup
import Mathlib.Order.Basic
/-! Areas of blocks: no overlap, and the effect of the operations on the set of blocks. -/

set_option linter.unusedSectionVars false
set_option linter.dupNamespace false

namespace HexoDSP.Block

/-- Two placed blocks take no common slot. -/
def Apart (e f : Pos × Block) : Prop := ∀ q, Covers e.1 e.2 q → ¬ Covers f.1 f.2 q

theorem Apart.symm {e f : Pos × Block} (h : Apart e f) : Apart f e := fun q h1 h2 => h q h2 h1

/-- Placed blocks that take at least a slot each and no common one. -/
structure LoadOk (l : Load) : Prop where
  apart : l.Pairwise Apart
  rows : ∀ e ∈ l, 1 ≤ e.2.rows

theorem LoadOk.perm {l l' : Load} (h : LoadOk l) (p : l.Perm l') : LoadOk l' :=
  ⟨(p.pairwise_iff (fun h => Apart.symm h)).1 h.apart, fun e he => h.rows e (p.mem_iff.2 he)⟩

theorem covers_self {o : Pos} {b : Block} (h : 1 ≤ b.rows) : Covers o b o := ⟨rfl, Int.le_refl _, by omega⟩

theorem LoadOk.keys {l : Load} (h : LoadOk l) : KeysNodup l := by
  unfold KeysNodup List.Nodup
  rw [List.pairwise_map]
  refine List.Pairwise.imp_of_mem ?_ h.apart
  intro e f he hf hap heq
  refine hap e.1 (covers_self (h.rows e he)) ?_
  rw [heq]
  exact covers_self (h.rows f hf)

theorem LoadOk.sub {l l' : Load} (h : LoadOk l) (s : l'.Sublist l) : LoadOk l' :=
  ⟨h.apart.sublist s, fun e he => h.rows e (s.subset he)⟩

theorem LoadOk.apart_of {l : Load} (h : LoadOk l) {e f : Pos × Block} (he : e ∈ l) (hf : f ∈ l) (hne : e ≠ f) : Apart e f := by
  have hl := h.apart
  clear h
  induction l with
  | nil => cases he
  | cons g l ih =>
    have h1 := List.pairwise_cons.1 hl
    rcases List.mem_cons.1 he with h2 | h2 <;> rcases List.mem_cons.1 hf with h3 | h3
    · exact absurd (h2.trans h3.symm) hne
    · rw [h2]; exact h1.1 f h3
    · rw [h3]; exact (h1.1 e h2).symm
    · exact ih h2 h3 h1.2

/-- An area without overlap whose map of slots is up to date. -/
structure AreaOk (a : Area) : Prop where
  load : LoadOk a.blocks
  orig : ∀ q o, a.origin.lookup q = some o ↔ ∃ b, (o, b) ∈ a.blocks ∧ Covers o b q

theorem mem_iff_lookup {l : Load} (h : KeysNodup l) (p : Pos) (b : Block) : (p, b) ∈ l ↔ l.lookup p = some b := by
  constructor
  · intro hm
    induction l with
    | nil => cases hm
    | cons e l ih =>
      obtain ⟨p', b'⟩ := e
      unfold KeysNodup at h
      rw [List.map_cons, List.nodup_cons] at h
      rw [List.lookup_cons]
      rcases List.mem_cons.1 hm with h1 | h1
      · cases h1; simp
      · have : p ≠ p' := by
          intro hp; subst hp
          exact h.1 (List.mem_map.2 ⟨_, h1, rfl⟩)
        have hb : (p == p') = false := by simpa using this
        rw [hb]
        exact ih h.2 h1
  · exact mem_of_lookup

/-! ## `update_origin_map` -/

theorem inner_lookup (o : Pos) (rows : Nat) (m : List (Pos × Pos)) (q : Pos) :
    ((List.range rows).foldl (fun (m : List (Pos × Pos)) (r : Nat) => Map.insert m (o.1, o.2 + (r : Int)) o) m).lookup q =
      if q.1 = o.1 ∧ o.2 ≤ q.2 ∧ q.2 < o.2 + (rows : Int) then some o else m.lookup q := by
  induction rows with
  | zero =>
    rw [if_neg (by omega)]
    rfl
  | succ n ih =>
    rw [List.range_succ, List.foldl_append, List.foldl_cons, List.foldl_nil, lookup_insert, ih]
    by_cases hq : q = (o.1, o.2 + (n : Int))
    · subst hq
      rw [if_pos (by simp), if_pos ⟨rfl, by simp only; omega, by simp only; omega⟩]
    · rw [if_neg (by simpa using hq)]
      have : ¬ (q.1 = o.1 ∧ q.2 = o.2 + (n : Int)) := fun h => hq (Prod.ext h.1 h.2)
      by_cases h : q.1 = o.1 ∧ o.2 ≤ q.2 ∧ q.2 < o.2 + (n : Int)
      · rw [if_pos h, if_pos (by omega)]
      · rw [if_neg h, if_neg (by omega)]

theorem outer_lookup (l : Load) (q : Pos) : ∀ (m : List (Pos × Pos)),
    (∃ o b, (o, b) ∈ l ∧ Covers o b q ∧ (l.foldl (fun m e => (List.range e.2.rows).foldl
      (fun (m : List (Pos × Pos)) (r : Nat) => Map.insert m (e.1.1, e.1.2 + (r : Int)) e.1) m) m).lookup q = some o) ∨
    ((∀ o b, (o, b) ∈ l → ¬ Covers o b q) ∧ (l.foldl (fun m e => (List.range e.2.rows).foldl
      (fun (m : List (Pos × Pos)) (r : Nat) => Map.insert m (e.1.1, e.1.2 + (r : Int)) e.1) m) m).lookup q = m.lookup q) := by
  induction l with
  | nil => exact fun m => .inr ⟨fun o b h => (by cases h), rfl⟩
  | cons e l ih =>
    intro m
    rw [List.foldl_cons]
    rcases ih ((List.range e.2.rows).foldl
      (fun (m : List (Pos × Pos)) (r : Nat) => Map.insert m (e.1.1, e.1.2 + (r : Int)) e.1) m) with ⟨o, b, hm, hc, hl⟩ | ⟨hn, hl⟩
    · exact .inl ⟨o, b, List.mem_cons_of_mem _ hm, hc, hl⟩
    · rw [inner_lookup] at hl
      by_cases hc : Covers e.1 e.2 q
      · unfold Covers at hc
        rw [if_pos hc] at hl
        exact .inl ⟨e.1, e.2, List.mem_cons_self, hc, hl⟩
      · unfold Covers at hc
        rw [if_neg hc] at hl
        refine .inr ⟨?_, hl⟩
        intro o b hm
        rcases List.mem_cons.1 hm with h | h
        · cases h; exact hc
        · exact hn o b h

/-- `update_origin_map` of blocks without overlap. -/
theorem updateOrigin_ok {a : Area} (h : LoadOk a.blocks) : AreaOk a.updateOrigin := by
  refine ⟨h, ?_⟩
  intro q o
  have := outer_lookup a.blocks q []
  constructor
  · intro hl
    rcases this with ⟨o', b, hm, hc, hl'⟩ | ⟨_, hl'⟩
    · have : o' = o := by
        have hl2 : some o' = some o := hl'.symm.trans hl
        exact Option.some.inj hl2
      subst this
      exact ⟨b, hm, hc⟩
    · have hl2 : (none : Option Pos) = some o := hl'.symm.trans hl
      cases hl2
  · rintro ⟨b, hm, hc⟩
    rcases this with ⟨o', b', hm', hc', hl'⟩ | ⟨hn, _⟩
    · have : o' = o := by
        by_contra hne
        have hp : Apart (o', b') (o, b) := h.apart_of hm' hm (fun hx => hne (congrArg Prod.fst hx))
        exact hp q hc' hc
      subst this
      exact hl'
    · exact absurd hc (hn o b hm)

/-! ## Lookups -/

theorem AreaOk.refAt_some {a : Area} (h : AreaOk a) {q o : Pos} {b : Block} :
    a.refAtOrigin q = some (b, o) ↔ (o, b) ∈ a.blocks ∧ Covers o b q := by
  unfold Area.refAtOrigin
  constructor
  · intro hr
    cases ho : a.origin.lookup q with
    | none => rw [ho] at hr; cases hr
    | some o' =>
      rw [ho] at hr
      simp only [Option.map_eq_some_iff, Prod.mk.injEq] at hr
      obtain ⟨b', hb, rfl, rfl⟩ := hr
      obtain ⟨b2, hm, hc⟩ := (h.orig q o').1 ho
      have := (mem_iff_lookup h.load.keys o' b2).1 hm
      rw [hb] at this
      cases this
      exact ⟨hm, hc⟩
  · rintro ⟨hm, hc⟩
    rw [(h.orig q o).2 ⟨b, hm, hc⟩]
    simp only [(mem_iff_lookup h.load.keys o b).1 hm, Option.map_some]

theorem AreaOk.checkSpace_iff {a : Area} (h : AreaOk a) (p : Pos) (rows : Nat) :
    a.checkSpace p rows = true ↔ ∀ b : Block, b.rows = rows → ∀ e ∈ a.blocks, Apart (p, b) e := by
  unfold Area.checkSpace
  rw [List.all_eq_true]
  constructor
  · intro hs b hb e he q hq hc
    obtain ⟨h1, h2, h3⟩ := hq
    simp only at h1 h2 h3
    have hr := hs (q.2 - p.2).toNat (List.mem_range.2 (by rw [← hb]; omega))
    have heq : ((p.1, p.2 + ((q.2 - p.2).toNat : Int)) : Pos) = q := Prod.ext h1.symm (by simp only; omega)
    rw [heq, Option.isNone_iff_eq_none] at hr
    have := (h.orig q e.1).2 ⟨e.2, he, hc⟩
    rw [hr] at this
    cases this
  · intro hs i hi
    rw [Option.isNone_iff_eq_none]
    cases ho : a.origin.lookup (p.1, p.2 + (i : Int)) with
    | none => rfl
    | some o =>
      obtain ⟨b, hm, hc⟩ := (h.orig _ _).1 ho
      have hlt := List.mem_range.1 hi
      refine absurd hc (hs { b with rows := rows } rfl (o, b) hm _ ⟨rfl, ?_, ?_⟩) <;> simp only <;> omega

/-! ## Inserting and removing -/

theorem insert_fresh {l : Load} {p : Pos} {b : Block} (h : ∀ e ∈ l, e.1 ≠ p) : Map.insert l p b = (p, b) :: l := by
  unfold Map.insert
  congr 1
  rw [List.filter_eq_self]
  intro e he
  simpa using h e he

theorem not_mem_of_apart {l : Load} {p : Pos} {b : Block} (hr : 1 ≤ b.rows) (hl : ∀ e ∈ l, 1 ≤ e.2.rows)
    (h : ∀ e ∈ l, Apart (p, b) e) : ∀ e ∈ l, e.1 ≠ p := by
  intro e he hp
  refine h e he p (covers_self hr) ?_
  rw [hp]
  exact covers_self (hl e he)

theorem setBlockAt_ok {a : Area} (h : AreaOk a) {p : Pos} {b : Block} (hr : 1 ≤ b.rows) (hs : a.checkSpace p b.rows = true) :
    AreaOk (a.setBlockAt p b) ∧ (a.setBlockAt p b).blocks = (p, b) :: a.blocks := by
  have hap := (h.checkSpace_iff p b.rows).1 hs b rfl
  have hb : Map.insert a.blocks p b = (p, b) :: a.blocks := insert_fresh (not_mem_of_apart hr h.load.rows hap)
  refine ⟨updateOrigin_ok ?_, hb⟩
  show LoadOk (Map.insert a.blocks p b)
  rw [hb]
  refine ⟨List.pairwise_cons.2 ⟨hap, h.load.apart⟩, ?_⟩
  intro e he
  rcases List.mem_cons.1 he with rfl | he
  · exact hr
  · exact h.load.rows e he

theorem filter_perm {l : Load} (h : KeysNodup l) {o : Pos} {b : Block} (hm : (o, b) ∈ l) :
    ((o, b) :: l.filter (fun e => !(e.1 == o))).Perm l := by
  induction l with
  | nil => cases hm
  | cons e l ih =>
    unfold KeysNodup at h
    rw [List.map_cons, List.nodup_cons] at h
    rcases List.mem_cons.1 hm with h1 | h1
    · subst h1
      rw [List.filter_cons_of_neg (by simp)]
      have : l.filter (fun e => !(e.1 == o)) = l := by
        rw [List.filter_eq_self]
        intro e he
        have : e.1 ≠ o := fun hx => h.1 (List.mem_map.2 ⟨e, he, hx⟩)
        simpa using this
      rw [this]
    · have hne : e.1 ≠ o := fun hx => h.1 (List.mem_map.2 ⟨_, h1, hx.symm⟩)
      rw [List.filter_cons_of_pos (by simpa using hne)]
      exact (List.Perm.swap _ _ _).trans ((ih h.2 h1).cons e)

theorem removeAt_some {a : Area} (h : AreaOk a) {p : Pos} {r : Block × Pos × Area} (hr : a.removeAt p = some r) :
    (r.2.1, r.1) ∈ a.blocks ∧ Covers r.2.1 r.1 p ∧ AreaOk r.2.2 ∧ ((r.2.1, r.1) :: r.2.2.blocks).Perm a.blocks ∧
      r.2.2.blocks = a.blocks.filter (fun e => !(e.1 == r.2.1)) ∧
      r.2.2 = { r.2.2 with size := a.size, autoShrink := a.autoShrink, header := a.header } := by
  unfold Area.removeAt at hr
  cases ho : a.refAtOrigin p with
  | none => rw [ho] at hr; cases hr
  | some s =>
    obtain ⟨b, o⟩ := s
    rw [ho] at hr
    cases hr
    obtain ⟨hm, hc⟩ := h.refAt_some.1 ho
    exact ⟨hm, hc, updateOrigin_ok (h.load.sub List.filter_sublist), filter_perm h.load.keys hm, rfl, rfl⟩

theorem removeAt_none {a : Area} {p : Pos} : a.removeAt p = none ↔ a.refAtOrigin p = none := by
  unfold Area.removeAt
  cases a.refAtOrigin p <;> simp

/-! ## Chains -/

theorem insertPos_perm (e : Pos × Block) (l : Load) : (insertPos e l).Perm (e :: l) := by
  induction l with
  | nil => exact .refl _
  | cons f l ih =>
    unfold insertPos
    split
    · exact .refl _
    · exact (List.Perm.cons f ih).trans (List.Perm.swap e f l)

theorem sortLoad_perm (l : Load) : (sortLoad l).Perm l := by
  induction l with
  | nil => exact .refl _
  | cons e l ih => exact (insertPos_perm e _).trans (List.Perm.cons e ih)

theorem removeFold_ok (chain : List Pos) : ∀ (s : Load × Area), AreaOk s.2 →
    let r := chain.foldl (fun (s : Load × Area) p =>
      match s.2.removeAt p with
      | none => s
      | some (b, o, a) => (s.1 ++ [(o, b)], a)) s
    AreaOk r.2 ∧ (r.1 ++ r.2.blocks).Perm (s.1 ++ s.2.blocks) := by
  induction chain with
  | nil => exact fun s h => ⟨h, List.Perm.refl _⟩
  | cons p chain ih =>
    intro s h
    rw [List.foldl_cons]
    cases hr : s.2.removeAt p with
    | none => exact ih s h
    | some t =>
      obtain ⟨b, o, a⟩ := t
      obtain ⟨_, _, hok, hp, _, _⟩ := removeAt_some h hr
      have := ih (s.1 ++ [(o, b)], a) hok
      refine ⟨this.1, this.2.trans ?_⟩
      simp only [List.append_assoc, List.cons_append, List.nil_append]
      exact hp.append_left _

theorem removeLoad_ok {a : Area} (h : AreaOk a) (chain : List Pos) :
    AreaOk (removeLoad a chain).2 ∧ ((removeLoad a chain).1 ++ (removeLoad a chain).2.blocks).Perm a.blocks := by
  have := removeFold_ok chain ([], a) h
  refine ⟨this.1, List.Perm.trans ?_ this.2⟩
  exact (sortLoad_perm _).append_right _

theorem LoadOk.left {l l' : Load} (h : LoadOk (l ++ l')) : LoadOk l := h.sub (List.sublist_append_left _ _)

theorem moveByOffs_ok {l : Load} (h : LoadOk l) (x y : Int) : LoadOk (moveByOffs l x y) := by
  refine ⟨?_, ?_⟩
  · unfold moveByOffs
    rw [List.pairwise_map]
    refine h.apart.imp ?_
    intro e f hap q he hf
    refine hap (q.1 - x, q.2 - y) ?_ ?_
    · obtain ⟨h1, h2, h3⟩ := he
      simp only at h1 h2 h3
      refine ⟨?_, ?_, ?_⟩ <;> simp only <;> omega
    · obtain ⟨h1, h2, h3⟩ := hf
      simp only at h1 h2 h3
      refine ⟨?_, ?_, ?_⟩ <;> simp only <;> omega
  · intro e he
    obtain ⟨f, hf, rfl⟩ := List.mem_map.1 he
    exact h.rows f hf

theorem moveByOffs_blocks (l : Load) (x y : Int) : (moveByOffs l x y).map (·.2) = l.map (·.2) := by
  unfold moveByOffs
  rw [List.map_map]
  rfl

theorem normalizeLoad_ok {l : Load} (h : LoadOk l) : LoadOk (normalizeLoad l).1 :=
  (moveByOffs_ok h _ _).perm (sortLoad_perm _).symm

theorem normalizeLoad_blocks (l : Load) : ((normalizeLoad l).1.map (·.2)).Perm (l.map (·.2)) := by
  refine ((sortLoad_perm _).map _).trans ?_
  rw [moveByOffs_blocks]

theorem setBlocksFold {l : Load} : ∀ (m : Load), LoadOk (l ++ m) →
    (l.foldl (fun m e => Map.insert m e.1 e.2) m).Perm (l ++ m) := by
  induction l with
  | nil => exact fun m _ => List.Perm.refl _
  | cons e l ih =>
    intro m h
    rw [List.foldl_cons]
    have h1 : (∀ f ∈ l ++ m, Apart e f) ∧ (l ++ m).Pairwise Apart := List.pairwise_cons.1 h.apart
    have hr : ∀ f ∈ m, 1 ≤ f.2.rows := fun f hf => h.rows f (by simp [hf])
    rw [insert_fresh (not_mem_of_apart (h.rows e (by simp)) hr (fun f hf => h1.1 f (List.mem_append.2 (.inr hf))))]
    have hp : (l ++ (e.1, e.2) :: m).Perm (e :: l ++ m) := List.perm_middle
    exact (ih ((e.1, e.2) :: m) (h.perm hp.symm)).trans hp

theorem setBlocksFrom_ok {a : Area} (h : AreaOk a) {l : Load} (hl : LoadOk l) (hs : hasSpaceFor a l 0 0 = true) :
    AreaOk (a.setBlocksFrom l) ∧ (a.setBlocksFrom l).blocks.Perm (l ++ a.blocks) := by
  have hok : LoadOk (l ++ a.blocks) := by
    refine ⟨?_, ?_⟩
    · rw [List.pairwise_append]
      refine ⟨hl.apart, h.load.apart, ?_⟩
      intro e he f hf
      unfold hasSpaceFor at hs
      have := List.all_eq_true.1 hs e he
      have h2 := (h.checkSpace_iff _ _).1 this e.2 rfl f hf
      simpa using h2
    · intro e he
      rcases List.mem_append.1 he with he | he
      · exact hl.rows e he
      · exact h.load.rows e he
  have hp := setBlocksFold a.blocks hok
  exact ⟨updateOrigin_ok (hok.perm hp.symm), hp⟩

theorem tryFit_ok {a : Area} {l l' : Load} (hl : LoadOk l) (h : tryFit a l = some l') :
    LoadOk l' ∧ hasSpaceFor a l' 0 0 = true ∧ l'.map (·.2) = l.map (·.2) := by
  unfold tryFit at h
  rw [Option.map_eq_some_iff] at h
  obtain ⟨o, ho, rfl⟩ := h
  refine ⟨moveByOffs_ok hl _ _, ?_, moveByOffs_blocks _ _ _⟩
  have := List.find?_some ho
  unfold hasSpaceFor at this ⊢
  rw [List.all_eq_true] at this ⊢
  intro e he
  obtain ⟨f, hf, rfl⟩ := List.mem_map.1 he
  have := this f hf
  simpa using this

/-! ## Splitting -/

theorem shift_ok {l : Load} (h : LoadOk l) (x : Int) :
    LoadOk (l.map (fun e => if e.1.1 > x then ((e.1.1 + 1, e.1.2), e.2) else e)) := by
  refine ⟨?_, ?_⟩
  · rw [List.pairwise_map]
    refine h.apart.imp ?_
    intro e f hap q he hf
    by_cases h1 : e.1.1 > x <;> by_cases h2 : f.1.1 > x
    · rw [if_pos h1] at he; rw [if_pos h2] at hf
      obtain ⟨a1, a2, a3⟩ := he
      obtain ⟨b1, b2, b3⟩ := hf
      simp only at a1 a2 a3 b1 b2 b3
      exact hap (q.1 - 1, q.2) ⟨by simp only; omega, a2, a3⟩ ⟨by simp only; omega, b2, b3⟩
    · rw [if_pos h1] at he; rw [if_neg h2] at hf
      have := he.1; have := hf.1
      simp only at *
      omega
    · rw [if_neg h1] at he; rw [if_pos h2] at hf
      have := he.1; have := hf.1
      simp only at *
      omega
    · rw [if_neg h1] at he; rw [if_neg h2] at hf
      exact hap q he hf
  · intro e he
    obtain ⟨f, hf, rfl⟩ := List.mem_map.1 he
    split
    · exact h.rows f hf
    · exact h.rows f hf

theorem shift_blocks (l : Load) (x : Int) :
    (l.map (fun e => if e.1.1 > x then ((e.1.1 + 1, e.1.2), e.2) else e)).map (·.2) = l.map (·.2) := by
  rw [List.map_map]
  refine List.map_congr_left ?_
  intro e _
  simp only [Function.comp_def]
  split <;> rfl

theorem mem_connectedInputs {l : Load} {x : Int} {q : Pos} (h : q ∈ connectedInputs l x) :
    q.1 = x + 1 := by
  unfold connectedInputs at h
  rw [List.mem_flatMap] at h
  obtain ⟨e, _, he⟩ := h
  split at he
  · obtain ⟨r, _, rfl⟩ := List.mem_map.1 he
    assumption
  · cases he

theorem connectedInputs_nodup {l : Load} (h : LoadOk l) (x : Int) : (connectedInputs l x).Nodup := by
  unfold connectedInputs
  rw [List.nodup_flatMap]
  constructor
  · intro e _
    split
    · refine List.Nodup.map ?_ (List.Nodup.filter _ (List.Nodup.filter _ List.nodup_range))
      intro r s hrs
      simp only [Prod.mk.injEq, true_and] at hrs
      omega
    · exact List.nodup_nil
  · refine h.apart.imp ?_
    intro e f hap q hq1 hq2
    have key : ∀ (g : Pos × Block), q ∈ (if g.1.1 = x + 1 then
        (g.2.inputRows.filter (fun (r : Nat) => (g.1.2 + (r : Int)) ∈
          l.flatMap (fun e => if e.1.1 = x then e.2.outputRows.map (fun (r : Nat) => e.1.2 + (r : Int)) else []))).map
          (fun (r : Nat) => (g.1.1, g.1.2 + (r : Int))) else []) → Covers g.1 g.2 q := by
      intro g hg
      split at hg
      · obtain ⟨r, hr, rfl⟩ := List.mem_map.1 hg
        have h1 := (List.mem_filter.1 hr).1
        unfold Block.inputRows at h1
        have h2 := List.mem_range.1 (List.mem_filter.1 h1).1
        exact ⟨rfl, by simp only; omega, by simp only; omega⟩
      · cases hg
    exact hap q (key e hq1) (key f hq2)

theorem fillers_ok {t : BlockType} (ht : t.rows = 1) (cur : Nat) {ps : List Pos} (h : ps.Nodup) : LoadOk (BlockFun.fillers t cur ps) := by
  have hrow : ∀ n : Nat, (t.instanciate none n).rows = 1 := fun n => ht
  unfold BlockFun.fillers
  refine ⟨?_, ?_⟩
  · rw [List.pairwise_map]
    have h1 : (ps.zipIdx.map (·.1)).Pairwise (· ≠ ·) := by rw [List.zipIdx_map_fst]; exact h
    rw [List.pairwise_map] at h1
    refine h1.imp ?_
    intro e f hne q he hf
    obtain ⟨a1, a2, a3⟩ := he
    obtain ⟨b1, b2, b3⟩ := hf
    rw [hrow] at a3 b3
    simp only at a1 a2 a3 b1 b2 b3
    exact hne (Prod.ext (by omega) (by omega))
  · intro e he
    obtain ⟨f, _, rfl⟩ := List.mem_map.1 he
    exact Nat.le_of_eq (hrow _).symm

theorem mem_fillers {t : BlockType} {cur : Nat} {ps : List Pos} {e : Pos × Block} (h : e ∈ BlockFun.fillers t cur ps) : e.1 ∈ ps := by
  unfold BlockFun.fillers at h
  obtain ⟨f, hf, rfl⟩ := List.mem_map.1 h
  have := List.mem_map_of_mem (f := fun e : Pos × Nat => e.1) hf
  rwa [List.zipIdx_map_fst] at this

/-- The positions of the fillers. -/
def fillerPos (l : Load) (x y : Int) : List Pos := (connectedInputs l x).filter (fun q => decide (q.2 ≠ y))

theorem splitLoad_ok {l : Load} (h : LoadOk l) (x y : Int) (filler : Option BlockType) (cur : Nat)
    (hf : ∀ t, filler = some t → t.rows = 1) :
    LoadOk (BlockFun.splitLoad l x y filler cur).1 := by
  unfold BlockFun.splitLoad
  cases filler with
  | none => exact (shift_ok h x).perm (sortLoad_perm _).symm
  | some t =>
    refine LoadOk.perm ?_ (sortLoad_perm _).symm
    have hfo : LoadOk (BlockFun.fillers t cur (fillerPos l x y)) :=
      fillers_ok (hf t rfl) cur (List.Nodup.filter _ (connectedInputs_nodup h x))
    have hso := shift_ok h x
    refine ⟨?_, ?_⟩
    · rw [List.pairwise_append]
      refine ⟨hso.apart, hfo.apart, ?_⟩
      intro e he g hg q hq1 hq2
      have hg1 : g.1.1 = x + 1 := mem_connectedInputs (List.mem_filter.1 (mem_fillers hg)).1
      obtain ⟨e0, _, rfl⟩ := List.mem_map.1 he
      have h2 := hq2.1
      split at hq1
      · have h1 := hq1.1
        simp only at h1
        omega
      · have h1 := hq1.1
        omega
    · intro e he
      rcases List.mem_append.1 he with he | he
      · exact hso.rows e he
      · exact hfo.rows e he

theorem splitLoad_blocks (l : Load) (x y : Int) (filler : Option BlockType) (cur : Nat) :
    ((BlockFun.splitLoad l x y filler cur).1.map (·.2)).Perm
      (l.map (·.2) ++ (match filler with
        | none => []
        | some t => (List.range (fillerPos l x y).length).map (fun i => t.instanciate none (cur + 1 + i)))) ∧
    (BlockFun.splitLoad l x y filler cur).2 = cur + (match filler with
        | none => 0
        | some _ => (fillerPos l x y).length) := by
  unfold BlockFun.splitLoad
  cases filler with
  | none =>
    refine ⟨?_, rfl⟩
    simp only [List.append_nil]
    refine ((sortLoad_perm _).map _).trans ?_
    rw [shift_blocks]
  | some t =>
    refine ⟨?_, rfl⟩
    refine ((sortLoad_perm _).map _).trans ?_
    rw [List.map_append, shift_blocks]
    refine List.Perm.of_eq ?_
    congr 1
    unfold BlockFun.fillers
    rw [List.map_map]
    show ((fillerPos l x y).zipIdx).map _ = _
    have : (fillerPos l x y).zipIdx.map (fun e => t.instanciate none (cur + 1 + e.2)) =
        ((fillerPos l x y).zipIdx.map (·.2)).map (fun i => t.instanciate none (cur + 1 + i)) := by
      rw [List.map_map]; rfl
    refine Eq.trans this ?_
    rw [List.zipIdx_map_snd, List.range'_eq_map_range, List.map_map]
    refine List.map_congr_left ?_
    intro i _
    simp

end HexoDSP.Block
