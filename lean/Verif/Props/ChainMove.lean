import Verif.Spec.ChainMove
import Verif.Props.Block
/-!
# Where a moved chain of blocks ends up (C65)
-/

set_option linter.unusedSectionVars false
set_option linter.dupNamespace false

namespace HexoDSP.ChainMoveProps
open HexoDSP.Block HexoDSP.BlockProps

/-- The places that are tried: up to one column to each side and up to three rows up or down. -/
theorem mem_fitOffsets (o : Int × Int) : o ∈ fitOffsets ↔ (-1 ≤ o.1 ∧ o.1 ≤ 1) ∧ -3 ≤ o.2 ∧ o.2 ≤ 3 := by
  obtain ⟨x, y⟩ := o
  constructor
  · intro h
    simp only [fitOffsets, List.mem_cons, Prod.mk.injEq, List.mem_nil_iff, or_false] at h
    omega
  · rintro ⟨⟨h1, h2⟩, h3, h4⟩
    simp only at h1 h2 h3 h4
    have hx : x = -1 ∨ x = 0 ∨ x = 1 := by omega
    have hy : y = -3 ∨ y = -2 ∨ y = -1 ∨ y = 0 ∨ y = 1 ∨ y = 2 ∨ y = 3 := by omega
    rcases hx with rfl | rfl | rfl <;> rcases hy with rfl | rfl | rfl | rfl | rfl | rfl | rfl <;> decide

theorem hasSpaceFor_iff {a : Area} {l : Load} (h : AreaOk a) (hl : LoadOk l) (x y : Int) :
    hasSpaceFor a l x y = true ↔ ∀ q b, l.lookup q = some b → ∀ q' b', a.blocks.lookup q' = some b' → ∀ s, Covers (q.1 + x, q.2 + y) b s → ¬ Covers q' b' s := by
  unfold hasSpaceFor
  rw [List.all_eq_true]
  constructor
  · intro hh q b hq q' b' hq' s hs
    have := hh (q, b) ((mem_iff_lookup hl.keys q b).2 hq)
    exact (h.checkSpace_iff _ _).1 this b rfl (q', b') (h.lookup.1 hq') s hs
  · rintro hh ⟨q, b⟩ hm
    refine (h.checkSpace_iff _ _).2 ?_
    intro c hc ⟨q', b'⟩ hm' s hs
    refine hh q b ((mem_iff_lookup hl.keys q b).1 hm) q' b' (h.lookup.2 hm') s ?_
    obtain ⟨s1, s2, s3⟩ := hs
    exact ⟨s1, s2, by simp only at s3 hc ⊢; omega⟩

open Classical in
/-- **C65** Moving a chain inside of its area, in every reachable program: it is moved exactly if there is room for it at the place asked for, or at most one column
to the side and at most three rows up or down from there. It goes to the place asked for if there is room, else to one of those others; everything else stays. If
there is no room the call fails and all blocks stay. -/
theorem chain_where {L : Lang} (hL : L.Tall) {w w' : World} {r : Except Err Unit} (h : Reached L w) (id : Nat) (p p2 o : Pos) (b : Block)
    (hb : w.fn.blockAt id o = some b) (hc : Covers o b p) (hs : w.step L (.moveChain id p id p2) = some (w', r)) :
    (r = .ok () ∧ ∃ x y : Int, (-1 ≤ x ∧ x ≤ 1) ∧ (-3 ≤ y ∧ y ≤ 3) ∧ w.fn.Room id o (p2.1 - p.1 + x, p2.2 - p.2 + y) ∧
      (w.fn.Room id o (p2.1 - p.1, p2.2 - p.2) → x = 0 ∧ y = 0) ∧
      ∀ q, w'.fn.blockAt id q =
        if w.fn.Connected id o (q.1 - (p2.1 - p.1 + x), q.2 - (p2.2 - p.2 + y)) then w.fn.blockAt id (q.1 - (p2.1 - p.1 + x), q.2 - (p2.2 - p.2 + y))
        else if w.fn.Connected id o q then none else w.fn.blockAt id q) ∨
    (r = .error (.noSpaceAvailable id p2.1 p2.2 0) ∧ (∀ j q, w'.fn.blockAt j q = w.fn.blockAt j q) ∧
      ∀ x y : Int, (-1 ≤ x ∧ x ≤ 1) → (-3 ≤ y ∧ y ≤ 3) → ¬ w.fn.Room id o (p2.1 - p.1 + x, p2.2 - p.2 + y)) := by
  have hf := (reached_ok hL h).1
  obtain ⟨a, ha, hm⟩ := (blockAt_iff hf).1 hb
  have hr := (hf.area ha).refAt_some.2 ⟨hm, hc⟩
  simp only [World.step, Option.map_eq_some_iff, Prod.mk.injEq] at hs
  obtain ⟨⟨f', r'⟩, hmv, rfl, hrr⟩ := hs
  simp only at hrr
  subst hrr
  have hch : ∃ chain, a.chainAt p = some chain := by unfold Area.chainAt; rw [hr]; exact ⟨_, rfl⟩
  obtain ⟨chain, hchain⟩ := hch
  obtain ⟨o2, b2, hr2, hn, hmem⟩ := chainAt_spec (hf.area ha) hchain
  rw [hr] at hr2
  cases hr2
  have hk : ∀ q ∈ chain, ∃ b', (q, b') ∈ a.blocks := fun q hq => chain_keys (hf.area ha) hm ((hmem q).1 hq)
  obtain ⟨hrest, hload⟩ := removeLoad_chain (hf.area ha) hn hk
  obtain ⟨hok, hp⟩ := removeLoad_ok (hf.area ha) chain
  have hlok : LoadOk (removeLoad a chain).1 := ((hf.area ha).load.perm hp.symm).left
  have hlt := (List.getElem?_eq_some_iff.1 ha).1
  have hba : ∀ q, w.fn.blockAt id q = a.blocks.lookup q := by intro q; unfold BlockFun.blockAt; rw [ha]; rfl
  have hcon : ∀ q, w.fn.Connected id o q ↔ q ∈ chain := fun q => by rw [connected_iff ha, hmem]
  -- room in the words of the code
  have room : ∀ x y : Int, hasSpaceFor (removeLoad a chain).2 (moveByOffs (removeLoad a chain).1 (p2.1 - p.1) (p2.2 - p.2)) x y = true ↔
      w.fn.Room id o (p2.1 - p.1 + x, p2.2 - p.2 + y) := by
    intro x y
    rw [hasSpaceFor_iff hok (moveByOffs_ok hlok _ _)]
    unfold BlockFun.Room
    constructor
    · intro hh q b hq hbq q' b' hq' hbq' s hcs
      rw [hcon] at hq hq'
      rw [hba] at hbq hbq'
      refine hh (q.1 + (p2.1 - p.1), q.2 + (p2.2 - p.2)) b ?_ q' b' ?_ s ?_
      · rw [moveByOffs_lookup, hload]
        simp only [Int.add_sub_cancel]
        rw [if_pos hq, hbq]
      · rw [hrest, if_neg hq', hbq']
      · obtain ⟨c1, c2, c3⟩ := hcs
        simp only at c1 c2 c3
        refine ⟨?_, ?_, ?_⟩ <;> simp only <;> omega
    · intro hh q b hq q' b' hq' s hcs
      rw [moveByOffs_lookup, hload] at hq
      rw [hrest] at hq'
      split at hq
      · rename_i hin
        split at hq'
        · cases hq'
        · rename_i hout
          refine hh _ b ((hcon _).2 hin) (by rw [hba]; exact hq) q' b' (fun hx => hout ((hcon _).1 hx)) (by rw [hba]; exact hq') s ?_
          obtain ⟨c1, c2, c3⟩ := hcs
          simp only at c1 c2 c3
          refine ⟨?_, ?_, ?_⟩ <;> simp only <;> omega
      · cases hq
  unfold BlockFun.moveChain at hmv
  rw [ha] at hmv
  simp only [hchain, if_true] at hmv
  cases ht : tryFit (removeLoad a chain).2 (moveByOffs (removeLoad a chain).1 (p2.1 - p.1) (p2.2 - p.2)) with
  | none =>
    rw [ht] at hmv
    simp only [Option.some.injEq, Prod.mk.injEq] at hmv
    obtain ⟨rfl, rfl⟩ := hmv
    refine Or.inr ⟨rfl, fun j q => rfl, ?_⟩
    intro x y hx hy hroom
    unfold tryFit at ht
    rw [Option.map_eq_none_iff, List.find?_eq_none] at ht
    exact ht (x, y) ((mem_fitOffsets _).2 ⟨hx, hy⟩) ((room x y).2 hroom)
  | some load2 =>
    rw [ht] at hmv
    simp only [Option.some.injEq, Prod.mk.injEq] at hmv
    obtain ⟨rfl, rfl⟩ := hmv
    obtain ⟨hl', hsp, _⟩ := tryFit_ok (moveByOffs_ok hlok _ _) ht
    obtain ⟨hok2, hperm⟩ := setBlocksFrom_ok hok hl' hsp
    unfold tryFit at ht
    rw [Option.map_eq_some_iff] at ht
    obtain ⟨⟨x, y⟩, hfind, rfl⟩ := ht
    obtain ⟨hx, hy⟩ := (mem_fitOffsets _).1 (List.mem_of_find?_eq_some hfind)
    have hfs := List.find?_some hfind
    refine Or.inl ⟨rfl, x, y, hx, hy, (room x y).1 hfs, ?_, ?_⟩
    · intro h0
      have h0 : w.fn.Room id o (p2.1 - p.1 + 0, p2.2 - p.2 + 0) := by simpa using h0
      have h0 := (room 0 0).2 h0
      have : fitOffsets.find? (fun o => hasSpaceFor (removeLoad a chain).2 (moveByOffs (removeLoad a chain).1 (p2.1 - p.1) (p2.2 - p.2)) o.1 o.2) = some (0, 0) := by
        unfold fitOffsets
        exact List.find?_cons_of_pos (a := ((0, 0) : Int × Int)) h0
      rw [this] at hfind
      cases hfind
      exact ⟨rfl, rfl⟩
    · intro q
      have h1 : ∀ g, ({ fn := { areas := w.fn.areas.set id ((removeLoad a chain).2.setBlocksFrom (moveByOffs (moveByOffs (removeLoad a chain).1 (p2.1 - p.1) (p2.2 - p.2)) x y)), curId := w.fn.curId, generation := g }, saved := w.saved } : World).fn.blockAt id q =
          ((removeLoad a chain).2.setBlocksFrom (moveByOffs (moveByOffs (removeLoad a chain).1 (p2.1 - p.1) (p2.2 - p.2)) x y)).blocks.lookup q := by
        intro g
        unfold BlockFun.blockAt
        simp only [List.getElem?_set_self hlt, Option.bind_some]
      refine (h1 _).trans ?_
      rw [perm_lookup hperm hok2.load.keys, lookup_append', moveByOffs_lookup, moveByOffs_lookup, hload, hrest]
      have e1 : ((q.1 - x - (p2.1 - p.1), q.2 - y - (p2.2 - p.2)) : Pos) = (q.1 - (p2.1 - p.1 + x), q.2 - (p2.2 - p.2 + y)) := by
        refine Prod.ext ?_ ?_ <;> simp only <;> omega
      simp only [e1, hcon, hba]
      split
      · rename_i hq
        obtain ⟨b', hb'⟩ := hk _ hq
        rw [(hf.area ha).lookup.2 hb']
        rfl
      · rfl

theorem foldl_min (l : Load) (f : Pos × Block → Int) : ∀ m : Int, (l.foldl (fun m e => min m (f e)) m ≤ m ∧ ∀ e ∈ l, l.foldl (fun m e => min m (f e)) m ≤ f e) ∧
    (l.foldl (fun m e => min m (f e)) m = m ∨ ∃ e ∈ l, l.foldl (fun m e => min m (f e)) m = f e) := by
  induction l with
  | nil => intro m; exact ⟨⟨Int.le_refl _, by simp⟩, .inl rfl⟩
  | cons e l ih =>
    intro m
    obtain ⟨⟨h1, h2⟩, h3⟩ := ih (min m (f e))
    simp only [List.foldl_cons]
    refine ⟨⟨by omega, ?_⟩, ?_⟩
    · intro e' he'
      rcases List.mem_cons.1 he' with rfl | he'
      · omega
      · exact h2 e' he'
    · rcases h3 with h3 | ⟨e', he', h3⟩
      · rcases Int.le_total m (f e) with h | h
        · left; rw [h3]; omega
        · right; exact ⟨e, by simp, by rw [h3]; omega⟩
      · right; exact ⟨e', by simp [he'], h3⟩

/-- The left upper corner of a load. -/
theorem corner {l : Load} (m : Int) (f : Pos × Block → Int) (hle : ∀ e ∈ l, m ≤ f e) (hex : ∃ e ∈ l, f e = m) (hs : m ≤ 100000000) :
    l.foldl (fun m e => min m (f e)) 100000000 = m := by
  obtain ⟨⟨h1, h2⟩, h3⟩ := foldl_min l f 100000000
  obtain ⟨e, he, hem⟩ := hex
  have := h2 e he
  rcases h3 with h3 | ⟨e', he', h3⟩
  · omega
  · have := hle e' he'
    omega

theorem normalizeLoad_at {l : Load} (h : LoadOk l) {m : Pos} (hle : ∀ q b, l.lookup q = some b → m.1 ≤ q.1 ∧ m.2 ≤ q.2) (h1 : ∃ q b, l.lookup q = some b ∧ q.1 = m.1)
    (h2 : ∃ q b, l.lookup q = some b ∧ q.2 = m.2) (hs : m.1 ≤ 100000000 ∧ m.2 ≤ 100000000) :
    (normalizeLoad l).2 = m ∧ ∀ q, (normalizeLoad l).1.lookup q = l.lookup (q.1 + m.1, q.2 + m.2) := by
  have c1 : l.foldl (fun m e => min m e.1.1) 100000000 = m.1 := by
    refine corner m.1 (fun e => e.1.1) (fun e he => (hle e.1 e.2 ((mem_iff_lookup h.keys _ _).1 he)).1) ?_ hs.1
    obtain ⟨q, b, hq, e⟩ := h1
    exact ⟨(q, b), (mem_iff_lookup h.keys _ _).2 hq, e⟩
  have c2 : l.foldl (fun m e => min m e.1.2) 100000000 = m.2 := by
    refine corner m.2 (fun e => e.1.2) (fun e he => (hle e.1 e.2 ((mem_iff_lookup h.keys _ _).1 he)).2) ?_ hs.2
    obtain ⟨q, b, hq, e⟩ := h2
    exact ⟨(q, b), (mem_iff_lookup h.keys _ _).2 hq, e⟩
  unfold normalizeLoad
  simp only [c1, c2, true_and]
  intro q
  rw [perm_lookup (sortLoad_perm _) ((moveByOffs_ok h _ _).perm (sortLoad_perm _).symm).keys, moveByOffs_lookup, Int.sub_neg, Int.sub_neg]

open Classical in
/-- **C65** Moving a chain to another area, in every reachable program. `m` is the left upper corner of the chain. It fails if the other area lies inside of the chain,
does not exist, or has no room near the place asked for, and then all blocks stay. Otherwise the chain goes there: exactly to the place asked for, but with no block
left of the area or above it, if there is room, else at most one column and three rows off. -/
theorem chain_where_other {L : Lang} (hL : L.Tall) {w w' : World} {r : Except Err Unit} (h : Reached L w) {id id2 : Nat} (hne : id2 ≠ id) (p p2 o m : Pos) (b : Block)
    (hb : w.fn.blockAt id o = some b) (hc : Covers o b p) (hm1 : ∀ q, w.fn.Connected id o q → m.1 ≤ q.1 ∧ m.2 ≤ q.2)
    (hm2 : ∃ q, w.fn.Connected id o q ∧ q.1 = m.1) (hm3 : ∃ q, w.fn.Connected id o q ∧ q.2 = m.2) (hsm : m.1 ≤ 100000000 ∧ m.2 ≤ 100000000)
    (hs : w.step L (.moveChain id p id2 p2) = some (w', r)) :
    let v : Pos := (max (p2.1 + (m.1 - p.1)) 0 - m.1, max (p2.2 + (m.2 - p.2)) 0 - m.2)
    let inside := ∃ q c, w.fn.Connected id o q ∧ w.fn.blockAt id q = some c ∧ ∃ s ∈ c.subs, Relation.ReflTransGen w.fn.Nests s id2
    (inside ∧ r = .error (.circularAction id id2) ∧ ∀ j q, w'.fn.blockAt j q = w.fn.blockAt j q) ∨
    (¬ inside ∧ w.fn.areas.length ≤ id2 ∧ r = .error (.unknownArea id) ∧ ∀ j q, w'.fn.blockAt j q = w.fn.blockAt j q) ∨
    (¬ inside ∧ id2 < w.fn.areas.length ∧ r = .error (.noSpaceAvailable id p2.1 p2.2 1) ∧ (∀ j q, w'.fn.blockAt j q = w.fn.blockAt j q) ∧
      ∀ x y : Int, (-1 ≤ x ∧ x ≤ 1) → (-3 ≤ y ∧ y ≤ 3) → ¬ w.fn.RoomIn id o id2 (v.1 + x, v.2 + y)) ∨
    (¬ inside ∧ id2 < w.fn.areas.length ∧ r = .ok () ∧ ∃ x y : Int, (-1 ≤ x ∧ x ≤ 1) ∧ (-3 ≤ y ∧ y ≤ 3) ∧ w.fn.RoomIn id o id2 (v.1 + x, v.2 + y) ∧
      (w.fn.RoomIn id o id2 v → x = 0 ∧ y = 0) ∧
      ∀ q, (w'.fn.blockAt id q = if w.fn.Connected id o q then none else w.fn.blockAt id q) ∧
        (w'.fn.blockAt id2 q = if w.fn.Connected id o (q.1 - (v.1 + x), q.2 - (v.2 + y)) then w.fn.blockAt id (q.1 - (v.1 + x), q.2 - (v.2 + y)) else w.fn.blockAt id2 q) ∧
        ∀ j, j ≠ id → j ≠ id2 → w'.fn.blockAt j q = w.fn.blockAt j q) := by
  intro v inside
  have hf := (reached_ok hL h).1
  obtain ⟨a, ha, hm⟩ := (blockAt_iff hf).1 hb
  have hr := (hf.area ha).refAt_some.2 ⟨hm, hc⟩
  simp only [World.step, Option.map_eq_some_iff, Prod.mk.injEq] at hs
  obtain ⟨⟨f', r'⟩, hmv, rfl, hrr⟩ := hs
  simp only at hrr
  subst hrr
  have hch : ∃ chain, a.chainAt p = some chain := by unfold Area.chainAt; rw [hr]; exact ⟨_, rfl⟩
  obtain ⟨chain, hchain⟩ := hch
  obtain ⟨o2, b2, hr2, hn, hmem⟩ := chainAt_spec (hf.area ha) hchain
  rw [hr] at hr2
  cases hr2
  have hk : ∀ q ∈ chain, ∃ b', (q, b') ∈ a.blocks := fun q hq => chain_keys (hf.area ha) hm ((hmem q).1 hq)
  obtain ⟨hrest, hload⟩ := removeLoad_chain (hf.area ha) hn hk
  obtain ⟨hok, hp⟩ := removeLoad_ok (hf.area ha) chain
  have hlok : LoadOk (removeLoad a chain).1 := ((hf.area ha).load.perm hp.symm).left
  have hlt := (List.getElem?_eq_some_iff.1 ha).1
  have hba : ∀ q, w.fn.blockAt id q = a.blocks.lookup q := by intro q; unfold BlockFun.blockAt; rw [ha]; rfl
  have hcon : ∀ q, w.fn.Connected id o q ↔ q ∈ chain := fun q => by rw [connected_iff ha, hmem]
  have hsome : ∀ q, q ∈ chain → ∃ b', (removeLoad a chain).1.lookup q = some b' := by
    intro q hq
    obtain ⟨b', hb'⟩ := hk q hq
    exact ⟨b', by rw [hload, if_pos hq]; exact (hf.area ha).lookup.2 hb'⟩
  have hin : ∀ q b', (removeLoad a chain).1.lookup q = some b' → q ∈ chain ∧ a.blocks.lookup q = some b' := by
    intro q b' hq
    rw [hload] at hq
    split at hq
    · exact ⟨by assumption, hq⟩
    · cases hq
  obtain ⟨hno, hnl⟩ := normalizeLoad_at hlok (m := m) (fun q b' hq => hm1 q ((hcon q).2 (hin q b' hq).1))
    (by obtain ⟨q, hq, e⟩ := hm2; obtain ⟨b', hb'⟩ := hsome q ((hcon q).1 hq); exact ⟨q, b', hb', e⟩)
    (by obtain ⟨q, hq, e⟩ := hm3; obtain ⟨b', hb'⟩ := hsome q ((hcon q).1 hq); exact ⟨q, b', hb', e⟩) hsm
  have hgen : FunOk { w.fn with generation := w.fn.generation + 1 } := ⟨hf.areas, hf.ids, hf.idRange, hf.subs, hf.subRange, hf.rank, hf.root⟩
  obtain ⟨rr, hrr, hrs⟩ := loaded_spec hgen ha (l := (removeLoad a chain).1) (by
    rintro ⟨q, c⟩ he
    exact mem_bs ((hf.area ha).lookup.1 (hin q c ((mem_iff_lookup hlok.keys q c).1 he)).2)) id2
  have hinside : rr = true ↔ inside := by
    rw [hrs]
    have hN : ∀ x y, Relation.ReflTransGen (Edge w.fn.areas) x y ↔ Relation.ReflTransGen w.fn.Nests x y := fun x y =>
      ⟨fun hh => reach_mono (fun _ _ he => (nests_edge hf).2 he) hh, fun hh => reach_mono (fun _ _ he => (nests_edge hf).1 he) hh⟩
    constructor
    · rintro ⟨⟨q, c⟩, he, s, hsub, hreach⟩
      obtain ⟨h1, h2⟩ := hin q c ((mem_iff_lookup hlok.keys q c).1 he)
      exact ⟨q, c, (hcon q).2 h1, by rw [hba]; exact h2, s, hsub, (hN _ _).1 hreach⟩
    · rintro ⟨q, c, h1, h2, s, hsub, hreach⟩
      refine ⟨(q, c), (mem_iff_lookup hlok.keys q c).2 ?_, s, hsub, (hN _ _).2 hreach⟩
      rw [hload, if_pos ((hcon q).1 h1), ← hba]
      exact h2
  unfold BlockFun.moveChain at hmv
  rw [ha] at hmv
  simp only [hchain, if_neg hne, hrr, hno] at hmv
  cases rr with
  | true =>
    simp only [Option.some.injEq, Prod.mk.injEq] at hmv
    obtain ⟨rfl, rfl⟩ := hmv
    exact .inl ⟨hinside.1 rfl, rfl, fun j q => rfl⟩
  | false =>
    have hni : ¬ inside := fun hx => by have := hinside.2 hx; cases this
    refine .inr ?_
    simp only at hmv
    cases ha2 : w.fn.areas[id2]? with
    | none =>
      simp only [ha2, Option.some.injEq, Prod.mk.injEq] at hmv
      obtain ⟨rfl, rfl⟩ := hmv
      exact .inl ⟨hni, List.getElem?_eq_none_iff.1 ha2, rfl, fun j q => rfl⟩
    | some a2 =>
      refine .inr ?_
      have hlt2 := (List.getElem?_eq_some_iff.1 ha2).1
      have hb2 : ∀ q, w.fn.blockAt id2 q = a2.blocks.lookup q := by intro q; unfold BlockFun.blockAt; rw [ha2]; rfl
      have ev1 : max (m.1 - p.1 + p2.1) 0 = v.1 + m.1 := by simp only [v]; omega
      have ev2 : max (m.2 - p.2 + p2.2) 0 = v.2 + m.2 := by simp only [v]; omega
      simp only [ha2, ev1, ev2] at hmv
      have hlk : ∀ q : Pos, (moveByOffs (normalizeLoad (removeLoad a chain).1).1 (v.1 + m.1) (v.2 + m.2)).lookup q = (removeLoad a chain).1.lookup (q.1 - v.1, q.2 - v.2) := by
        intro q
        rw [moveByOffs_lookup, hnl]
        congr 1
        refine Prod.ext ?_ ?_ <;> simp only <;> omega
      have hlo : LoadOk (moveByOffs (normalizeLoad (removeLoad a chain).1).1 (v.1 + m.1) (v.2 + m.2)) := moveByOffs_ok (normalizeLoad_ok hlok) _ _
      generalize moveByOffs (normalizeLoad (removeLoad a chain).1).1 (v.1 + m.1) (v.2 + m.2) = l2 at hmv hlk hlo
      have room : ∀ x y : Int, hasSpaceFor a2 l2 x y = true ↔ w.fn.RoomIn id o id2 (v.1 + x, v.2 + y) := by
        intro x y
        rw [hasSpaceFor_iff (hf.area ha2) hlo]
        unfold BlockFun.RoomIn
        constructor
        · intro hh q b hq hbq q' b' hbq' s hcs
          rw [hcon] at hq
          rw [hba] at hbq
          rw [hb2] at hbq'
          refine hh (q.1 + v.1, q.2 + v.2) b ?_ q' b' hbq' s ?_
          · rw [hlk, hload]
            simp only [Int.add_sub_cancel]
            rw [if_pos hq, hbq]
          · obtain ⟨c1, c2, c3⟩ := hcs
            simp only at c1 c2 c3
            refine ⟨?_, ?_, ?_⟩ <;> simp only <;> omega
        · intro hh q b hq q' b' hq' s hcs
          rw [hlk] at hq
          obtain ⟨hq1, hq2⟩ := hin _ _ hq
          refine hh _ b ((hcon _).2 hq1) (by rw [hba]; exact hq2) q' b' (by rw [hb2]; exact hq') s ?_
          obtain ⟨c1, c2, c3⟩ := hcs
          simp only at c1 c2 c3
          refine ⟨?_, ?_, ?_⟩ <;> simp only <;> omega
      cases ht : tryFit a2 l2 with
      | none =>
        rw [ht] at hmv
        simp only [Option.some.injEq, Prod.mk.injEq] at hmv
        obtain ⟨rfl, rfl⟩ := hmv
        refine .inl ⟨hni, hlt2, rfl, fun j q => rfl, ?_⟩
        intro x y hx hy hroom
        unfold tryFit at ht
        rw [Option.map_eq_none_iff, List.find?_eq_none] at ht
        exact ht (x, y) ((mem_fitOffsets _).2 ⟨hx, hy⟩) ((room x y).2 hroom)
      | some load2 =>
        rw [ht] at hmv
        simp only [Option.some.injEq, Prod.mk.injEq] at hmv
        obtain ⟨rfl, rfl⟩ := hmv
        obtain ⟨hl', hsp, _⟩ := tryFit_ok hlo ht
        obtain ⟨hok2, hperm⟩ := setBlocksFrom_ok (hf.area ha2) hl' hsp
        unfold tryFit at ht
        rw [Option.map_eq_some_iff] at ht
        obtain ⟨⟨x, y⟩, hfind, rfl⟩ := ht
        obtain ⟨hx, hy⟩ := (mem_fitOffsets _).1 (List.mem_of_find?_eq_some hfind)
        have hfs := List.find?_some hfind
        refine .inr ⟨hni, hlt2, rfl, x, y, hx, hy, (room x y).1 hfs, ?_, ?_⟩
        · intro h0
          have h0 : w.fn.RoomIn id o id2 (v.1 + 0, v.2 + 0) := by simpa using h0
          have h0 := (room 0 0).2 h0
          have : fitOffsets.find? (fun o => hasSpaceFor a2 l2 o.1 o.2) = some (0, 0) := by
            unfold fitOffsets
            exact List.find?_cons_of_pos (a := ((0, 0) : Int × Int)) h0
          rw [this] at hfind
          cases hfind
          exact ⟨rfl, rfl⟩
        · intro q
          refine ⟨?_, ?_, ?_⟩
          · unfold BlockFun.blockAt
            simp only [List.getElem?_set_ne hne, List.getElem?_set_self hlt, Option.bind_some]
            rw [hrest, ha]
            simp only [hcon, Option.bind_some]
          · have h1 : ∀ g, ({ fn := { areas := (w.fn.areas.set id (removeLoad a chain).2).set id2 (a2.setBlocksFrom (moveByOffs l2 x y)), curId := w.fn.curId, generation := g }, saved := w.saved } : World).fn.blockAt id2 q =
                (a2.setBlocksFrom (moveByOffs l2 x y)).blocks.lookup q := by
              intro g
              unfold BlockFun.blockAt
              simp only [List.getElem?_set_self (show id2 < (w.fn.areas.set id (removeLoad a chain).2).length by simpa using hlt2), Option.bind_some]
            refine (h1 _).trans ?_
            rw [perm_lookup hperm hok2.load.keys, lookup_append', moveByOffs_lookup, hlk, hload]
            have e1 : ((q.1 - x - v.1, q.2 - y - v.2) : Pos) = (q.1 - (v.1 + x), q.2 - (v.2 + y)) := by
              refine Prod.ext ?_ ?_ <;> simp only <;> omega
            simp only [e1, hcon, hba, hb2]
            split
            · rename_i hq
              obtain ⟨b', hb'⟩ := hk _ hq
              rw [(hf.area ha).lookup.2 hb']
              rfl
            · rfl
          · intro j hj1 hj2
            unfold BlockFun.blockAt
            simp only [List.getElem?_set_ne (Ne.symm hj2), List.getElem?_set_ne (Ne.symm hj1)]

/-- **C65** The place found may lie outside of the area, although there is room inside: all blocks of this reachable program are inside of the area, the chain is moved to
the slot in the top left corner, and ends up three rows above the area. Three rows below the slot asked for there would have been room. -/
theorem chain_leaves_area : Reached base exWorld ∧ (exWorld.fn.areas[0]?.map (fun a => a.blocks.all (fun e => decide (0 ≤ e.1.1 ∧ 0 ≤ e.1.2)))) = some true ∧
    (exWorld.step base (.moveChain 0 (2, 3) 0 (0, 0))).map (fun r => (r.2.toBool, (r.1.fn.blockAt 0 (0, -3)).map (·.typ), (r.1.fn.blockAt 0 (2, 2)).isNone)) =
      some (true, some "->3", true) ∧
    (exWorld.step base (.moveChain 0 (2, 3) 0 (0, 3))).map (fun r => (r.2.toBool, (r.1.fn.blockAt 0 (0, 2)).map (·.typ))) = some (true, some "->3") :=
  ⟨ex_reached, by decide +kernel, by decide +kernel, by decide +kernel⟩

/-- **C65** The same in another area, although the code takes care that the chain is not moved out of it: the chain is moved to the left upper corner of the area of
the `"if"`, where there is a block already, and ends up in the rows above the area. -/
theorem chain_leaves_sub_area : Reached base exWorld ∧ (exWorld.fn.blockAt 1 (0, 0)).map (·.typ) = some "value" ∧
    (exWorld.step base (.moveChain 0 (2, 3) 1 (0, 0))).map (fun r => (r.2.toBool, (r.1.fn.blockAt 1 (0, -3)).map (·.typ), (r.1.fn.blockAt 1 (2, -3)).map (·.typ))) =
      some (true, some "->3", some "+") :=
  ⟨ex_reached, by decide +kernel, by decide +kernel⟩

-- the chain of `"->3"` is clicked at its second row
example : (exWorld.fn.blockAt 0 (2, 2)).map (fun b => (b.typ, b.rows)) = some ("->3", 3) := by decide +kernel
-- a chain whose block holds the area asked for, and an area that does not exist
example : (exWorld.step base (.moveChain 0 (0, 0) 1 (0, 0))).map (fun r => match r.2 with | .error (.circularAction 0 1) => true | _ => false) = some true := by decide +kernel
example : (exWorld.step base (.moveChain 0 (2, 3) 9 (0, 0))).map (fun r => match r.2 with | .error (.unknownArea 0) => true | _ => false) = some true := by decide +kernel
-- to an empty area: the corner does not leave the area
example : (exWorld.step base (.moveChain 0 (2, 3) 2 (0, 0))).map (fun r => (r.2.toBool, (r.1.fn.blockAt 2 (0, 0)).map (·.typ), (r.1.fn.blockAt 2 (2, 2)).map (·.typ))) =
    some (true, some "->3", some "set") := by decide +kernel

end HexoDSP.ChainMoveProps
