import Verif.Lemmas.BlockFun
/-! The chain at a slot is what is connected to it. -/

set_option linter.unusedSectionVars false
set_option linter.dupNamespace false

namespace HexoDSP.Block

/-- Joined in one of the two directions. -/
def Area.Adj (a : Area) (o o' : Pos) : Prop := a.Joined o o' ∨ a.Joined o' o

theorem AreaOk.lookup {a : Area} (h : AreaOk a) {o : Pos} {b : Block} : a.blocks.lookup o = some b ↔ (o, b) ∈ a.blocks :=
  (mem_iff_lookup h.load.keys o b).symm

theorem AreaOk.refAt_self {a : Area} (h : AreaOk a) {o : Pos} {b : Block} (hm : (o, b) ∈ a.blocks) : a.refAtOrigin o = some (b, o) :=
  h.refAt_some.2 ⟨hm, covers_self (h.load.rows _ hm)⟩

theorem mem_conns {a : Area} (h : AreaOk a) {o o' : Pos} {b : Block} (hm : (o, b) ∈ a.blocks) :
    o' ∈ (Area.portConns b o).filterMap (fun c => (a.findPortAt c.1 c.2).map (fun r => r.2.1)) ↔ a.Adj o o' := by
  rw [List.mem_filterMap]
  unfold Area.portConns Block.inputRows Block.outputRows Area.Adj Area.Joined
  constructor
  · rintro ⟨c, hc, hf⟩
    rw [Option.map_eq_some_iff] at hf
    obtain ⟨⟨b', o2, y⟩, hfp, he⟩ := hf
    simp only at he
    subst he
    unfold Area.findPortAt at hfp
    cases hr : a.refAtOrigin c.1 with
    | none => rw [hr] at hfp; cases hfp
    | some r =>
      obtain ⟨b2, o3⟩ := r
      rw [hr] at hfp
      simp only at hfp
      obtain ⟨hm2, hc1, hc2, hc3⟩ := h.refAt_some.1 hr
      rcases List.mem_append.1 hc with h1 | h1
      · obtain ⟨i, hi, rfl⟩ := List.mem_map.1 h1
        rw [List.mem_filter, List.mem_range] at hi
        simp only [if_true] at hfp
        split at hfp
        · rename_i hport
          cases hfp
          simp only at hc1 hc2 hc3 hport
          refine .inr ⟨b', b, (max (o.2 + (i : Int) - o2.2) 0).toNat, i, h.lookup.2 hm2, h.lookup.2 hm, by omega, hi.1, hport, hi.2, by omega, by omega⟩
        · cases hfp
      · obtain ⟨i, hi, rfl⟩ := List.mem_map.1 h1
        rw [List.mem_filter, List.mem_range] at hi
        simp only [Bool.false_eq_true, if_false] at hfp
        split at hfp
        · rename_i hport
          cases hfp
          simp only at hc1 hc2 hc3 hport
          refine .inl ⟨b, b', i, (max (o.2 + (i : Int) - o2.2) 0).toNat, h.lookup.2 hm, h.lookup.2 hm2, hi.1, by omega, hi.2, hport, by omega, by omega⟩
        · cases hfp
  · rintro (⟨b1, b', r, r', hb1, hb', hr, hr', hout, hin, hx, hy⟩ | ⟨b', b1, r', r, hb', hb1, hr', hr, hout, hin, hx, hy⟩)
    · rw [h.lookup.2 hm] at hb1
      cases hb1
      refine ⟨((o.1 + 1, o.2 + (r : Int)), false), List.mem_append.2 (.inr (List.mem_map.2 ⟨r, List.mem_filter.2 ⟨List.mem_range.2 hr, hout⟩, rfl⟩)), ?_⟩
      have hra : a.refAtOrigin (o.1 + 1, o.2 + (r : Int)) = some (b', o') := by
        refine h.refAt_some.2 ⟨h.lookup.1 hb', ?_, ?_, ?_⟩ <;> simp only <;> omega
      unfold Area.findPortAt
      rw [hra]
      have hpy : (max (o.2 + (r : Int) - o'.2) 0).toNat = r' := by omega
      simp only [Bool.false_eq_true, if_false, hpy]
      rw [if_pos hin]
      rfl
    · rw [h.lookup.2 hm] at hb1
      cases hb1
      refine ⟨((o.1 - 1, o.2 + (r : Int)), true), List.mem_append.2 (.inl (List.mem_map.2 ⟨r, List.mem_filter.2 ⟨List.mem_range.2 hr, hin⟩, rfl⟩)), ?_⟩
      have hra : a.refAtOrigin (o.1 - 1, o.2 + (r : Int)) = some (b', o') := by
        refine h.refAt_some.2 ⟨h.lookup.1 hb', ?_, ?_, ?_⟩ <;> simp only <;> omega
      unfold Area.findPortAt
      rw [hra]
      have hpy : (max (o.2 + (r : Int) - o'.2) 0).toNat = r' := by omega
      simp only [if_true, hpy]
      rw [if_pos hout]
      rfl

theorem conns_length (a : Area) (b : Block) (o : Pos) :
    ((Area.portConns b o).filterMap (fun c => (a.findPortAt c.1 c.2).map (fun r => r.2.1))).length ≤ 2 * b.rows := by
  refine Nat.le_trans (List.length_filterMap_le _ _) ?_
  unfold Area.portConns Block.inputRows Block.outputRows
  rw [List.length_append, List.length_map, List.length_map]
  have h1 := List.length_filter_le (fun i => (b.inputs.getD i none).isSome) (List.range b.rows)
  have h2 := List.length_filter_le (fun i => (b.outputs.getD i none).isSome) (List.range b.rows)
  rw [List.length_range] at h1 h2
  omega

/-- The rows, twice, of the blocks not found yet. -/
def openRows (l : Load) (found : List Pos) : Nat := ((l.filter (fun e => !(found.contains e.1))).map (fun e => 2 * e.2.rows)).sum

theorem openRows_found (l : Load) (found : List Pos) (o : Pos) (b : Block) (hm : (o, b) ∈ l) (ho : o ∉ found) :
    openRows l (o :: found) + 2 * b.rows ≤ openRows l found := by
  have hmono : ∀ l : Load, openRows l (o :: found) ≤ openRows l found := by
    intro l
    induction l with
    | nil => exact Nat.le_refl _
    | cons e l ih =>
      unfold openRows at ih ⊢
      simp only [List.filter_cons, List.contains_cons]
      by_cases h1 : found.contains e.1 = true
      · simp only [h1, Bool.or_true, Bool.not_true, Bool.false_eq_true, if_false]
        simp only [List.contains_cons] at ih
        exact ih
      · by_cases h2 : (e.1 == o) = true
        · simp only [h1, h2, Bool.true_or, Bool.not_true, Bool.false_eq_true, if_false, Bool.not_false, if_true, List.map_cons, List.sum_cons]
          simp only [List.contains_cons] at ih
          omega
        · simp only [h1, h2, Bool.false_or, Bool.not_false, if_true, List.map_cons, List.sum_cons]
          simp only [List.contains_cons] at ih
          omega
  induction l with
  | nil => cases hm
  | cons e l ih =>
    have hl := hmono l
    rcases List.mem_cons.1 hm with h1 | h1
    · subst h1
      unfold openRows at hl ⊢
      have hf : found.contains o = false := by simpa using ho
      simp only [List.filter_cons, List.contains_cons, hf, beq_self_eq_true, Bool.true_or, Bool.not_true, Bool.false_eq_true, if_false, Bool.not_false, if_true, List.map_cons, List.sum_cons]
      simp only [List.contains_cons] at hl
      omega
    · have := ih h1
      unfold openRows at this ⊢
      simp only [List.filter_cons, List.contains_cons] at this ⊢
      by_cases h1 : found.contains e.1 = true
      · simp only [h1, Bool.or_true, Bool.not_true, Bool.false_eq_true, if_false]
        exact this
      · by_cases h2 : (e.1 == o) = true
        · simp only [h1, h2, Bool.true_or, Bool.not_true, Bool.false_eq_true, if_false, Bool.not_false, if_true, List.map_cons, List.sum_cons]
          omega
        · simp only [h1, h2, Bool.false_or, Bool.not_false, if_true, List.map_cons, List.sum_cons]
          omega

theorem chain_loop_finishes {a : Area} (h : AreaOk a) (o0 : Pos) : ∀ (fuel : Nat) (dq found : List Pos),
    dq.length + openRows a.blocks found ≤ fuel → found.Nodup →
    (∀ q ∈ dq ++ found, ∃ b, (q, b) ∈ a.blocks) → (∀ q ∈ dq ++ found, Relation.ReflTransGen a.Adj o0 q) → o0 ∈ dq ++ found →
    (∀ q ∈ found, ∀ q', a.Adj q q' → q' ∈ dq ++ found) →
    (a.chainLoop fuel dq found).Nodup ∧ ∀ q, q ∈ a.chainLoop fuel dq found ↔ Relation.ReflTransGen a.Adj o0 q := by
  have done : ∀ found : List Pos, (∀ q ∈ [] ++ found, Relation.ReflTransGen a.Adj o0 q) → o0 ∈ [] ++ found →
      (∀ q ∈ found, ∀ q', a.Adj q q' → q' ∈ [] ++ found) → ∀ q, q ∈ found ↔ Relation.ReflTransGen a.Adj o0 q := by
    intro found h1 h2 h3 q
    refine ⟨h1 q, fun hr => ?_⟩
    induction hr with
    | refl => exact h2
    | tail _ he ih => exact h3 _ ih _ he
  intro fuel
  induction fuel with
  | zero =>
    intro dq found hf hn hb hr h0 hc
    have : dq = [] := List.length_eq_zero_iff.1 (by omega)
    subst this
    exact ⟨hn, done found hr h0 hc⟩
  | succ n ih =>
    intro dq found hf hn hb hr h0 hc
    cases dq with
    | nil => exact ⟨hn, done found hr h0 hc⟩
    | cons p dq =>
      obtain ⟨b, hpb⟩ := hb p (by simp)
      unfold Area.chainLoop
      rw [h.refAt_self hpb]
      simp only
      split
      · rename_i hpf
        have hsub : ∀ q, q ∈ p :: dq ++ found → q ∈ dq ++ found := by
          intro q hq
          rcases List.mem_append.1 hq with h1 | h1
          · rcases List.mem_cons.1 h1 with h2 | h2
            · rw [h2]; exact List.mem_append.2 (.inr hpf)
            · exact List.mem_append.2 (.inl h2)
          · exact List.mem_append.2 (.inr h1)
        have hsup : ∀ q, q ∈ dq ++ found → q ∈ p :: dq ++ found := by
          intro q hq
          rw [List.cons_append]
          exact List.mem_cons_of_mem _ hq
        refine ih dq found ?_ hn (fun q hq => hb q (hsup q hq)) (fun q hq => hr q (hsup q hq)) (hsub _ h0) (fun q hq q' hq' => hsub _ (hc q hq q' hq'))
        rw [List.length_cons] at hf
        omega
      · rename_i hpf
        have hmem : ∀ q, q ∈ (dq ++ (Area.portConns b p).filterMap (fun c => (a.findPortAt c.1 c.2).map (fun r => r.2.1))) ++ p :: found ↔
            q ∈ p :: dq ++ found ∨ a.Adj p q := by
          intro q
          simp only [List.mem_append, List.mem_cons, mem_conns h hpb]
          tauto
        refine ih _ (p :: found) ?_ (List.nodup_cons.2 ⟨hpf, hn⟩) ?_ ?_ ?_ ?_
        · have h1 := conns_length a b p
          have h2 := openRows_found a.blocks found p b hpb hpf
          rw [List.length_append]
          rw [List.length_cons] at hf
          omega
        · intro q hq
          rcases (hmem q).1 hq with h1 | h1
          · exact hb q h1
          · rcases h1 with ⟨b1, b2, _, _, _, h2, _⟩ | ⟨b1, b2, _, _, h2, _⟩
            · exact ⟨b2, h.lookup.1 h2⟩
            · exact ⟨b1, h.lookup.1 h2⟩
        · intro q hq
          rcases (hmem q).1 hq with h1 | h1
          · exact hr q h1
          · exact (hr p (by simp)).tail h1
        · exact (hmem _).2 (.inl h0)
        · intro q hq q' hq'
          rw [hmem]
          rcases List.mem_cons.1 hq with h1 | h1
          · subst h1; exact .inr hq'
          · exact .inl (hc q h1 q' hq')

theorem openRows_nil (l : Load) : openRows l [] + 1 ≤ (l.map (fun e => 2 * e.2.rows + 1)).sum + 1 := by
  unfold openRows
  induction l with
  | nil => exact Nat.le_refl _
  | cons e l ih =>
    simp only [List.filter_cons, List.contains_nil, Bool.not_false, if_true, List.map_cons, List.sum_cons] at ih ⊢
    omega

/-- The chain: the origins of the blocks connected to the one at the slot. -/
theorem chainAt_spec {a : Area} (h : AreaOk a) {p : Pos} {chain : List Pos} (hc : a.chainAt p = some chain) :
    ∃ o b, a.refAtOrigin p = some (b, o) ∧ chain.Nodup ∧ ∀ q, q ∈ chain ↔ Relation.ReflTransGen a.Adj o q := by
  unfold Area.chainAt at hc
  cases hr : a.refAtOrigin p with
  | none => rw [hr] at hc; cases hc
  | some r =>
    obtain ⟨b, o⟩ := r
    rw [hr] at hc
    simp only [Option.some.injEq] at hc
    subst hc
    have hm := (h.refAt_some.1 hr).1
    refine ⟨o, b, rfl, ?_⟩
    refine chain_loop_finishes h o a.chainFuel [o] [] ?_ List.nodup_nil ?_ ?_ (by simp) ?_
    · have := openRows_nil a.blocks
      unfold Area.chainFuel
      simp only [List.length_singleton]
      omega
    · intro q hq
      have : q = o := by simpa using hq
      subst this
      exact ⟨b, hm⟩
    · intro q hq
      have : q = o := by simpa using hq
      subst this
      exact .refl
    · intro q hq; cases hq

/-! ## Taking a chain out -/

theorem removeFold_keys (chain : List Pos) : ∀ (s : Load × Area), AreaOk s.2 → chain.Nodup → (∀ p ∈ chain, ∃ b, (p, b) ∈ s.2.blocks) →
    let r := chain.foldl (fun (s : Load × Area) p =>
      match s.2.removeAt p with
      | none => s
      | some (b, o, a) => (s.1 ++ [(o, b)], a)) s
    r.2.blocks = s.2.blocks.filter (fun e => !(chain.contains e.1)) := by
  induction chain with
  | nil =>
    intro s _ _ _
    simp only [List.foldl_nil, List.contains_nil, Bool.not_false]
    rw [List.filter_eq_self.2 (fun _ _ => rfl)]
  | cons p chain ih =>
    intro s hok hn hk
    obtain ⟨b, hb⟩ := hk p (by simp)
    rw [List.nodup_cons] at hn
    have hrem : s.2.removeAt p = some (b, p, ({ s.2 with blocks := s.2.blocks.filter (fun e => !(e.1 == p)) } : Area).updateOrigin) := by
      unfold Area.removeAt; rw [hok.refAt_self hb]
    obtain ⟨_, _, hok', _, hbl, _⟩ := removeAt_some hok hrem
    simp only at hok' hbl
    simp only [List.foldl_cons, hrem]
    have := ih (s.1 ++ [(p, b)], ({ s.2 with blocks := s.2.blocks.filter (fun e => !(e.1 == p)) } : Area).updateOrigin) hok' hn.2 (by
      intro q hq
      obtain ⟨b', hb'⟩ := hk q (by simp [hq])
      refine ⟨b', ?_⟩
      simp only [hbl]
      rw [List.mem_filter]
      refine ⟨hb', ?_⟩
      have : q ≠ p := fun he => hn.1 (he ▸ hq)
      simpa using this)
    simp only at this
    rw [this, hbl, List.filter_filter]
    refine List.filter_congr ?_
    intro e _
    simp only [List.contains_cons, Bool.not_or]
    exact Bool.and_comm _ _

theorem lookup_filter (l : Load) (c : Pos → Bool) (q : Pos) :
    (l.filter (fun e => !(c e.1))).lookup q = if c q = true then none else l.lookup q := by
  induction l with
  | nil => simp
  | cons e l ih =>
    obtain ⟨k, b⟩ := e
    rw [List.filter_cons]
    by_cases hk : q = k
    · subst hk
      cases hc : c q with
      | true =>
        rw [hc] at ih
        simpa using ih
      | false => simp
    · have hk' : (q == k) = false := by simpa using hk
      cases hc : c k with
      | true =>
        simp only [Bool.not_true, Bool.false_eq_true, if_false, ih, List.lookup_cons, hk']
      | false =>
        simp only [Bool.not_false, if_true, ih, List.lookup_cons, hk']

/-- What is left and what is taken out. -/
theorem removeLoad_chain {a : Area} (h : AreaOk a) {chain : List Pos} (hn : chain.Nodup) (hk : ∀ p ∈ chain, ∃ b, (p, b) ∈ a.blocks) :
    (∀ q, (removeLoad a chain).2.blocks.lookup q = if q ∈ chain then none else a.blocks.lookup q) ∧
    ∀ q, (removeLoad a chain).1.lookup q = if q ∈ chain then a.blocks.lookup q else none := by
  have hrest : (removeLoad a chain).2.blocks = a.blocks.filter (fun e => !(chain.contains e.1)) := removeFold_keys chain ([], a) h hn hk
  have hlook : ∀ q, (removeLoad a chain).2.blocks.lookup q = if q ∈ chain then none else a.blocks.lookup q := by
    intro q
    rw [hrest, lookup_filter a.blocks (fun p => chain.contains p) q]
    simp
  refine ⟨hlook, ?_⟩
  obtain ⟨hok, hp⟩ := removeLoad_ok h chain
  have hall : LoadOk ((removeLoad a chain).1 ++ (removeLoad a chain).2.blocks) := h.load.perm hp.symm
  have hload : LoadOk (removeLoad a chain).1 := hall.left
  intro q
  refine Option.ext ?_
  intro b
  rw [← mem_iff_lookup hload.keys]
  have hmemb : (q, b) ∈ a.blocks ↔ (q, b) ∈ (removeLoad a chain).1 ∨ (q, b) ∈ (removeLoad a chain).2.blocks := by
    rw [← hp.mem_iff, List.mem_append]
  have hr := mem_iff_lookup hok.load.keys q b
  rw [hlook q] at hr
  have hnot : (q, b) ∈ (removeLoad a chain).1 → q ∈ chain := by
    intro h1
    refine Classical.byContradiction fun hq => ?_
    rw [if_neg hq] at hr
    have h2 := hr.2 ((mem_iff_lookup h.load.keys q b).1 (hmemb.2 (.inl h1)))
    have := (List.pairwise_append.1 hall.apart).2.2 _ h1 _ h2
    exact this q (covers_self (hload.rows _ h1)) (covers_self (hload.rows _ h1))
  by_cases hq : q ∈ chain
  · rw [if_pos hq] at hr ⊢
    rw [← mem_iff_lookup h.load.keys, hmemb]
    constructor
    · intro h1; exact .inl h1
    · rintro (h1 | h1)
      · exact h1
      · exact absurd (hr.1 h1) (by simp)
  · rw [if_neg hq]
    constructor
    · intro h1; exact absurd (hnot h1) hq
    · intro h1; cases h1

theorem moveByOffs_lookup (l : Load) (x y : Int) (q : Pos) : (moveByOffs l x y).lookup q = l.lookup (q.1 - x, q.2 - y) := by
  unfold moveByOffs
  induction l with
  | nil => rfl
  | cons e l ih =>
    obtain ⟨k, b⟩ := e
    simp only [List.map_cons, List.lookup_cons, ih]
    have : (q == (k.1 + x, k.2 + y)) = ((q.1 - x, q.2 - y) == k) := by
      rw [Bool.eq_iff_iff, beq_iff_eq, beq_iff_eq, Prod.ext_iff, Prod.ext_iff]
      simp only
      omega
    rw [this]

theorem perm_lookup {l l' : Load} (h : l.Perm l') (hk : KeysNodup l) (q : Pos) : l.lookup q = l'.lookup q := by
  have hk' : KeysNodup l' := by
    unfold KeysNodup at hk ⊢
    exact (h.map _).nodup_iff.1 hk
  refine Option.ext ?_
  intro b
  rw [← mem_iff_lookup hk, ← mem_iff_lookup hk', h.mem_iff]

theorem lookup_append' (l l' : Load) (q : Pos) : (l ++ l').lookup q = (l.lookup q).or (l'.lookup q) := by
  induction l with
  | nil => simp
  | cons e l ih =>
    obtain ⟨k, b⟩ := e
    rw [List.cons_append, List.lookup_cons, List.lookup_cons, ih]
    cases (q == k) <;> simp

/-- Setting a load down: its blocks shifted by some offset, and the blocks of the area. -/
theorem place_lookup {a : Area} {l l' : Load} (h : AreaOk a) (hl : LoadOk l) (ht : tryFit a l = some l') :
    ∃ d : Pos, ∀ q, (a.setBlocksFrom l').blocks.lookup q = (l.lookup (q.1 - d.1, q.2 - d.2)).or (a.blocks.lookup q) := by
  obtain ⟨hl', hs, _⟩ := tryFit_ok hl ht
  obtain ⟨hok, hp⟩ := setBlocksFrom_ok h hl' hs
  unfold tryFit at ht
  rw [Option.map_eq_some_iff] at ht
  obtain ⟨d, _, rfl⟩ := ht
  refine ⟨d, ?_⟩
  intro q
  rw [perm_lookup hp hok.load.keys, lookup_append', moveByOffs_lookup]

theorem normalizeLoad_lookup {l : Load} (h : LoadOk l) : ∃ d : Pos, ∀ q, (normalizeLoad l).1.lookup q = l.lookup (q.1 - d.1, q.2 - d.2) := by
  unfold normalizeLoad
  refine ⟨(-(l.foldl (fun m e => min m e.1.1) 100000000), -(l.foldl (fun m e => min m e.1.2) 100000000)), ?_⟩
  intro q
  rw [perm_lookup (sortLoad_perm _) ((moveByOffs_ok h _ _).perm (sortLoad_perm _).symm).keys, moveByOffs_lookup]

end HexoDSP.Block
