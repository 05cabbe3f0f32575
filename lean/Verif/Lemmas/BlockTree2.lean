import Verif.Lemmas.BlockTree
/-! The tree of a whole diagram, and the order of the effects. -/

set_option linter.unusedSectionVars false
set_option linter.dupNamespace false

namespace HexoDSP.Block

/-! ## The order of the effects -/

/-- Strictly before: higher, or in the same row further left. -/
def Before (s t : Sink) : Prop := s.2.1 < t.2.1 ∨ (s.2.1 = t.2.1 ∧ s.1 < t.1)

theorem mem_insertSink {s t : Sink} {l : List Sink} : t ∈ insertSink s l ↔ t = s ∨ t ∈ l := by
  induction l with
  | nil => simp [insertSink]
  | cons x l ih =>
    unfold insertSink
    split
    · simp
    · simp only [List.mem_cons, ih]
      tauto

theorem mem_sortSinks {t : Sink} {l : List Sink} : t ∈ l.foldr insertSink [] ↔ t ∈ l := by
  induction l with
  | nil => simp
  | cons x l ih => simp only [List.foldr_cons, mem_insertSink, ih, List.mem_cons]

/-- Two effects at the same place are the same. -/
def SinkKey (l : List Sink) : Prop := l.Pairwise (fun s t => (s.1, s.2.1) ≠ (t.1, t.2.1))

theorem insertSink_sorted {s : Sink} {l : List Sink} (h : l.Pairwise (fun s t => Before t s))
    (hne : ∀ t ∈ l, (s.1, s.2.1) ≠ (t.1, t.2.1)) : (insertSink s l).Pairwise (fun s t => Before t s) := by
  induction l with
  | nil => simp [insertSink]
  | cons x l ih =>
    rw [List.pairwise_cons] at h
    unfold insertSink
    have hx := hne x List.mem_cons_self
    have hx' : ¬ (s.1 = x.1 ∧ s.2.1 = x.2.1) := by
      rintro ⟨h1, h2⟩; exact hx (by rw [h1, h2])
    split
    · rename_i hle
      simp only [sinkLe, decide_eq_true_eq] at hle
      have hb : Before x s := by unfold Before; omega
      rw [List.pairwise_cons, List.pairwise_cons]
      refine ⟨?_, h⟩
      intro t ht
      rcases List.mem_cons.1 ht with rfl | ht
      · exact hb
      · have := h.1 t ht
        unfold Before at *
        omega
    · rename_i hle
      simp only [sinkLe, decide_eq_true_eq] at hle
      have hb : Before s x := by unfold Before; omega
      rw [List.pairwise_cons]
      refine ⟨?_, ih h.2 (fun t ht => hne t (List.mem_cons_of_mem _ ht))⟩
      intro t ht
      rcases mem_insertSink.1 ht with rfl | ht
      · exact hb
      · exact h.1 t ht

theorem sortSinks_sorted {l : List Sink} (h : SinkKey l) : (l.foldr insertSink []).Pairwise (fun s t => Before t s) := by
  induction l with
  | nil => simp
  | cons x l ih =>
    unfold SinkKey at h
    rw [List.pairwise_cons] at h
    exact insertSink_sorted (ih h.2) (fun t ht => h.1 t (mem_sortSinks.1 ht))

theorem mem_inputRows {b : Block} {r : Nat} : r ∈ b.inputRows ↔ r < b.rows ∧ (b.inputs.getD r none).isSome = true := by
  simp [Block.inputRows]

theorem mem_outputRows {b : Block} {r : Nat} : r ∈ b.outputRows ↔ r < b.rows ∧ (b.outputs.getD r none).isSome = true := by
  simp [Block.outputRows]

/-- The block at `o'` has an input at the slot to the right of `p`. -/
def Consumes (a : Area) (p : Pos) (o : Pos) (b : Block) : Prop :=
  (o, b) ∈ a.blocks ∧ ∃ r ∈ b.inputRows, o.1 = p.1 + 1 ∧ o.2 + (r : Int) = p.2

/-- Every block has only the ports of its rows. -/
def Area.Trim (a : Area) : Prop := ∀ e ∈ a.blocks, e.2.inputs.length ≤ e.2.rows ∧ e.2.outputs.length ≤ e.2.rows

theorem findInput_none {a : Area} (ha : AreaOk a) (p : Pos) :
    (a.findPortAt (p.1 + 1, p.2) false).isNone = true ↔ ∀ o b, ¬ Consumes a p o b := by
  unfold Area.findPortAt
  constructor
  · intro h o b ⟨hb, r, hr, h1, h2⟩
    have hr' := mem_inputRows.1 hr
    have hc : Covers o b (p.1 + 1, p.2) := ⟨h1.symm, by show o.2 ≤ p.2; omega, by show p.2 < o.2 + (b.rows : Int); omega⟩
    rw [refAtOrigin_of ha hb hc] at h
    simp only [Bool.false_eq_true, if_false] at h
    have he : (max (p.2 - o.2) 0).toNat = r := by omega
    rw [he, if_pos hr'.2] at h
    cases h
  · intro h
    cases hr : a.refAtOrigin (p.1 + 1, p.2) with
    | none => rfl
    | some bo =>
      obtain ⟨b, o⟩ := bo
      obtain ⟨hb, h1, h2, h3⟩ := refAtOrigin_mem ha hr
      simp only [Bool.false_eq_true, if_false]
      split
      · rename_i hs
        exfalso
        simp only at h1 h2 h3
        refine h o b ⟨hb, (max (p.2 - o.2) 0).toNat, mem_inputRows.2 ⟨by omega, hs⟩, h1.symm, by omega⟩
      · rfl

theorem mem_sinksOf {a : Area} (ha : AreaOk a) {e : Pos × Block} (_ : e ∈ a.blocks) {s : Sink} :
    s ∈ a.sinksOf e ↔ s.1 = e.1.1 ∧
    ((e.2.outputRows = [] ∧ s.2.1 = e.1.2 ∧ s.2.2 = none) ∨
     ∃ r ∈ e.2.outputRows, s.2.1 = e.1.2 + (r : Int) ∧ s.2.2 = some r ∧ ∀ o b, ¬ Consumes a (s.1, s.2.1) o b) := by
  obtain ⟨x, y, k⟩ := s
  unfold Area.sinksOf Block.countOutputs
  by_cases h0 : e.2.outputRows.length = 0
  · rw [if_pos h0]
    have h0' := List.length_eq_zero_iff.1 h0
    simp [h0']
  · rw [if_neg h0]
    have h0' : e.2.outputRows ≠ [] := fun hh => h0 (by rw [hh]; rfl)
    simp only [h0', false_and, false_or, List.mem_map, List.mem_filter, Prod.mk.injEq]
    constructor
    · rintro ⟨r, ⟨hr, hn⟩, rfl, rfl, rfl⟩
      exact ⟨rfl, r, hr, rfl, rfl, (findInput_none ha (e.1.1, e.1.2 + (r : Int))).1 hn⟩
    · rintro ⟨rfl, r, hr, rfl, rfl, hn⟩
      exact ⟨r, ⟨hr, (findInput_none ha (e.1.1, e.1.2 + (r : Int))).2 hn⟩, rfl, rfl, rfl⟩

theorem hasSink_iff {a : Area} (ha : AreaOk a) (s : Sink) : a.HasSink s ↔ ∃ e ∈ a.blocks, s ∈ a.sinksOf e := by
  constructor
  · rintro ⟨o, b, hb, h1, h2⟩
    refine ⟨(o, b), hb, (mem_sinksOf ha hb).2 ⟨h1, ?_⟩⟩
    rcases h2 with h2 | ⟨r, hr, h3, h4, h5⟩
    · exact .inl h2
    · refine .inr ⟨r, hr, h3, h4, ?_⟩
      rintro o' b' ⟨hb', r', hr', h6, h7⟩
      exact h5 o' b' r' hb' hr' ⟨by rw [h6, h1], h7⟩
  · rintro ⟨e, he, hs⟩
    obtain ⟨h1, h2⟩ := (mem_sinksOf ha he).1 hs
    refine ⟨e.1, e.2, he, h1, ?_⟩
    rcases h2 with h2 | ⟨r, hr, h3, h4, h5⟩
    · exact .inl h2
    · refine .inr ⟨r, hr, h3, h4, ?_⟩
      rintro o' b' r' hb' hr' ⟨h6, h7⟩
      exact h5 o' b' ⟨hb', r', hr', by rw [h6, h1], h7⟩

theorem sink_covered {a : Area} (ha : AreaOk a) {e : Pos × Block} (he : e ∈ a.blocks) {s : Sink} (hs : s ∈ a.sinksOf e) :
    Covers e.1 e.2 (s.1, s.2.1) := by
  obtain ⟨h1, h2⟩ := (mem_sinksOf ha he).1 hs
  rcases h2 with ⟨-, h2, -⟩ | ⟨r, hr, h3, -⟩
  · have := ha.load.rows e he
    exact ⟨h1, by show e.1.2 ≤ s.2.1; omega, by show s.2.1 < _; omega⟩
  · have := (mem_outputRows.1 hr).1
    exact ⟨h1, by show e.1.2 ≤ s.2.1; omega, by show s.2.1 < _; omega⟩

theorem sinks_key {a : Area} (ha : AreaOk a) : SinkKey (a.blocks.flatMap a.sinksOf) := by
  unfold SinkKey
  rw [List.pairwise_flatMap]
  refine ⟨?_, ?_⟩
  · intro e he
    unfold Area.sinksOf
    split
    · simp
    · rw [List.pairwise_map]
      have hnd : (e.2.outputRows.filter (fun (r : Nat) => (a.findPortAt (e.1.1 + 1, e.1.2 + (r : Int)) false).isNone)).Nodup := by
        apply List.Nodup.filter
        unfold Block.outputRows
        exact List.Nodup.filter _ List.nodup_range
      refine List.Pairwise.imp ?_ hnd
      intro r r' hne hh
      simp only [Prod.mk.injEq, true_and] at hh
      omega
  · have hp := ha.load.apart
    refine List.Pairwise.imp_of_mem ?_ hp
    intro e e' he he' hap s hs t ht hh
    exact hap _ (sink_covered ha he hs) (by rw [hh]; exact sink_covered ha he' ht)

theorem collectSinks_order {a : Area} (ha : AreaOk a) : a.SinkOrder a.collectSinks.reverse := by
  constructor
  · intro s
    rw [List.mem_reverse, Area.collectSinks, mem_sortSinks, List.mem_flatMap, hasSink_iff ha]
  · rw [List.pairwise_reverse]
    exact sortSinks_sorted (sinks_key ha)

theorem sorted_unique : ∀ (l l' : List Sink), l.Pairwise Before → l'.Pairwise Before → (∀ s, s ∈ l ↔ s ∈ l') → l = l' := by
  intro l
  induction l with
  | nil =>
    intro l' _ _ h
    cases l' with
    | nil => rfl
    | cons x l' => exact absurd ((h x).2 List.mem_cons_self) (by simp)
  | cons x l ih =>
    intro l' h1 h2 h
    cases l' with
    | nil => exact absurd ((h x).1 List.mem_cons_self) (by simp)
    | cons y l' =>
      rw [List.pairwise_cons] at h1 h2
      have irr : ∀ s : Sink, ¬ Before s s := by intro s; unfold Before; omega
      have hxy : x = y := by
        rcases List.mem_cons.1 ((h x).1 List.mem_cons_self) with h3 | h3
        · exact h3
        · rcases List.mem_cons.1 ((h y).2 List.mem_cons_self) with h4 | h4
          · exact h4.symm
          · have := h1.1 y h4
            have := h2.1 x h3
            unfold Before at *
            omega
      subst hxy
      rw [ih l' h1.2 h2.2]
      intro s
      constructor
      · intro hs
        rcases List.mem_cons.1 ((h s).1 (List.mem_cons_of_mem _ hs)) with h3 | h3
        · exact absurd (h1.1 s hs) (h3 ▸ irr _)
        · exact h3
      · intro hs
        rcases List.mem_cons.1 ((h s).2 (List.mem_cons_of_mem _ hs)) with h3 | h3
        · exact absurd (h2.1 s hs) (h3 ▸ irr _)
        · exact h3

theorem sinkOrder_unique {a : Area} {l l' : List Sink} (h : a.SinkOrder l) (h' : a.SinkOrder l') : l = l' :=
  sorted_unique l l' h.2 h'.2 (fun s => (h.1 s).trans (h'.1 s).symm)

/-! ## The whole tree -/

/-- Another effect in front. -/
theorem inv_push {a : Area} {nt : String} {ss : List Sink} {g : Gen} {js : List Job} {κ : List Key}
    (h : TreeInv a (keyGraph a nt ss) g js κ) {an : Nat} (hu : ∀ r, κ[r]? = some .area ↔ r = an)
    (hn : ∀ n, g.heap[an]? = some n → n.nodes = []) {k : Sink} {j : Job} (hout : j.out = an) (hkid : j.kid a κ = sinkKid k)
    (hv : j.Valid a κ.length) : TreeInv a (keyGraph a nt (k :: ss)) g (j :: js) κ := by
  refine ⟨h.len, ?_, ?_, h.refs, h.multi, ?_⟩
  · intro r n k' h1 h2
    rw [h.info r n k' h1 h2]
    cases k' <;> rfl
  · intro r n k' h1 h2
    have h3 := h.kids r n k' h1 h2
    by_cases hr : r = an
    · subst hr
      have h4 := hn n h1
      have hp : pend a κ (j :: js) r = sinkKid k :: pend a κ js r := by
        simp only [pend, List.filterMap_cons, if_pos hout, hkid]
      rw [h4, List.map_nil, List.nil_append] at h3 ⊢
      rw [hp, h3]
      have h5 := (hu r).2 rfl
      rw [h2] at h5
      cases h5
      rfl
    · have hp : pend a κ (j :: js) r = pend a κ js r := by
        simp only [pend, List.filterMap_cons]
        rw [if_neg (by rw [hout]; exact fun hh => hr hh.symm)]
      rw [hp, h3]
      cases k' with
      | area => exact absurd ((hu r).1 h2) hr
      | _ => rfl
  · intro j' hj'
    rcases List.mem_cons.1 hj' with rfl | hj'
    · exact hv
    · exact h.valid j' hj'

theorem fold_sinks {a : Area} {nt : String} {an : Nat} : ∀ (l : List Sink),
    (∀ s ∈ l, s.2.2 = none → ∃ b, ((s.1, s.2.1), b) ∈ a.blocks) → ∀ {ss : List Sink} {g : Gen} {js : List Job} {κ : List Key},
    TreeInv a (keyGraph a nt ss) g js κ → (∀ r, κ[r]? = some .area ↔ r = an) → (∀ n, g.heap[an]? = some n → n.nodes = []) →
    g.multi = [] →
    ∃ κ', TreeInv a (keyGraph a nt (l.reverse ++ ss)) (l.foldl (Gen.pushSink 0 an) (g, js)).1 (l.foldl (Gen.pushSink 0 an) (g, js)).2 (κ ++ κ') ∧
      (l.foldl (Gen.pushSink 0 an) (g, js)).1.multi = [] := by
  intro l
  induction l with
  | nil => intro _ ss g js κ h _ _ hm; exact ⟨[], by simpa using h, hm⟩
  | cons k l ih =>
    intro hb ss g js κ h hu hn hm
    have hb' : ∀ s ∈ l, s.2.2 = none → ∃ b, ((s.1, s.2.1), b) ∈ a.blocks := fun s hs => hb s (List.mem_cons_of_mem _ hs)
    have han : an < κ.length := by
      have := (hu an).2 rfl
      by_contra hh
      rw [List.getElem?_eq_none (by omega)] at this
      cases this
    rw [List.foldl_cons, List.reverse_cons, List.append_assoc, List.singleton_append]
    cases hk : k.2.2 with
    | none =>
      have h1 := inv_push h hu hn (k := k) (j := .sink 0 (k.1, k.2.1) an) rfl (by simp only [Job.kid, sinkKid, hk])
        ⟨rfl, han, hb k List.mem_cons_self hk⟩
      have hs : Gen.pushSink 0 an (g, js) k = (g, .sink 0 (k.1, k.2.1) an :: js) := by simp only [Gen.pushSink, hk]
      rw [hs]
      exact ih hb' h1 hu hn hm
    | some row =>
      have h0 := inv_alloc h (.res (k.1, k.2.1)) (js' := [.output 0 (k.1, k.2.1) "" g.heap.length])
        (by intro j hj; rw [List.mem_singleton] at hj; rw [hj]; rfl)
        (by intro j hj; rw [List.mem_singleton] at hj; rw [hj]; exact ⟨rfl, by rw [h.len]; exact Nat.lt_succ_self _⟩)
        rfl
      have hu' : ∀ r, (κ ++ [Key.res (k.1, k.2.1)])[r]? = some .area ↔ r = an := by
        intro r
        rw [← hu r]
        rcases Nat.lt_or_ge r κ.length with hlt | hge
        · rw [List.getElem?_append_left hlt]
        · rw [List.getElem?_append_right hge, List.getElem?_eq_none hge]
          cases r - κ.length <;> simp
      have hn' : ∀ n, (g.heap ++ [⟨0, "<res>", "", []⟩])[an]? = some n → n.nodes = [] := by
        intro n hn2
        rw [List.getElem?_append_left (by rw [← h.len]; exact han)] at hn2
        exact hn n hn2
      have h1 := inv_push h0 hu' hn' (k := k) (j := .node g.heap.length an) rfl
        (by
          simp only [Job.kid, sinkKid, hk]
          rw [List.getD_eq_getElem?_getD, ← h.len, List.getElem?_append_right (Nat.le_refl _), Nat.sub_self]
          rfl)
        ⟨by simp [h.len], by simp; omega⟩
      have hs : Gen.pushSink 0 an (g, js) k =
          ((g.alloc 0 "<res>" "").1, .node g.heap.length an :: ([.output 0 (k.1, k.2.1) "" g.heap.length] ++ js)) := by
        simp only [Gen.pushSink, hk]; rfl
      rw [hs]
      obtain ⟨κ', h2, h3⟩ := ih hb' h1 hu' hn' hm
      refine ⟨Key.res (k.1, k.2.1) :: κ', ?_, h3⟩
      rw [List.append_assoc] at h2
      exact h2

/-- The tree stands for the diagram. -/
structure TreeOf (a : Area) (G : Graph Key) (heap : List JNode) (κ : List Key) : Prop where
  root : κ[0]? = some .root
  len : κ.length = heap.length
  info : ∀ r, r < heap.length → (heapGraph heap).info r = G.info (κ.getD r .zero)
  kids : ∀ r, r < heap.length → ((heapGraph heap).kids r).map (fun c => (c.1, c.2.1, κ.getD c.2.2 .zero)) = G.kids (κ.getD r .zero)
  refs : ∀ r, r < heap.length → ∀ c ∈ (heapGraph heap).kids r, c.2.2 < heap.length

theorem generateTree_ok {a : Area} (ha : AreaOk a) (hf : a.Flat) {f : BlockFun} (hfa : f.areas[0]? = some a) {L : Lang} {t : BlockType}
    (hL : L "zero" = some t) : ∃ N, ∀ fuel, N ≤ fuel → ∃ heap κ, f.generateTree L fuel "zero" = some (.ok heap) ∧
      TreeOf a (keyGraph a t.name a.collectSinks.reverse) heap κ := by
  have base : TreeInv a (keyGraph a t.name []) ⟨[⟨0, "<r>", "", [("", "", 1)]⟩, ⟨0, "<a>", "", []⟩], []⟩ [] [.root, .area] := by
    have two : ∀ (r : Nat) (n : JNode), ([⟨0, "<r>", "", [("", "", 1)]⟩, ⟨0, "<a>", "", []⟩] : List JNode)[r]? = some n → r = 0 ∨ r = 1 := by
      intro r n hr
      by_contra hh
      rw [List.getElem?_eq_none (by simp; omega)] at hr
      cases hr
    refine ⟨rfl, ?_, ?_, ?_, ?_, ?_⟩
    · intro r n k h1 h2
      rcases two r n h1 with rfl | rfl <;> · cases h1; cases h2; rfl
    · intro r n k h1 h2
      rcases two r n h1 with rfl | rfl <;> · cases h1; cases h2; rfl
    · intro r n h1 c hc
      rcases two r n h1 with rfl | rfl
      · cases h1
        simp only [List.mem_singleton] at hc
        rw [hc]; decide
      · cases h1; cases hc
    · intro o r hr; cases hr
    · intro j hj; cases hj
  have hu : ∀ r, ([Key.root, Key.area] : List Key)[r]? = some .area ↔ r = 1 := by
    intro r
    match r with
    | 0 => simp
    | 1 => simp
    | r + 2 => simp
  have hsb : ∀ s ∈ a.collectSinks, s.2.2 = none → ∃ b, ((s.1, s.2.1), b) ∈ a.blocks := by
    intro s hs hnone
    rw [Area.collectSinks, mem_sortSinks, List.mem_flatMap] at hs
    obtain ⟨e, he, hs⟩ := hs
    obtain ⟨h1, h2⟩ := (mem_sinksOf ha he).1 hs
    rcases h2 with ⟨-, h2, -⟩ | ⟨r, -, -, h3, -⟩
    · exact ⟨e.2, by rw [h1, h2]; exact he⟩
    · rw [hnone] at h3; cases h3
  obtain ⟨κ', h1, h2⟩ := fold_sinks (nt := t.name) (an := 1) a.collectSinks hsb base hu
    (by intro n hn; cases hn; rfl) rfl
  generalize hst : a.collectSinks.foldl (Gen.pushSink 0 1) (⟨[⟨0, "<r>", "", [("", "", 1)]⟩, ⟨0, "<a>", "", []⟩], []⟩, []) = st at h1 h2
  rw [List.append_nil] at h1
  refine ⟨st.2.length + work a st.1.multi + 1, ?_⟩
  intro fuel hfu
  obtain ⟨g', κ2, h3, h4⟩ := loop_inv ha hf hfa (fuel - 1) h1 (by omega)
  refine ⟨g'.heap, [.root, .area] ++ κ' ++ κ2, ?_, ?_⟩
  · obtain ⟨m, rfl⟩ : ∃ m, fuel = m + 1 := ⟨fuel - 1, by omega⟩
    rw [Nat.add_sub_cancel] at h3
    unfold BlockFun.generateTree
    rw [hL]
    simp only [Gen.loop, Gen.step, hfa, Gen.alloc, Gen.add]
    have e : (([⟨0, "<r>", "", []⟩] ++ [⟨0, "<a>", "", []⟩] : List JNode).modify 0
        (fun n => { n with nodes := n.nodes ++ [("", "", [(⟨0, "<r>", "", []⟩ : JNode)].length)] })) =
        [⟨0, "<r>", "", [("", "", 1)]⟩, ⟨0, "<a>", "", []⟩] := rfl
    rw [e]
    have e2 : ([(⟨0, "<r>", "", []⟩ : JNode)] : List JNode).length = 1 := rfl
    rw [e2, hst, h3]
    rfl
  · have hget : ∀ r, r < g'.heap.length → ∃ n k, g'.heap[r]? = some n ∧ ([.root, .area] ++ κ' ++ κ2)[r]? = some k := by
      intro r hr
      exact ⟨_, _, List.getElem?_eq_getElem hr, List.getElem?_eq_getElem (by rw [h4.len]; exact hr)⟩
    refine ⟨by simp, h4.len, ?_, ?_, ?_⟩
    · intro r hr
      obtain ⟨n, k, hn, hk⟩ := hget r hr
      rw [List.getD_eq_getElem?_getD, hk]
      simp only [heapGraph, hn]
      exact h4.info r n k hn hk
    · intro r hr
      obtain ⟨n, k, hn, hk⟩ := hget r hr
      rw [List.getD_eq_getElem?_getD, hk]
      simp only [heapGraph, hn]
      have := h4.kids r n k hn hk
      simpa [pend] using this
    · intro r hr c hc
      obtain ⟨n, k, hn, hk⟩ := hget r hr
      simp only [heapGraph, hn] at hc
      rw [← h4.len]
      exact h4.refs r n hn c hc

/-! ## Compiling the tree is compiling the diagram -/

section
variable {F : Type}

theorem transKids_congr {α β : Type} {t : α → Option String → CS → Except CErr (Blk F × CS)}
    {t' : β → Option String → CS → Except CErr (Blk F × CS)} {φ : α → β} : ∀ (ks : List (String × String × α)),
    (∀ c ∈ ks, ∀ o cs, t c.2.2 o cs = t' (φ c.2.2) o cs) → ∀ (cs : CS),
    transKids t ks cs = transKids t' (ks.map (fun c => (c.1, c.2.1, φ c.2.2))) cs := by
  intro ks
  induction ks with
  | nil => intro _ cs; rfl
  | cons k ks ih =>
    intro h cs
    simp only [transKids, List.map_cons, h k List.mem_cons_self]
    cases t' (φ k.2.2) (portOpt k.2.1) cs with
    | error e => rfl
    | ok r =>
      simp only
      rw [ih (fun c hc => h c (List.mem_cons_of_mem _ hc))]

theorem trans_hom {a : Area} {G : Graph Key} {heap : List JNode} {κ : List Key} (h : TreeOf a G heap κ) (L : Lang)
    (parse : String → Option F) : ∀ (n r : Nat), r < heap.length → ∀ (o : Option String) (cs : CS),
    trans L parse (heapGraph heap) n r o cs = trans L parse G n (κ.getD r .zero) o cs := by
  intro n
  induction n with
  | zero => intro r _ o cs; rfl
  | succ n ih =>
    intro r hr o cs
    have hk := h.kids r hr
    have hkids := fun cs => transKids_congr (t := trans L parse (heapGraph heap) n) (t' := trans L parse G n)
      (φ := fun r => κ.getD r .zero) ((heapGraph heap).kids r) (fun c hc o cs => ih c.2.2 (h.refs r hr c hc) o cs) cs
    have hfst : ((heapGraph heap).kids r).map (fun k => portOpt k.1) = (G.kids (κ.getD r .zero)).map (fun k => portOpt k.1) := by
      rw [← hk, List.map_map]; rfl
    simp only [trans]
    rw [h.info r hr, hkids, hk, hfst]
    cases hh : (heapGraph heap).kids r with
    | nil =>
      rw [hh] at hk
      rw [← hk]
      rfl
    | cons c cs' =>
      have hc : c ∈ (heapGraph heap).kids r := by rw [hh]; exact List.mem_cons_self
      rw [hh] at hk
      rw [← hk]
      simp only [List.map_cons, ih c.2.2 (h.refs r hr c hc)]

end

end HexoDSP.Block
