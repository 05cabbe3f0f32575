import Verif.Lemmas.BlockSim
/-! Every block of a diagram runs exactly once. -/

set_option linter.unusedSectionVars false
set_option linter.dupNamespace false

namespace HexoDSP.Block

section
variable {F S : Type} {a : Area} {L : Lang} {parse : String → Option F} {M : Machine F S} {cnt : S → Nat → Nat} {c0 : Nat → Nat}

/-- The block with this id calls a node. -/
def NodeId (a : Area) (i : Nat) : Prop := ∃ o b, (o, b) ∈ a.blocks ∧ b.id = i ∧ b.IsNode

/-- During a run. -/
structure RInv (a : Area) (cnt : S → Nat → Nat) (c0 : Nat → Nat) (r : Run F S) : Prop where
  ran : ∀ i, (r.done i).isSome = true → NodeId a i → cnt r.mem i = c0 i + 1
  idle : ∀ i, ¬ ((r.done i).isSome = true ∧ NodeId a i) → cnt r.mem i = c0 i
  closed : ∀ o b, (o, b) ∈ a.blocks → (r.done b.id).isSome = true → ∀ e ∈ b.sources o, ∀ o' b', a.refAtOrigin e.2 = some (b', o') →
    (b'.outputs.getD (e.2.2 - o'.2).toNat none).isSome = true → (r.done b'.id).isSome = true

/-- What a part of a run may do. -/
structure RStep (a : Area) (cnt : S → Nat → Nat) (c0 : Nat → Nat) (X : Int) (r r' : Run F S) : Prop where
  inv : RInv a cnt c0 r'
  mono : ∀ i, (r.done i).isSome = true → (r'.done i).isSome = true
  new : ∀ i, (r'.done i).isSome = true → (r.done i).isSome = true ∨ ∃ o b, (o, b) ∈ a.blocks ∧ b.id = i ∧ o.1 ≤ X

theorem RStep.refl {X : Int} {r : Run F S} (h : RInv a cnt c0 r) : RStep a cnt c0 X r r := ⟨h, fun _ h => h, fun _ h => .inl h⟩

theorem RStep.trans {X : Int} {r r' r'' : Run F S} (h : RStep a cnt c0 X r r') (h' : RStep a cnt c0 X r' r'') : RStep a cnt c0 X r r'' := by
  refine ⟨h'.inv, fun i hi => h'.mono i (h.mono i hi), ?_⟩
  intro i hi
  rcases h'.new i hi with g | g
  · exact h.new i g
  · exact .inr g

theorem effect_done (b : Block) (ins : List (String × F)) (r : Run F S) : (b.effect M L parse ins r).2.done = r.done := by
  unfold Block.effect
  split
  · rfl
  split
  · rfl
  split
  · rfl
  split
  · rfl
  split
  · rfl
  split
  · rfl
  · simp only
    split <;> rfl

theorem effect_count (hc : M.Counts cnt) {b : Block} (hb : ∃ t, L b.typ = some t) (ins : List (String × F)) (r : Run F S) (i : Nat) :
    (b.IsNode → cnt (b.effect M L parse ins r).2.mem i = cnt r.mem i + (if i = b.id then 1 else 0)) ∧
    (¬ b.IsNode → cnt (b.effect M L parse ins r).2.mem i = cnt r.mem i) := by
  obtain ⟨t, ht⟩ := hb
  by_cases h : b.IsNode
  · refine ⟨fun _ => ?_, fun hn => absurd h hn⟩
    unfold Block.IsNode at h
    simp only [List.mem_cons, List.not_mem_nil, or_false, not_or] at h
    obtain ⟨h1, h2, h3, h4, h5, h6, h7, h8, h9, h10, h11⟩ := h
    have hbin : binOf b.typ = none := by
      unfold binOf
      rw [if_neg h8, if_neg h10, if_neg h9, if_neg h11]
    unfold Block.effect
    rw [if_neg h1, if_neg h2, if_neg h3, if_neg (by tauto), if_neg h7, ht]
    simp only [hbin]
    exact hc _ _ _ _ _
  · refine ⟨fun hn => absurd hn h, fun _ => ?_⟩
    unfold Block.IsNode at h
    rw [not_not] at h
    simp only [List.mem_cons, List.not_mem_nil, or_false] at h
    unfold Block.effect
    split
    · rfl
    split
    · rfl
    split
    · rfl
    split
    · rfl
    split
    · rfl
    rw [ht]
    have hbin : (binOf b.typ).isSome = true := by
      rcases h with h | h | h | h | h | h | h | h | h | h | h
      all_goals first
        | (rw [h]; decide)
        | (exfalso; tauto)
    obtain ⟨op, hop⟩ := Option.isSome_iff_exists.1 hbin
    simp only [hop]

theorem wires_inv {X : Int} {n : Nat}
    (ih : ∀ (o : Pos) (b : Block) (r : Run F S), (o, b) ∈ a.blocks → rank a o < n → RInv a cnt c0 r →
      RStep a cnt c0 o.1 r (runAt M L parse a n o r).2 ∧ ((runAt M L parse a n o r).2.done b.id).isSome = true) (ha : AreaOk a) :
    ∀ (ps : List (String × Pos)), (∀ e ∈ ps, e.2.1 = X) →
    (∀ e ∈ ps, ∀ o b, a.refAtOrigin e.2 = some (b, o) → rank a o < n) → ∀ (r : Run F S), RInv a cnt c0 r →
    RStep a cnt c0 X r (wiresFrom a M.zero (runAt M L parse a n) ps r).2 ∧
    ∀ e ∈ ps, ∀ o' b', a.refAtOrigin e.2 = some (b', o') → (b'.outputs.getD (e.2.2 - o'.2).toNat none).isSome = true →
      ((wiresFrom a M.zero (runAt M L parse a n) ps r).2.done b'.id).isSome = true := by
  intro ps
  induction ps with
  | nil => intro _ _ r h; exact ⟨RStep.refl h, fun e he => by cases he⟩
  | cons e ps ihp =>
    intro hX hrk r h
    have hone : RStep a cnt c0 X r (wireFrom a M.zero (runAt M L parse a n) e.2 r).2 ∧
        ∀ o' b', a.refAtOrigin e.2 = some (b', o') → (b'.outputs.getD (e.2.2 - o'.2).toNat none).isSome = true →
          ((wireFrom a M.zero (runAt M L parse a n) e.2 r).2.done b'.id).isSome = true := by
      unfold wireFrom
      cases hr : a.refAtOrigin e.2 with
      | none => exact ⟨RStep.refl h, fun _ _ h => by cases h⟩
      | some bo =>
        obtain ⟨b, o⟩ := bo
        simp only
        obtain ⟨hm, h1, -, -⟩ := refAtOrigin_mem ha hr
        cases hn : b.outputs.getD (e.2.2 - o.2).toNat none with
        | none =>
          refine ⟨RStep.refl h, ?_⟩
          intro o' b' hh hs
          simp only [Option.some.injEq, Prod.mk.injEq] at hh
          obtain ⟨rfl, rfl⟩ := hh
          rw [hn] at hs; cases hs
        | some name =>
          have := ih o b r hm (hrk e List.mem_cons_self o b hr) h
          refine ⟨?_, ?_⟩
          · have hx := hX e List.mem_cons_self
            rw [← hx, h1]
            exact this.1
          · intro o' b' hh hs
            simp only [Option.some.injEq, Prod.mk.injEq] at hh
            obtain ⟨rfl, rfl⟩ := hh
            exact this.2
    have hrest := ihp (fun e' he' => hX e' (List.mem_cons_of_mem _ he')) (fun e' he' => hrk e' (List.mem_cons_of_mem _ he')) _ hone.1.inv
    simp only [wiresFrom]
    refine ⟨hone.1.trans hrest.1, ?_⟩
    intro e' he' o' b' hr hs
    rcases List.mem_cons.1 he' with rfl | he'
    · exact hrest.1.mono _ (hone.2 o' b' hr hs)
    · exact hrest.2 e' he' o' b' hr hs

theorem run_inv (ha : AreaOk a) (hids : ∀ o b o' b', (o, b) ∈ a.blocks → (o', b') ∈ a.blocks → b.id = b'.id → o = o')
    (ht : ∀ o b, (o, b) ∈ a.blocks → ∃ t, L b.typ = some t) (hc : M.Counts cnt) :
    ∀ (n : Nat) (o : Pos) (b : Block) (r : Run F S), (o, b) ∈ a.blocks → rank a o < n → RInv a cnt c0 r →
      RStep a cnt c0 o.1 r (runAt M L parse a n o r).2 ∧ ((runAt M L parse a n o r).2.done b.id).isSome = true := by
  intro n
  induction n with
  | zero => intro o b r _ h; exact absurd h (Nat.not_lt_zero _)
  | succ n ih =>
    intro o b r hb hrk h
    have hlk := (mem_iff_lookup ha.load.keys o b).1 hb
    have same : ∀ o' b', (o', b') ∈ a.blocks → b'.id = b.id → o' = o ∧ b' = b := by
      intro o' b' hb' he
      have h1 := hids o' b' o b hb' hb he
      subst h1
      have h2 := (mem_iff_lookup ha.load.keys o' b').1 hb'
      rw [hlk] at h2
      exact ⟨rfl, (Option.some.inj h2).symm⟩
    simp only [runAt, hlk]
    cases hd : r.done b.id with
    | some outs => exact ⟨RStep.refl h, by simp only [hd]; rfl⟩
    | none =>
      simp only
      have hw := wires_inv (X := o.1 - 1) ih ha (b.sources o) (by
          intro e he
          obtain ⟨r, -, rfl⟩ := List.mem_map.1 he
          rfl) (by
          intro e he o' b' hr
          obtain ⟨h1, h2, -, -⟩ := refAtOrigin_mem ha hr
          obtain ⟨rr, -, rfl⟩ := List.mem_map.1 he
          have : rank a o' < rank a o := rank_lt h1 (by simp only at h2; omega)
          omega) r h
      generalize wiresFrom a M.zero (runAt M L parse a n) (b.sources o) r = w at hw ⊢
      obtain ⟨hst, hsrc⟩ := hw
      have hnd : ¬ (w.2.done b.id).isSome = true := by
        intro hh
        rcases hst.new _ hh with g | ⟨o', b', g1, g2, g3⟩
        · rw [hd] at g; cases g
        · rw [(same o' b' g1 g2).1] at g3
          omega
      have hed := effect_done (M := M) (L := L) (parse := parse) b w.1 w.2
      have hec := effect_count (parse := parse) hc (ht o b hb) w.1 w.2
      generalize b.effect M L parse w.1 w.2 = e at hed hec ⊢
      have hdone : ∀ i, ((if i = b.id then some e.1 else e.2.done i).isSome = true) ↔ (i = b.id ∨ (w.2.done i).isSome = true) := by
        intro i
        rw [hed]
        by_cases hi : i = b.id
        · simp [hi]
        · simp [hi]
      refine ⟨⟨⟨?_, ?_, ?_⟩, ?_, ?_⟩, by simp⟩
      · intro i hi hn
        rw [hdone] at hi
        by_cases he : i = b.id
        · subst he
          obtain ⟨o', b', g1, g2, g3⟩ := hn
          rw [(same o' b' g1 g2).2] at g3
          rw [show cnt _ b.id = _ from (hec b.id).1 g3, if_pos rfl, hst.inv.idle _ (fun hh => hnd hh.1)]
        · have hi : (w.2.done i).isSome = true := hi.resolve_left he
          have hval : cnt e.2.mem i = cnt w.2.mem i := by
            by_cases hb' : b.IsNode
            · rw [(hec i).1 hb', if_neg he]; rfl
            · exact (hec i).2 hb'
          exact hval.trans (hst.inv.ran i hi hn)
      · intro i hi
        rw [hdone] at hi
        have hval : cnt e.2.mem i = cnt w.2.mem i := by
          by_cases hb' : b.IsNode
          · have he : i ≠ b.id := fun he => hi ⟨.inl he, o, b, hb, he.symm, hb'⟩
            rw [(hec i).1 hb', if_neg he]; rfl
          · exact (hec i).2 hb'
        exact hval.trans (hst.inv.idle i (fun hh => hi ⟨.inr hh.1, hh.2⟩))
      · intro o1 b1 hb1 hd1 e1 he1 o2 b2 hr hs
        rw [hdone] at hd1 ⊢
        right
        by_cases he : b1.id = b.id
        · obtain ⟨rfl, rfl⟩ := same o1 b1 hb1 he
          exact hsrc e1 he1 o2 b2 hr hs
        · exact hst.inv.closed o1 b1 hb1 (hd1.resolve_left he) e1 he1 o2 b2 hr hs
      · intro i hi
        rw [hdone]
        exact .inr (hst.mono i hi)
      · intro i hi
        rw [hdone] at hi
        rcases hi with hi | hi
        · exact .inr ⟨o, b, hb, hi.symm, Int.le_refl _⟩
        · rcases hst.new i hi with g | ⟨o', b', g1, g2, g3⟩
          · exact .inl g
          · exact .inr ⟨o', b', g1, g2, by omega⟩

theorem sink_inv (ha : AreaOk a) (hids : ∀ o b o' b', (o, b) ∈ a.blocks → (o', b') ∈ a.blocks → b.id = b'.id → o = o')
    (ht : ∀ o b, (o, b) ∈ a.blocks → ∃ t, L b.typ = some t) (hc : M.Counts cnt) {s : Sink} (hs : a.HasSink s) {r : Run F S} (h : RInv a cnt c0 r) :
    RInv a cnt c0 (runSink M L parse a s r) ∧ (∀ i, (r.done i).isSome = true → ((runSink M L parse a s r).done i).isSome = true) ∧
    ∀ o b, (o, b) ∈ a.blocks → s.1 = o.1 → (s.2.1 = o.2 ∧ s.2.2 = none ∨ ∃ row ∈ b.outputRows, s.2.1 = o.2 + (row : Int) ∧ s.2.2 = some row) →
      ((runSink M L parse a s r).done b.id).isSome = true := by
  obtain ⟨x, y, kind⟩ := s
  obtain ⟨o, b, hb, hx, hs⟩ := hs
  simp only at hx hs
  have hrk : rank a o < a.blocks.length + 1 := Nat.lt_succ_of_lt (rank_lt_length hb)
  have same : ∀ o' b', (o', b') ∈ a.blocks → o' = o → b' = b := by
    rintro o' b' hb' rfl
    have h2 := (mem_iff_lookup ha.load.keys o' b').1 hb'
    rw [(mem_iff_lookup ha.load.keys o' b).1 hb] at h2
    exact (Option.some.inj h2).symm
  obtain ⟨ox, oy⟩ := o
  rcases hs with ⟨hrows, hy, rfl⟩ | ⟨row, hrow, hy, rfl, hun⟩
  · simp only at hx hy
    subst hx hy
    have := run_inv (parse := parse) ha hids ht hc _ (x, y) b r hb hrk h
    refine ⟨this.1.inv, this.1.mono, ?_⟩
    rintro ⟨ox', oy'⟩ b' hb' hx' (⟨hy', -⟩ | ⟨row, -, -, hh⟩)
    · simp only at hx' hy'
      have e := same (ox', oy') b' hb' (by rw [hx', hy'])
      rw [e]; exact this.2
    · cases hh
  · simp only at hx hy
    have hcov : Covers (ox, oy) b (x, y) := by
      have := (mem_outputRows.1 hrow).1
      exact ⟨hx, by show oy ≤ y; omega, by show y < oy + _; omega⟩
    have hr := refAtOrigin_of ha hb hcov
    have hname : (b.outputs.getD (y - oy).toNat none).isSome = true := by
      have := (mem_outputRows.1 hrow).2
      have e : (y - oy).toNat = row := by omega
      rw [e]; exact this
    have := wires_inv (X := x) (M := M) (L := L) (parse := parse) (run_inv ha hids ht hc (a.blocks.length + 1)) ha [("", (x, y))] (by
      intro e he
      rw [List.mem_singleton] at he
      rw [he]) (by
      intro e he o' b' hr
      exact Nat.lt_succ_of_lt (rank_lt_length (refAtOrigin_mem ha hr).1)) r h
    simp only [wiresFrom] at this
    refine ⟨⟨this.1.inv.ran, this.1.inv.idle, this.1.inv.closed⟩, this.1.mono, ?_⟩
    rintro ⟨ox', oy'⟩ b' hb' hx' (⟨-, hh⟩ | ⟨row', hrow', hy', -⟩)
    · cases hh
    · simp only at hx' hy'
      have hcov' : Covers (ox', oy') b' (x, y) := by
        have := (mem_outputRows.1 hrow').1
        exact ⟨hx', by show oy' ≤ y; omega, by show y < oy' + _; omega⟩
      have hr' := refAtOrigin_of ha hb' hcov'
      rw [hr] at hr'
      simp only [Option.some.injEq, Prod.mk.injEq] at hr'
      obtain ⟨rfl, rfl, rfl⟩ := hr'
      exact this.2 _ List.mem_cons_self _ _ hr hname

theorem sinks_inv (ha : AreaOk a) (hids : ∀ o b o' b', (o, b) ∈ a.blocks → (o', b') ∈ a.blocks → b.id = b'.id → o = o')
    (ht : ∀ o b, (o, b) ∈ a.blocks → ∃ t, L b.typ = some t) (hc : M.Counts cnt) : ∀ (l : List Sink), (∀ s ∈ l, a.HasSink s) →
    ∀ (r : Run F S), RInv a cnt c0 r →
    RInv a cnt c0 (runSinks M L parse a l r) ∧ (∀ i, (r.done i).isSome = true → ((runSinks M L parse a l r).done i).isSome = true) ∧
    ∀ s ∈ l, ∀ o b, (o, b) ∈ a.blocks → s.1 = o.1 → (s.2.1 = o.2 ∧ s.2.2 = none ∨ ∃ row ∈ b.outputRows, s.2.1 = o.2 + (row : Int) ∧ s.2.2 = some row) →
      ((runSinks M L parse a l r).done b.id).isSome = true := by
  intro l
  induction l with
  | nil => intro _ r h; exact ⟨h, fun _ h => h, fun s hs => by cases hs⟩
  | cons s l ih =>
    intro hall r h
    obtain ⟨h1, h2, h3⟩ := sink_inv (parse := parse) ha hids ht hc (hall s List.mem_cons_self) h
    obtain ⟨g1, g2, g3⟩ := ih (fun t ht => hall t (List.mem_cons_of_mem _ ht)) _ h1
    refine ⟨g1, fun i hi => g2 i (h2 i hi), ?_⟩
    intro t htm o b hb hx hk
    rcases List.mem_cons.1 htm with rfl | htm
    · exact g2 _ (h3 o b hb hx hk)
    · exact g3 t htm o b hb hx hk

/-- Every node is called once, and nothing else is. -/
theorem run_once (ha : AreaOk a) (hids : ∀ o b o' b', (o, b) ∈ a.blocks → (o', b') ∈ a.blocks → b.id = b'.id → o = o')
    (ht : ∀ o b, (o, b) ∈ a.blocks → ∃ t, L b.typ = some t) (hc : M.Counts cnt) {ss : List Sink} (hss : a.SinkOrder ss)
    (vars : String → F) (mem : S) :
    (∀ i, NodeId a i → cnt (runSinks M L parse a ss (Run.start vars mem)).mem i = cnt mem i + 1) ∧
    ∀ i, ¬ NodeId a i → cnt (runSinks M L parse a ss (Run.start vars mem)).mem i = cnt mem i := by
  have h0 : RInv a cnt (cnt mem) (Run.start vars mem : Run F S) := by
    refine ⟨?_, fun _ _ => rfl, ?_⟩
    · intro i h; cases h
    · intro o b _ h; cases h
  obtain ⟨h1, h2, h3⟩ := sinks_inv (parse := parse) ha hids ht hc ss (fun s hs => (hss.1 s).1 hs) _ h0
  generalize runSinks M L parse a ss (Run.start vars mem) = r at h1 h2 h3
  have hall : ∀ k o b, (o, b) ∈ a.blocks → a.blocks.length ≤ rank a o + k → (r.done b.id).isSome = true := by
    intro k
    induction k with
    | zero => intro o b hb hk; have := rank_lt_length hb; omega
    | succ k ih =>
      intro o b hb hk
      cases hrows : b.outputRows with
      | nil =>
        exact h3 (o.1, o.2, none) ((hss.1 _).2 ⟨o, b, hb, rfl, .inl ⟨hrows, rfl, rfl⟩⟩) o b hb rfl (.inl ⟨rfl, rfl⟩)
      | cons row rows =>
        have hrow : row ∈ b.outputRows := by rw [hrows]; exact List.mem_cons_self
        by_cases hcons : ∃ o' b' r', (o', b') ∈ a.blocks ∧ r' ∈ b'.inputRows ∧ o'.1 = o.1 + 1 ∧ o'.2 + ((r' : Nat) : Int) = o.2 + (row : Int)
        · obtain ⟨o', b', r', hb', hr', hx, hy⟩ := hcons
          have hlt : rank a o < rank a o' := rank_lt hb (by omega)
          have hd := ih o' b' hb' (by omega)
          refine h1.closed o' b' hb' hd (_, (o'.1 - 1, o'.2 + (r' : Int))) (List.mem_map.2 ⟨r', hr', rfl⟩) o b ?_ ?_
          · apply refAtOrigin_of ha hb
            have := (mem_outputRows.1 hrow).1
            exact ⟨by show o'.1 - 1 = o.1; omega, by show o.2 ≤ o'.2 + _; omega, by show o'.2 + _ < o.2 + _; omega⟩
          · have := (mem_outputRows.1 hrow).2
            have e : (o'.2 + (r' : Int) - o.2).toNat = row := by omega
            rw [e]; exact this
        · refine h3 (o.1, o.2 + (row : Int), some row) ((hss.1 _).2 ⟨o, b, hb, rfl, .inr ⟨row, hrow, rfl, rfl, ?_⟩⟩) o b hb rfl (.inr ⟨row, hrow, rfl, rfl⟩)
          intro o' b' r' hb' hr' hh
          exact hcons ⟨o', b', r', hb', hr', hh.1, hh.2⟩
  refine ⟨?_, fun i hi => h1.idle i (fun hh => hi hh.2)⟩
  intro i hi
  obtain ⟨o, b, hb, hid, hn⟩ := hi
  have := hall a.blocks.length o b hb (by omega)
  rw [hid] at this
  exact h1.ran i this ⟨o, b, hb, hid, hn⟩

end

end HexoDSP.Block
