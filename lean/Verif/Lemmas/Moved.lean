import Verif.Spec.Moved
import Verif.Lemmas.MatrixOps
import Mathlib.Data.List.Forall2

set_option linter.unusedSectionVars false
namespace HexoDSP.Matrix.MovedLemmas
open HexoDSP.Matrix HexoDSP.GraphOrdering
open CellDir (Pos)

variable {N : Type} [DecidableEq N]

/-- Two computations agree: both panic, or both give related results. -/
inductive Both {α β : Type} (R : α → β → Prop) : Option α → Option β → Prop
  | none : Both R none none
  | some {a : α} {b : β} : R a b → Both R (some a) (some b)

theorem Both.bind {α β γ δ : Type} {R : α → β → Prop} {S : γ → δ → Prop} {x : Option α} {y : Option β} {f : α → Option γ} {g : β → Option δ}
    (h : Both R x y) (hf : ∀ a b, R a b → Both S (f a) (g b)) : Both S (x.bind f) (y.bind g) := by
  cases h with
  | none => exact .none
  | some h => exact hf _ _ h

theorem Both.map {α β γ δ : Type} {R : α → β → Prop} {S : γ → δ → Prop} {x : Option α} {y : Option β} {f : α → γ} {g : β → δ}
    (h : Both R x y) (hf : ∀ a b, R a b → S (f a) (g b)) : Both S (x.map f) (y.map g) := by
  cases h with
  | none => exact .none
  | some h => exact .some (hf _ _ h)

theorem Both.foldlM {α β γ δ : Type} {R : α → β → Prop} {f : α → γ → Option α} {g : β → δ → Option β} (P : γ → δ → Prop)
    (hf : ∀ a b c d, R a b → P c d → Both R (f a c) (g b d)) {l : List γ} {l' : List δ} (hl : List.Forall₂ P l l') :
    ∀ {a : α} {b : β}, R a b → Both R (l.foldlM f a) (l'.foldlM g b) := by
  induction hl with
  | nil => intro a b h; exact .some h
  | cons hp _ ih =>
    intro a b h
    rw [List.foldlM_cons, List.foldlM_cons]
    exact (hf a b _ _ h hp).bind (fun a b h => ih h)

theorem forall2_self {α : Type} {P : α → Prop} : ∀ {l : List α}, (∀ a ∈ l, P a) → List.Forall₂ (fun a b => a = b ∧ P a) l l
  | [], _ => .nil
  | a :: l, h => .cons ⟨rfl, h a (by simp)⟩ (forall2_self (fun b hb => h b (by simp [hb])))

/-- Two vectors agree on the first `n` entries. -/
structure Agree {α : Type} (n : Nat) (l l' : List α) : Prop where
  le : n ≤ l.length
  le' : n ≤ l'.length
  eq : ∀ i < n, l[i]? = l'[i]?

theorem Agree.take {α : Type} {n : Nat} {l l' : List α} (h : Agree n l l') : l.take n = l'.take n := by
  apply List.ext_getElem?
  intro i
  rw [List.getElem?_take, List.getElem?_take]
  split
  · exact h.eq i ‹_›
  · rfl

theorem Agree.set {α : Type} {n : Nat} {l l' : List α} (h : Agree n l l') (j : Nat) (x : α) : Agree n (l.set j x) (l'.set j x) := by
  refine ⟨by simpa using h.le, by simpa using h.le', ?_⟩
  intro i hi
  rw [List.getElem?_set, List.getElem?_set]
  have := h.le; have := h.le'
  split
  · rw [if_pos (by omega), if_pos (by omega)]
  · exact h.eq i hi

theorem Agree.grow {α : Type} {n : Nat} {l l' r r' : List α} (h : Agree n l l') (x : α) (hl : n < (l ++ r).length) (hl' : n < (l' ++ r').length) :
    Agree (n + 1) ((l ++ r).set n x) ((l' ++ r').set n x) := by
  refine ⟨by rw [List.length_set]; omega, by rw [List.length_set]; omega, ?_⟩
  intro i hi
  have := h.le; have := h.le'
  by_cases hn : n = i
  · subst hn
    rw [List.getElem?_set_self hl, List.getElem?_set_self hl']
  · rw [List.getElem?_set_ne hn, List.getElem?_set_ne hn, List.getElem?_append_left (by omega), List.getElem?_append_left (by omega)]
    exact h.eq i (by omega)

/-- Two orderings that differ only in what is beyond the nodes in use. -/
structure Sim (o o' : Ordering N) : Prop where
  idx : o.node2idx = o'.node2idx
  cnt : o.nodeCount = o'.nodeCount
  nodes : Agree o.nodeCount o.nodes o'.nodes
  lens : o.nodes.length = o.inDegree.length
  lens' : o'.nodes.length = o'.inDegree.length
  keys : ∀ a i, o.lookup a = some i → i < o.nodeCount
  edges : ∀ i < o.nodeCount, ∀ nd, o.nodes[i]? = some nd → ∀ j ∈ nd.edges, j < o.nodeCount

theorem sim_clear {o o' : Ordering N} (h : o.nodes.length = o.inDegree.length) (h' : o'.nodes.length = o'.inDegree.length) : Sim o.clear o'.clear :=
  ⟨rfl, rfl, ⟨by simp [Ordering.clear], by simp [Ordering.clear], by simp [Ordering.clear]⟩, h, h', by simp [Ordering.clear, Ordering.lookup],
    by simp [Ordering.clear]⟩

theorem grow_form {α : Type} (c : Prop) [Decidable c] (l r : List α) : (if c then l ++ r else l) = l ++ (if c then r else []) := by
  split <;> simp

theorem sim_addNode {o o' : Ordering N} (h : Sim o o') (a : N) :
    Sim (o.addNode a).1 (o'.addNode a).1 ∧ (o.addNode a).2 = (o'.addNode a).2 ∧ (o.addNode a).2 < (o.addNode a).1.nodeCount ∧
    ∀ i nd, i < (o.addNode a).1.nodeCount → (o.addNode a).1.nodes[i]? = some nd → ∀ j ∈ nd.edges, j < (o.addNode a).1.nodeCount := by
  have hl : o.lookup a = o'.lookup a := by unfold Ordering.lookup; rw [h.idx]
  unfold Ordering.addNode
  cases e : o.lookup a with
  | some i =>
    rw [← hl, e]
    exact ⟨h, rfl, h.keys a i e, fun i nd hi hnd => h.edges i hi nd hnd⟩
  | none =>
    rw [← hl, e]
    simp only
    rw [grow_form, grow_form, grow_form, grow_form, ← h.cnt]
    have le1 := h.nodes.le
    have le2 := h.nodes.le'
    have g1 : o.nodeCount < (o.nodes ++ if o.nodes.length < o.nodeCount + 1 then List.replicate (o.nodeCount + 1 - o.nodes.length) Node.new else []).length := by
      split <;> simp <;> omega
    have g2 : o.nodeCount < (o'.nodes ++ if o'.nodes.length < o.nodeCount + 1 then List.replicate (o.nodeCount + 1 - o'.nodes.length) Node.new else []).length := by
      split <;> simp <;> omega
    have key : ∀ i nd, i < o.nodeCount + 1 → ((o.nodes ++ if o.nodes.length < o.nodeCount + 1 then List.replicate (o.nodeCount + 1 - o.nodes.length) Node.new
        else []).set o.nodeCount ({ nodeId := some a, edges := [] } : Node N))[i]? = some nd → ∀ j ∈ nd.edges, j < o.nodeCount + 1 := by
      intro i nd hi hnd j hj
      by_cases hn : o.nodeCount = i
      · subst hn
        rw [List.getElem?_set_self g1] at hnd
        cases hnd
        simp at hj
      · rw [List.getElem?_set_ne hn, List.getElem?_append_left (by omega)] at hnd
        have := h.edges i (by omega) nd hnd j hj
        omega
    refine ⟨⟨?_, rfl, h.nodes.grow _ g1 g2, ?_, ?_, ?_, fun i hi nd hnd => key i nd hi hnd⟩, rfl, by simp, key⟩
    · rw [h.idx]
    · simp only [List.length_set, List.length_append, ← h.lens]; split <;> simp
    · simp only [List.length_set, List.length_append, ← h.lens']; split <;> simp
    · intro b i hb
      simp only [Ordering.lookup, List.lookup_cons] at hb
      split at hb
      · cases hb; simp
      · have := h.keys b i hb; simp only; omega

theorem node_addEdge_lt {n n' : Node N} {j c : Nat} (hj : j < c) (hn : ∀ k ∈ n.edges, k < c) (h : n.addEdge j = some n') : ∀ k ∈ n'.edges, k < c := by
  unfold Node.addEdge at h
  split at h
  · cases h; exact hn
  · split at h
    · cases h
      intro k hk
      simp only [List.mem_append, List.mem_singleton] at hk
      rcases hk with hk | rfl
      · exact hn k hk
      · exact hj
    · cases h

theorem sim_addEdge {o o' : Ordering N} (h : Sim o o') (a b : N) : Both Sim (o.addEdge a b) (o'.addEdge a b) := by
  obtain ⟨h1, h2, h3, h4⟩ := sim_addNode h b
  unfold Ordering.addEdge
  simp only
  rw [← h2]
  generalize (o.addNode b).2 = t at h3
  generalize (o.addNode b).1 = p at h1 h3 h4
  generalize (o'.addNode b).1 = p' at h1
  have hl : p.lookup a = p'.lookup a := by unfold Ordering.lookup; rw [h1.idx]
  rw [← hl]
  cases e : p.lookup a with
  | none => exact .some h1
  | some i =>
    have hi := h1.keys a i e
    simp only
    rw [← h1.nodes.eq i hi]
    cases e2 : p.nodes[i]? with
    | none => exact .none
    | some nd =>
      simp only
      cases e3 : nd.addEdge t with
      | none => exact .none
      | some nd' =>
        refine .some ⟨h1.idx, h1.cnt, h1.nodes.set i nd', by simpa using h1.lens, by simpa using h1.lens', h1.keys, ?_⟩
        intro k hk nd2 hnd2
        simp only at hk hnd2 ⊢
        rw [List.getElem?_set] at hnd2
        split at hnd2
        · split at hnd2
          · cases hnd2
            exact node_addEdge_lt h3 (h4 i nd hi e2) e3
          · cases hnd2
        · exact h1.edges k hk nd2 hnd2

theorem agree_count {n : Nat} {d d' : List Nat} (h : Agree n d d') {j : Nat} (hj : j < n) :
    Both (Agree n) ((d[j]?).map (fun x => d.set j (x + 1))) ((d'[j]?).map (fun x => d'.set j (x + 1))) := by
  rw [← h.eq j hj]
  cases d[j]? with
  | none => exact .none
  | some x => exact .some (h.set j _)

theorem agree_countInputs {n : Nat} (nodes : List (Node N)) (hn : ∀ nd ∈ nodes, ∀ j ∈ nd.edges, j < n) {d d' : List Nat} (h : Agree n d d') :
    Both (Agree n) (countInputs nodes d) (countInputs nodes d') := by
  unfold countInputs
  refine Both.foldlM (fun a b => a = b ∧ ∀ j ∈ a.edges, j < n) ?_ (forall2_self hn) h
  rintro a b c _ hab ⟨rfl, hc⟩
  refine Both.foldlM (fun a b => a = b ∧ a < n) ?_ (forall2_self hc) hab
  rintro a b j _ hab ⟨rfl, hj⟩
  exact agree_count hab hj

/-- The states of the main loop agree: the counters and the queue. -/
def Loop (n : Nat) (s s' : List Nat × List Nat) : Prop := Agree n s.1 s'.1 ∧ s.2 = s'.2 ∧ ∀ j ∈ s.2, j < n

theorem loop_relax {n : Nat} {s s' : List Nat × List Nat} (h : Loop n s s') {j : Nat} (hj : j < n) : Both (Loop n) (relaxOne s j) (relaxOne s' j) := by
  obtain ⟨h1, h2, h3⟩ := h
  unfold relaxOne
  rw [← h1.eq j hj, ← h2]
  rcases s.1[j]? with _ | _ | d
  · exact .none
  · exact .none
  · refine .some ⟨h1.set j d, rfl, ?_⟩
    simp only
    split
    · intro k hk
      simp only [List.mem_append, List.mem_singleton] at hk
      rcases hk with hk | rfl
      · exact h3 k hk
      · exact hj
    · exact h3

theorem kahn_agree {n : Nat} {nodes nodes' : List (Node N)} (hn : Agree n nodes nodes') (he : ∀ i < n, ∀ nd, nodes[i]? = some nd → ∀ j ∈ nd.edges, j < n) :
    ∀ (fuel : Nat) {d d' deq : List Nat} (out : List N) (v : Nat), Agree n d d' → (∀ j ∈ deq, j < n) →
    Both (fun r r' => Agree n r.1 r'.1 ∧ r.2 = r'.2) (kahnLoop nodes fuel d deq out v) (kahnLoop nodes' fuel d' deq out v) := by
  intro fuel
  induction fuel with
  | zero =>
    intro d d' deq out v hd hq
    cases deq with
    | nil => simp only [kahnLoop]; exact .some ⟨hd, rfl⟩
    | cons i q => simp only [kahnLoop]; exact .none
  | succ f ih =>
    intro d d' deq out v hd hq
    cases deq with
    | nil => simp only [kahnLoop]; exact .some ⟨hd, rfl⟩
    | cons i q =>
      have hi := hq i (by simp)
      simp only [kahnLoop]
      rw [← hn.eq i hi]
      cases e : nodes[i]? with
      | none => exact .none
      | some nd =>
        simp only
        cases nd.nodeId with
        | none => exact .none
        | some a =>
          simp only
          have hb : Both (Loop n) (nd.edges.foldlM relaxOne (d, q)) (nd.edges.foldlM relaxOne (d', q)) := by
            refine Both.foldlM (fun a b => a = b ∧ a < n) ?_ (forall2_self (he i hi nd e)) ⟨hd, rfl, fun j hj => hq j (by simp [hj])⟩
            rintro s s' j _ hs ⟨rfl, hj⟩
            exact loop_relax hs hj
          generalize nd.edges.foldlM relaxOne (d, q) = x at hb
          generalize nd.edges.foldlM relaxOne (d', q) = y at hb
          cases hb with
          | none => exact .none
          | @some s s' h =>
            obtain ⟨s1, s2⟩ := s
            obtain ⟨s1', s2'⟩ := s'
            obtain ⟨g1, g2, g3⟩ := h
            simp only at g1 g2 g3 ⊢
            subst g2
            exact ih _ _ g1 g3

theorem sim_order {o o' : Ordering N} (h : Sim o o') (out : List N) :
    Both (fun r r' => r.2 = r'.2) (o.calculateOrder out) (o'.calculateOrder out) := by
  unfold Ordering.calculateOrder
  simp only
  rw [← h.cnt, h.nodes.take.symm]
  have hd : Agree o.nodeCount (o.inDegree.map (fun _ => 0)) (o'.inDegree.map (fun _ => 0)) := by
    have a := h.nodes.le; have b := h.nodes.le'
    have c := h.lens; have d := h.lens'
    refine ⟨by simp; omega, by simp; omega, ?_⟩
    intro i hi
    rw [List.getElem?_map, List.getElem?_map, List.getElem?_eq_getElem (by omega), List.getElem?_eq_getElem (by omega)]
    rfl
  have hc := agree_countInputs (n := o.nodeCount) (o.nodes.take o.nodeCount) (by
    intro nd hnd
    obtain ⟨i, hi⟩ := List.mem_iff_getElem?.1 hnd
    rw [List.getElem?_take] at hi
    split at hi
    · exact h.edges i ‹_› nd hi
    · cases hi) hd
  generalize countInputs (o.nodes.take o.nodeCount) (o.inDegree.map (fun _ => 0)) = x at hc
  generalize countInputs (o.nodes.take o.nodeCount) (o'.inDegree.map (fun _ => 0)) = y at hc
  cases hc with
  | none => exact .none
  | @some d d' hd =>
    simp only
    have hq : (List.range o.nodeCount).filter (fun idx => decide (d'[idx]? = some 0)) = (List.range o.nodeCount).filter (fun idx => decide (d[idx]? = some 0)) := by
      apply List.filter_congr
      intro i hi
      rw [hd.eq i (List.mem_range.1 hi)]
    rw [hq]
    have hk := kahn_agree h.nodes h.edges (o.nodeCount + 1) (deq := (List.range o.nodeCount).filter (fun idx => decide (d[idx]? = some 0))) out 0 hd
      (fun j hj => List.mem_range.1 (List.mem_filter.1 hj).1)
    generalize kahnLoop o.nodes (o.nodeCount + 1) d _ out 0 = x at hk
    generalize kahnLoop o'.nodes (o.nodeCount + 1) d' _ out 0 = y at hk
    cases hk with
    | none => exact .none
    | @some r r' hr =>
      obtain ⟨r1, r2, r3⟩ := r
      obtain ⟨s1, s2, s3⟩ := r'
      obtain ⟨h1, h2⟩ := hr
      simp only [Prod.mk.injEq] at h2
      obtain ⟨rfl, rfl⟩ := h2
      simp only
      split
      · exact .some rfl
      · exact .some rfl

/-! ## The scan of the grid -/

theorem seen_get {m : Matrix N} {x y : Nat} {c : Cell N} (h : m.get x y = some c) :
    m.seen x y = if c.nodeId = none then none else some { c with x := 0, y := 0 } := by
  unfold Matrix.seen; rw [h]; rfl

/-- The output that faces an edge, read off what is seen. -/
def facing (d : CellDir) (c : Cell N) : Option (N × Nat) :=
  c.nodeId.bind (fun n => (match d with | .T => c.out3 | .TL => c.out2 | .BL => c.out1 | _ => none).map (fun o => (n, o)))

theorem adjOut_seen {m : Matrix N} (x y : Nat) (d : CellDir) (hd : d.isOutput = false) :
    m.getAdjacentOutput x y d =
    if (x : Int) + (d.asOffs x).1 < 0 ∨ (y : Int) + (d.asOffs x).2 < 0 then none
    else (m.seen ((x : Int) + (d.asOffs x).1).toNat ((y : Int) + (d.asOffs x).2).toNat).bind (facing d) := by
  unfold Matrix.getAdjacentOutput Matrix.getAdjacent Matrix.seen Matrix.get
  rw [hd]
  simp only [Bool.false_eq_true, if_false]
  generalize (x : Int) + (d.asOffs x).1 = nx
  generalize (y : Int) + (d.asOffs x).2 = ny
  by_cases h1 : nx < 0 ∨ ny < 0
  · rw [if_pos (by tauto), if_pos h1]
  · rw [if_neg h1]
    by_cases h2 : nx.toNat ≥ m.w ∨ ny.toNat ≥ m.h
    · rw [if_pos (by tauto), if_pos h2]; rfl
    · rw [if_neg (by tauto), if_neg h2]
      cases m.cells[nx.toNat * m.h + ny.toNat]? with
      | none => rfl
      | some c =>
        simp only [Option.bind_some]
        rcases hn : c.nodeId with _ | n
        · simp
        · simp only [reduceCtorEq, if_false, Option.bind_some, facing]
          cases d <;> simp only <;> (try rfl) <;> split <;> simp_all

theorem adjOut_moved {m m' : Matrix N} {k dy : Nat} (h : Moved m m' (2 * k) dy) (x y : Nat) (d : CellDir) (hd : d.isOutput = false) :
    m'.getAdjacentOutput (x + 2 * k) (y + dy) d = m.getAdjacentOutput x y d := by
  rw [adjOut_seen _ _ _ hd, adjOut_seen _ _ _ hd]
  have ho : d.asOffs (x + 2 * k) = d.asOffs x := by
    have : (x + 2 * k) % 2 = x % 2 := by omega
    unfold CellDir.asOffs; rw [this]
  rw [ho]
  generalize (d.asOffs x).1 = ox
  generalize (d.asOffs x).2 = oy
  by_cases h1 : (x : Int) + ox < 0 ∨ (y : Int) + oy < 0
  · rw [if_pos h1]
    split
    · rfl
    · rw [h.2 _ _ (by omega)]; rfl
  · rw [if_neg h1, if_neg (by omega), ← h.1]
    congr 2 <;> omega

theorem scanCell_seen {m : Matrix N} (hm : WF m) (p : Pos) (hp : p ∈ positions m.w m.h) (s : Ordering N × List (Edge N)) :
    m.scanCell s p = match m.seen p.1 p.2 with
      | none => some s
      | some c => c.nodeId.bind (fun n =>
        (addInput n c.in1 (m.getAdjacentOutput p.1 p.2 .T) ((s.1.addNode n).1, s.2)).bind (fun s =>
        (addInput n c.in2 (m.getAdjacentOutput p.1 p.2 .TL) s).bind (fun s => addInput n c.in3 (m.getAdjacentOutput p.1 p.2 .BL) s))) := by
  obtain ⟨hx, hy⟩ := (mem_positions _ _ _).1 hp
  obtain ⟨c, h1, h2⟩ := get_in hm hx hy
  unfold Matrix.scanCell
  rw [h2, seen_get h1]
  simp only
  cases e : c.nodeId with
  | none => simp
  | some n => simp

/-- The places where something is seen, in the order of the scan. -/
def used (m : Matrix N) : List Pos := (positions m.w m.h).filter (fun p => (m.seen p.1 p.2).isSome)

theorem mem_used {m : Matrix N} {p : Pos} : p ∈ used m ↔ (m.seen p.1 p.2).isSome = true := by
  unfold used
  rw [List.mem_filter, mem_positions]
  constructor
  · exact fun h => h.2
  · intro h
    refine ⟨?_, h⟩
    by_contra hc
    unfold Matrix.seen at h
    rw [get_out hc] at h
    simp at h

theorem foldlM_used {m : Matrix N} (hm : WF m) (s : Ordering N × List (Edge N)) :
    (positions m.w m.h).foldlM m.scanCell s = (used m).foldlM m.scanCell s := by
  have key : ∀ l : List Pos, (∀ p ∈ l, p ∈ positions m.w m.h) → ∀ s,
      l.foldlM m.scanCell s = (l.filter (fun p => (m.seen p.1 p.2).isSome)).foldlM m.scanCell s := by
    intro l
    induction l with
    | nil => intro _ _; rfl
    | cons p l ih =>
      intro hl s
      rw [List.filter_cons]
      cases e : m.seen p.1 p.2 with
      | none =>
        have : m.scanCell s p = some s := by rw [scanCell_seen hm p (hl p (by simp)), e]
        rw [List.foldlM_cons, this]
        simpa using ih (fun q hq => hl q (by simp [hq])) s
      | some c =>
        simp only [Option.isSome_some, if_true, List.foldlM_cons]
        congr 1
        funext s
        exact ih (fun q hq => hl q (by simp [hq])) s
  exact key _ (fun p hp => hp) s

theorem sorted_ext : ∀ {l l' : List Pos}, l.Pairwise Lex → l'.Pairwise Lex → (∀ p, p ∈ l ↔ p ∈ l') → l = l'
  | [], [], _, _, _ => rfl
  | [], b :: _, _, _, h => by simpa using (h b).2 (by simp)
  | a :: _, [], _, _, h => by simpa using (h a).1 (by simp)
  | a :: l, b :: l', h1, h2, h => by
    obtain ⟨ha, hl⟩ := List.pairwise_cons.1 h1
    obtain ⟨hb, hl'⟩ := List.pairwise_cons.1 h2
    have irr : ∀ p : Pos, ¬ Lex p p := by intro p hp; rcases hp with hp | hp <;> omega
    have asym : ∀ p q : Pos, Lex p q → ¬ Lex q p := by
      intro p q h h'; rcases h with h | h <;> rcases h' with h' | h' <;> omega
    have hab : a = b := by
      have h3 := (h a).1 (by simp)
      have h4 := (h b).2 (by simp)
      rw [List.mem_cons] at h3 h4
      rcases h3 with h3 | h3
      · exact h3
      · rcases h4 with h4 | h4
        · exact h4.symm
        · exact absurd (ha b h4) (asym _ _ (hb a h3))
    subst hab
    rw [sorted_ext hl hl' (fun p => ?_)]
    constructor
    · intro hp
      have := (h p).1 (by simp [hp])
      rw [List.mem_cons] at this
      rcases this with rfl | this
      · exact absurd (ha _ hp) (irr _)
      · exact this
    · intro hp
      have := (h p).2 (by simp [hp])
      rw [List.mem_cons] at this
      rcases this with rfl | this
      · exact absurd (hb _ hp) (irr _)
      · exact this

theorem used_moved {m m' : Matrix N} {dx dy : Nat} (h : Moved m m' dx dy) : used m' = (used m).map (fun p => (p.1 + dx, p.2 + dy)) := by
  apply sorted_ext
  · exact (positions_sorted _ _).filter _
  · rw [List.pairwise_map]
    refine ((positions_sorted _ _).filter _).imp ?_
    intro p q hpq
    rcases hpq with hpq | hpq
    · exact Or.inl (by simp only; omega)
    · exact Or.inr (by simp only; omega)
  · intro p
    rw [mem_used, List.mem_map]
    constructor
    · intro hp
      by_cases hc : p.1 < dx ∨ p.2 < dy
      · rw [h.2 _ _ hc] at hp; cases hp
      · refine ⟨(p.1 - dx, p.2 - dy), ?_, Prod.ext (by simp only; omega) (by simp only; omega)⟩
        rw [mem_used, ← h.1]
        have e1 : p.1 - dx + dx = p.1 := by omega
        have e2 : p.2 - dy + dy = p.2 := by omega
        rw [e1, e2]; exact hp
    · rintro ⟨q, hq, rfl⟩
      rw [mem_used] at hq
      simp only
      rw [h.1]; exact hq

/-- The results of the scans agree. -/
def Scan (s s' : Ordering N × List (Edge N)) : Prop := Sim s.1 s'.1 ∧ s.2 = s'.2

theorem scan_addInput {s s' : Ordering N × List (Edge N)} (h : Scan s s') (n : N) (inp : Option Nat) (out : Option (N × Nat)) :
    Both Scan (addInput n inp out s) (addInput n inp out s') := by
  unfold addInput
  split
  · refine (sim_addEdge h.1 _ _).map ?_
    intro g g' hg
    exact ⟨hg, by rw [h.2]⟩
  · exact .some h

theorem scan_moved {m m' : Matrix N} {k dy : Nat} (hm : WF m) (hm' : WF m') (h : Moved m m' (2 * k) dy) :
    Both Scan ((positions m.w m.h).foldlM m.scanCell (m.graph.clear, [])) ((positions m'.w m'.h).foldlM m'.scanCell (m'.graph.clear, [])) := by
  rw [foldlM_used hm, foldlM_used hm', used_moved h]
  refine Both.foldlM (fun p q => q = (p.1 + 2 * k, p.2 + dy) ∧ p ∈ used m) ?_ ?_ ⟨sim_clear hm.graph hm'.graph, rfl⟩
  · rintro s s' p _ hs ⟨rfl, hp⟩
    have hq : (p.1 + 2 * k, p.2 + dy) ∈ used m' := by rw [mem_used]; simp only; rw [h.1]; exact mem_used.1 hp
    rw [scanCell_seen hm p (List.mem_filter.1 hp).1, scanCell_seen hm' _ (List.mem_filter.1 hq).1]
    simp only
    rw [h.1, adjOut_moved h _ _ .T rfl, adjOut_moved h _ _ .TL rfl, adjOut_moved h _ _ .BL rfl]
    cases m.seen p.1 p.2 with
    | none => exact .some hs
    | some c =>
      simp only
      cases c.nodeId with
      | none => exact .none
      | some n =>
        exact (scan_addInput (s := ((s.1.addNode n).1, s.2)) (s' := ((s'.1.addNode n).1, s'.2)) ⟨(sim_addNode hs.1 n).1, hs.2⟩ n _ _).bind (fun _ _ h1 => (scan_addInput h1 n _ _).bind (fun _ _ h2 => scan_addInput h2 n _ _))
  · rw [List.forall₂_map_right_iff]
    have := forall2_self (P := fun p => p ∈ used m) (l := used m) (fun p hp => hp)
    exact this.imp (fun a b h => by obtain ⟨rfl, h⟩ := h; exact ⟨rfl, h⟩)

theorem updateGraph_moved {m m' : Matrix N} {k dy : Nat} (hm : WF m) (hm' : WF m') (h : Moved m m' (2 * k) dy) :
    Both (fun a b : Matrix N => Sim a.graph b.graph ∧ a.edges = b.edges) m.updateGraph m'.updateGraph := by
  unfold Matrix.updateGraph
  exact (scan_moved hm hm' h).map (fun a b hab => hab)

theorem both_eq {α β γ : Type} {R : α → β → Prop} {x : Option α} {y : Option β} (h : Both R x y) {f : α → γ} {g : β → γ}
    (hf : ∀ a b, R a b → f a = g b) : x.map f = y.map g := by
  cases h with
  | none => rfl
  | some h => simp [hf _ _ h]

end HexoDSP.Matrix.MovedLemmas
