import Verif.Lemmas.BlockFun
import Mathlib.Order.MinMax
/-! `recalculate_area_sizes` ends, and what the sizes are afterwards. -/

set_option linter.unusedSectionVars false
set_option linter.dupNamespace false

namespace HexoDSP.Block

/-- The size without the size the area already has. -/
def need (a : Area) (sub : Nat → Nat × Nat) : Nat × Nat := a.blocks.foldl (Area.growFor sub) a.slotSize

theorem resolve_eq (a : Area) (sub : Nat → Nat × Nat) :
    a.resolveSize sub = if a.autoShrink then need a sub else (max a.size.1 (need a sub).1, max a.size.2 (need a sub).2) := rfl

theorem slotFold_w (l : List (Pos × Pos)) (w : Nat) : ∀ s : Nat × Nat,
    (l.foldl (fun s e => (max s.1 ((max e.1.1 0).toNat + 1), max s.2 ((max e.1.2 0).toNat + 1))) s).1 ≤ w ↔
      s.1 ≤ w ∧ ∀ e ∈ l, (max e.1.1 0).toNat + 1 ≤ w := by
  induction l with
  | nil => intro s; simp
  | cons e l ih =>
    intro s
    rw [List.foldl_cons, ih]
    simp only [List.forall_mem_cons, Nat.max_le]
    rw [and_assoc]

theorem slotFold_h (l : List (Pos × Pos)) (w : Nat) : ∀ s : Nat × Nat,
    (l.foldl (fun s e => (max s.1 ((max e.1.1 0).toNat + 1), max s.2 ((max e.1.2 0).toNat + 1))) s).2 ≤ w ↔
      s.2 ≤ w ∧ ∀ e ∈ l, (max e.1.2 0).toNat + 1 ≤ w := by
  induction l with
  | nil => intro s; simp
  | cons e l ih =>
    intro s
    rw [List.foldl_cons, ih]
    simp only [List.forall_mem_cons, Nat.max_le]
    rw [and_assoc]

theorem growFor_w (sub : Nat → Nat × Nat) (s : Nat × Nat) (e : Pos × Block) (w : Nat) :
    (Area.growFor sub s e).1 ≤ w ↔ s.1 ≤ w ∧ (∀ c, e.2.contains.1 = some c → (max e.1.1 0).toNat + (sub c).1 + 1 ≤ w) ∧
      (∀ c, e.2.contains.2 = some c → (max e.1.1 0).toNat + (sub c).1 + 1 ≤ w) := by
  obtain ⟨o, ⟨id, rows, ⟨c1, c2⟩, ex, ty, lb, inp, out, col⟩⟩ := e
  cases c1 <;> cases c2 <;> simp [Area.growFor] <;> omega

theorem growFor_h (sub : Nat → Nat × Nat) (s : Nat × Nat) (e : Pos × Block) (w : Nat) :
    (Area.growFor sub s e).2 ≤ w ↔ s.2 ≤ w ∧ (∀ c, e.2.contains.1 = some c → (max e.1.2 0).toNat + (sub c).2 + 2 ≤ w) ∧
      (∀ c, e.2.contains.2 = some c → (max e.1.2 0).toNat + (match e.2.contains.1 with
        | none => 0
        | some d => (sub d).2 + 1) + (sub c).2 + 2 ≤ w) := by
  obtain ⟨o, ⟨id, rows, ⟨c1, c2⟩, ex, ty, lb, inp, out, col⟩⟩ := e
  cases c1 <;> cases c2 <;> simp [Area.growFor] <;> omega

theorem growFold_w (sub : Nat → Nat × Nat) (l : Load) (w : Nat) : ∀ s : Nat × Nat,
    (l.foldl (Area.growFor sub) s).1 ≤ w ↔ s.1 ≤ w ∧ ∀ e ∈ l, (∀ c, e.2.contains.1 = some c → (max e.1.1 0).toNat + (sub c).1 + 1 ≤ w) ∧
      (∀ c, e.2.contains.2 = some c → (max e.1.1 0).toNat + (sub c).1 + 1 ≤ w) := by
  induction l with
  | nil => intro s; simp
  | cons e l ih =>
    intro s
    rw [List.foldl_cons, ih, growFor_w]
    simp only [List.forall_mem_cons]
    rw [and_assoc]

theorem growFold_h (sub : Nat → Nat × Nat) (l : Load) (w : Nat) : ∀ s : Nat × Nat,
    (l.foldl (Area.growFor sub) s).2 ≤ w ↔ s.2 ≤ w ∧ ∀ e ∈ l, (∀ c, e.2.contains.1 = some c → (max e.1.2 0).toNat + (sub c).2 + 2 ≤ w) ∧
      (∀ c, e.2.contains.2 = some c → (max e.1.2 0).toNat + (match e.2.contains.1 with
        | none => 0
        | some d => (sub d).2 + 1) + (sub c).2 + 2 ≤ w) := by
  induction l with
  | nil => intro s; simp
  | cons e l ih =>
    intro s
    rw [List.foldl_cons, ih, growFor_h]
    simp only [List.forall_mem_cons]
    rw [and_assoc]

theorem need_w (a : Area) (sub : Nat → Nat × Nat) (w : Nat) : (need a sub).1 ≤ w ↔
    1 ≤ w ∧ (∀ e ∈ a.origin, (max e.1.1 0).toNat + 1 ≤ w) ∧
      ∀ e ∈ a.blocks, (∀ c, e.2.contains.1 = some c → (max e.1.1 0).toNat + (sub c).1 + 1 ≤ w) ∧
      (∀ c, e.2.contains.2 = some c → (max e.1.1 0).toNat + (sub c).1 + 1 ≤ w) := by
  unfold need Area.slotSize
  rw [growFold_w, slotFold_w, and_assoc]

theorem need_h (a : Area) (sub : Nat → Nat × Nat) (w : Nat) : (need a sub).2 ≤ w ↔
    1 ≤ w ∧ (∀ e ∈ a.origin, (max e.1.2 0).toNat + 1 ≤ w) ∧
      ∀ e ∈ a.blocks, (∀ c, e.2.contains.1 = some c → (max e.1.2 0).toNat + (sub c).2 + 2 ≤ w) ∧
      (∀ c, e.2.contains.2 = some c → (max e.1.2 0).toNat + (match e.2.contains.1 with
        | none => 0
        | some d => (sub d).2 + 1) + (sub c).2 + 2 ≤ w) := by
  unfold need Area.slotSize
  rw [growFold_h, slotFold_h, and_assoc]

/-- Both are not larger. -/
def Le (s t : Nat × Nat) : Prop := s.1 ≤ t.1 ∧ s.2 ≤ t.2

theorem Le.rfl' {s : Nat × Nat} : Le s s := ⟨Nat.le_refl _, Nat.le_refl _⟩
theorem Le.trans {s t u : Nat × Nat} (h : Le s t) (h' : Le t u) : Le s u := ⟨Nat.le_trans h.1 h'.1, Nat.le_trans h.2 h'.2⟩
theorem Le.antisymm {s t : Nat × Nat} (h : Le s t) (h' : Le t s) : s = t := Prod.ext (Nat.le_antisymm h.1 h'.1) (Nat.le_antisymm h.2 h'.2)

theorem need_mono (a : Area) {sub sub' : Nat → Nat × Nat} (h : ∀ c ∈ a.directSubs, Le (sub c) (sub' c)) : Le (need a sub) (need a sub') := by
  have hm1 : ∀ e ∈ a.blocks, ∀ c, e.2.contains.1 = some c → c ∈ a.directSubs := by
    intro e he c hc
    exact List.mem_flatMap.2 ⟨e, he, by rw [hc]; simp⟩
  have hm2 : ∀ e ∈ a.blocks, ∀ c, e.2.contains.2 = some c → c ∈ a.directSubs := by
    intro e he c hc
    exact List.mem_flatMap.2 ⟨e, he, by rw [hc]; simp⟩
  constructor
  · rw [need_w]
    obtain ⟨h1, h2, h3⟩ := (need_w a sub' _).1 (Nat.le_refl _)
    refine ⟨h1, h2, fun e he => ⟨fun c hc => ?_, fun c hc => ?_⟩⟩
    · have := (h3 e he).1 c hc
      have := (h c (hm1 e he c hc)).1
      omega
    · have := (h3 e he).2 c hc
      have := (h c (hm2 e he c hc)).1
      omega
  · rw [need_h]
    obtain ⟨h1, h2, h3⟩ := (need_h a sub' _).1 (Nat.le_refl _)
    refine ⟨h1, h2, fun e he => ⟨fun c hc => ?_, fun c hc => ?_⟩⟩
    · have := (h3 e he).1 c hc
      have := (h c (hm1 e he c hc)).2
      omega
    · have h4 := (h3 e he).2 c hc
      have h5 := (h c (hm2 e he c hc)).2
      cases hd : e.2.contains.1 with
      | none => rw [hd] at h4; simp only at h4 ⊢; omega
      | some d =>
        rw [hd] at h4
        have := (h d (hm1 e he d hd)).2
        simp only at h4 ⊢
        omega

theorem need_congr (a : Area) {sub sub' : Nat → Nat × Nat} (h : ∀ c ∈ a.directSubs, sub c = sub' c) : need a sub = need a sub' :=
  (need_mono a (fun c hc => by rw [h c hc]; exact Le.rfl')).antisymm (need_mono a (fun c hc => by rw [h c hc]; exact Le.rfl'))

theorem resolve_mono (a : Area) {sub sub' : Nat → Nat × Nat} (h : ∀ c ∈ a.directSubs, Le (sub c) (sub' c)) :
    Le (a.resolveSize sub) (a.resolveSize sub') := by
  have := need_mono a h
  rw [resolve_eq, resolve_eq]
  split
  · exact this
  · unfold Le at this ⊢
    simp only
    omega

theorem resolve_congr (a : Area) {sub sub' : Nat → Nat × Nat} (h : ∀ c ∈ a.directSubs, sub c = sub' c) :
    a.resolveSize sub = a.resolveSize sub' := by rw [resolve_eq, resolve_eq, need_congr a h]

/-! ## The dive -/

/-- `P` are the areas visited so far, `S` is the stack, `d` their depth. -/
structure DiveInv (f : BlockFun) (P S : List Nat) (parents : Nat → Nat) (sizes : Nat → Nat × Nat) (leaves : List Nat) (d : Nat → Nat) : Prop where
  nodup : (P ++ S).Nodup
  mem : ∀ y ∈ P ++ S, y < f.areas.length
  zero : 0 ∈ P ++ S
  dzero : d 0 = 0
  par : ∀ y ∈ P ++ S, y ≠ 0 → parents y ∈ P ∧ Edge f.areas (parents y) y ∧ d y = d (parents y) + 1
  reach : ∀ y ∈ P ++ S, Relation.ReflTransGen (Edge f.areas) 0 y
  depthS : ∀ y ∈ S, d y ≤ P.length
  depthP : ∀ y ∈ P, d y + 1 ≤ P.length
  closed : ∀ j ∈ P, ∀ y, Edge f.areas j y → y ∈ P ++ S
  leaf : ∀ y, y ∈ leaves ↔ y ∈ P ∧ ∀ c, ¬ Edge f.areas y c
  leafNodup : leaves.Nodup
  sz : ∀ j, sizes j = (0, 0) ∨ ∃ a, f.areas[j]? = some a ∧ sizes j = a.resolveSize (fun _ => (0, 0))

theorem dive_spec {f : BlockFun} (h : FunOk f) : ∀ (fuel : Nat) (P S : List Nat) (parents : Nat → Nat) (sizes : Nat → Nat × Nat)
    (leaves : List Nat) (d : Nat → Nat), DiveInv f P S parents sizes leaves d → f.areas.length ≤ fuel + P.length →
    ∃ P' parents' sizes' leaves' d', BlockFun.diveLoop f.areas fuel S parents sizes leaves = some (parents', sizes', leaves') ∧
      DiveInv f P' [] parents' sizes' leaves' d' := by
  intro fuel
  induction fuel with
  | zero =>
    intro P S parents sizes leaves d hi hlen
    have hle : (P ++ S).length ≤ f.areas.length := by
      have := (List.subperm_of_subset hi.nodup (l₂ := List.range f.areas.length) (fun y hy => List.mem_range.2 (hi.mem y hy))).length_le
      rwa [List.length_range] at this
    rw [List.length_append] at hle
    have hS : S = [] := List.length_eq_zero_iff.1 (by omega)
    subst hS
    exact ⟨P, _, _, _, d, rfl, hi⟩
  | succ n ih =>
    intro P S parents sizes leaves d hi hlen
    cases S with
    | nil => exact ⟨P, _, _, _, d, rfl, hi⟩
    | cons i S =>
      have him : i ∈ P ++ i :: S := by simp
      have hlt := hi.mem i him
      have ha : f.areas[i]? = some f.areas[i] := List.getElem?_eq_getElem hlt
      generalize f.areas[i] = a at ha
      unfold BlockFun.diveLoop
      rw [ha]
      simp only
      have hcons : P ++ i :: S = (P ++ [i]) ++ S := by simp
      have hnodup := hi.nodup
      have hmem := hi.mem
      have hzero := hi.zero
      have hpar := hi.par
      have hreach := hi.reach
      have hclosed := hi.closed
      rw [hcons] at hnodup hmem hzero hpar hreach hclosed
      have hiP : i ∉ P := by
        intro hP
        exact (List.nodup_append.1 (List.nodup_append.1 hnodup).1).2.2 i hP i (List.mem_singleton.2 rfl) rfl
      have hsz : ∀ j, (if j = i then a.resolveSize (fun _ => (0, 0)) else sizes j) = (0, 0) ∨
          ∃ a', f.areas[j]? = some a' ∧ (if j = i then a.resolveSize (fun _ => (0, 0)) else sizes j) = a'.resolveSize (fun _ => (0, 0)) := by
        intro j
        by_cases hj : j = i
        · subst hj
          exact .inr ⟨a, ha, if_pos rfl⟩
        · rw [if_neg hj]
          exact hi.sz j
      have hedge : ∀ c, Edge f.areas i c ↔ c ∈ a.directSubs := by
        intro c
        constructor
        · rintro ⟨a', ha', hc⟩
          rw [ha] at ha'
          cases ha'
          exact hc
        · intro hc; exact ⟨a, ha, hc⟩
      have hdi : d i ≤ P.length := hi.depthS i (by simp)
      split
      · rename_i hnil
        refine ih (P ++ [i]) S parents _ (i :: leaves) d ?_ ?_
        · refine ⟨hnodup, hmem, hzero, hi.dzero, ?_, hreach, ?_, ?_, ?_, ?_, ?_, hsz⟩
          · intro y hy h0
            obtain ⟨h1, h2, h3⟩ := hpar y hy h0
            exact ⟨List.mem_append.2 (.inl h1), h2, h3⟩
          · intro y hy
            have := hi.depthS y (by simp [hy])
            rw [List.length_append]; omega
          · intro y hy
            rw [List.length_append, List.length_singleton]
            rcases List.mem_append.1 hy with h1 | h1
            · have := hi.depthP y h1; omega
            · rw [List.mem_singleton] at h1; subst h1; omega
          · intro j hj y he
            rcases List.mem_append.1 hj with h1 | h1
            · exact hclosed j h1 y he
            · rw [List.mem_singleton] at h1
              subst h1
              rw [hedge, hnil] at he
              cases he
          · intro y
            rw [List.mem_cons, hi.leaf, List.mem_append, List.mem_singleton]
            constructor
            · rintro (h1 | ⟨h1, h2⟩)
              · subst h1
                refine ⟨.inr rfl, fun c hc => ?_⟩
                rw [hedge, hnil] at hc
                cases hc
              · exact ⟨.inl h1, h2⟩
            · rintro ⟨h1 | h1, h2⟩
              · exact .inr ⟨h1, h2⟩
              · exact .inl h1
          · rw [List.nodup_cons]
            exact ⟨fun hm => hiP ((hi.leaf i).1 hm).1, hi.leafNodup⟩
        · rw [List.length_append, List.length_singleton]; omega
      · rename_i hnil
        have hall : a.directSubs.all (fun s => decide (s < f.areas.length)) = true := by
          rw [List.all_eq_true]
          intro s hs
          rw [decide_eq_true_iff]
          exact (h.edge_lt ((hedge s).2 hs)).2
        rw [if_pos hall]
        have hnew : ∀ c ∈ a.directSubs, c ∉ P ++ [i] ++ S := by
          intro c hc hm
          have hec := (hedge c).2 hc
          have hc0 : c ≠ 0 := by have := (h.edge_lt hec).1; omega
          obtain ⟨h1, h2, _⟩ := hpar c hm hc0
          have := h.parent h2 hec
          rw [this] at h1
          exact hiP h1
        have hsubn : a.directSubs.Nodup := by
          have := h.subs
          rw [allSubs_eq, List.nodup_flatMap] at this
          exact this.1 _ (List.mem_of_getElem? ha)
        have hmemA : ∀ y, y ∈ (P ++ [i]) ++ (a.directSubs.reverse ++ S) ↔ y ∈ P ++ [i] ++ S ∨ y ∈ a.directSubs := by
          intro y
          simp only [List.mem_append, List.mem_reverse]
          tauto
        have hPS : ∀ y ∈ P ++ [i], y ∈ P ++ [i] ++ S := fun y hy => List.mem_append.2 (.inl hy)
        refine ih (P ++ [i]) (a.directSubs.reverse ++ S) _ _ leaves (fun j => if j ∈ a.directSubs then d i + 1 else d j) ?_ ?_
        · refine ⟨?_, ?_, ?_, ?_, ?_, ?_, ?_, ?_, ?_, ?_, hi.leafNodup, hsz⟩
          · have hp : ((P ++ [i]) ++ (a.directSubs.reverse ++ S)).Perm ((P ++ [i] ++ S) ++ a.directSubs) := by
              rw [List.append_assoc (P ++ [i]) S]
              refine List.Perm.append_left _ ?_
              refine List.perm_append_comm.trans ?_
              exact (List.reverse_perm _).append_left _
            rw [hp.nodup_iff, List.nodup_append]
            refine ⟨hnodup, hsubn, ?_⟩
            intro y hy c hc he
            subst he
            exact hnew y hc hy
          · intro y hy
            rcases (hmemA y).1 hy with h1 | h1
            · exact hmem y h1
            · exact (h.edge_lt ((hedge y).2 h1)).2
          · exact (hmemA 0).2 (.inl hzero)
          · show (if 0 ∈ a.directSubs then _ else _) = 0
            rw [if_neg (fun h0 => hnew 0 h0 hzero)]
            exact hi.dzero
          · intro y hy h0
            rcases (hmemA y).1 hy with h1 | h1
            · have hyn : y ∉ a.directSubs := fun hm => hnew y hm h1
              rw [if_neg hyn, if_neg hyn]
              obtain ⟨h2, h3, h4⟩ := hpar y h1 h0
              have hpn : parents y ∉ a.directSubs := fun hm => hnew _ hm (hPS _ (List.mem_append.2 (.inl h2)))
              rw [if_neg hpn]
              exact ⟨List.mem_append.2 (.inl h2), h3, h4⟩
            · rw [if_pos h1, if_pos h1]
              have hin : i ∉ a.directSubs := fun hm => hnew i hm (by simp)
              rw [if_neg hin]
              exact ⟨by simp, (hedge y).2 h1, rfl⟩
          · intro y hy
            rcases (hmemA y).1 hy with h1 | h1
            · exact hreach y h1
            · exact (hi.reach i him).tail ((hedge y).2 h1)
          · intro y hy
            rw [List.length_append, List.length_singleton]
            split
            · omega
            · rename_i hn
              rcases List.mem_append.1 hy with h1 | h1
              · exact absurd (List.mem_reverse.1 h1) hn
              · have := hi.depthS y (by simp [h1]); omega
          · intro y hy
            rw [List.length_append, List.length_singleton]
            rw [if_neg (fun hm => hnew y hm (hPS y hy))]
            rcases List.mem_append.1 hy with h1 | h1
            · have := hi.depthP y h1; omega
            · rw [List.mem_singleton] at h1; subst h1; omega
          · intro j hj y he
            rw [hmemA]
            rcases List.mem_append.1 hj with h1 | h1
            · exact .inl (hclosed j h1 y he)
            · rw [List.mem_singleton] at h1
              subst h1
              exact .inr ((hedge y).1 he)
          · intro y
            rw [hi.leaf, List.mem_append, List.mem_singleton]
            constructor
            · rintro ⟨h1, h2⟩; exact ⟨.inl h1, h2⟩
            · rintro ⟨h1 | h1, h2⟩
              · exact ⟨h1, h2⟩
              · subst h1
                obtain ⟨c, hc⟩ := List.exists_mem_of_ne_nil _ hnil
                exact absurd ((hedge c).2 hc) (h2 c)
        · rw [List.length_append, List.length_singleton]; omega

theorem dive_start {f : BlockFun} (h : FunOk f) : DiveInv f [] [0] (fun _ => 0) (fun _ => (0, 0)) [] (fun _ => 0) := by
  refine ⟨by simp, ?_, by simp, rfl, ?_, ?_, ?_, ?_, ?_, ?_, List.nodup_nil, fun j => .inl rfl⟩
  · intro y hy
    simp only [List.nil_append, List.mem_singleton] at hy
    subst hy
    exact List.length_pos_iff.2 h.root
  · intro y hy h0
    simp only [List.nil_append, List.mem_singleton] at hy
    exact absurd hy h0
  · intro y hy
    simp only [List.nil_append, List.mem_singleton] at hy
    subst hy
    exact .refl
  · intro y _; exact Nat.le_refl _
  · intro y hy; cases hy
  · intro j hj; cases hj
  · intro y
    constructor
    · intro hy; cases hy
    · rintro ⟨hy, _⟩; cases hy

/-! ## The climb -/

/-- The areas are those of `f` with the sizes `sz`. -/
structure ClimbInv (f : BlockFun) (P : List Nat) (queue : List Nat) (sizes : Nat → Nat × Nat) (areas : List Area) (sz : Nat → Nat × Nat) : Prop where
  shape : ∀ j, areas[j]? = (f.areas[j]?).map (fun a : Area => ({ a with size := sz j } : Area))
  tokens : ∀ t ∈ queue, t ∈ P
  out : ∀ j a, f.areas[j]? = some a → j ∉ P → sz j = a.size
  mono : ∀ j a, f.areas[j]? = some a → Le (sizes j) (({ a with size := sz j } : Area).resolveSize sizes)
  upper : ∀ j a, f.areas[j]? = some a → a.autoShrink = false → Le a.size (sz j) ∧
    Le (sz j) (max a.size.1 (need a sizes).1, max a.size.2 (need a sizes).2)
  cons : ∀ j ∈ P, ∀ a, f.areas[j]? = some a → (sizes j = sz j ∧ ({ a with size := sz j } : Area).resolveSize sizes = sizes j) ∨
    ∃ t ∈ queue, Relation.ReflTransGen (Edge f.areas) j t

theorem need_size (a : Area) (s : Nat × Nat) (sub : Nat → Nat × Nat) : need { a with size := s } sub = need a sub := rfl

theorem edge_irrefl {f : BlockFun} (h : FunOk f) (i : Nat) : ¬ Edge f.areas i i := by
  rintro ⟨a, ha, hc⟩
  obtain ⟨rank, hr⟩ := h.rank
  exact absurd (hr i a ha i hc) (Nat.lt_irrefl _)

theorem climb_spec {f : BlockFun} (h : FunOk f) {P : List Nat} {parents d : Nat → Nat} (hP : ∀ y ∈ P, y < f.areas.length) (hd0 : d 0 = 0)
    (hpar : ∀ y ∈ P, y ≠ 0 → parents y ∈ P ∧ Edge f.areas (parents y) y ∧ d y = d (parents y) + 1) :
    ∀ (fuel : Nat) (queue : List Nat) (sizes : Nat → Nat × Nat) (areas : List Area) (sz : Nat → Nat × Nat),
      ClimbInv f P queue sizes areas sz → (queue.map (fun t => d t + 1)).sum ≤ fuel →
      ∃ sizes' areas' sz', BlockFun.climbLoop fuel queue parents sizes areas = some areas' ∧ ClimbInv f P [] sizes' areas' sz' := by
  intro fuel
  induction fuel with
  | zero =>
    intro queue sizes areas sz hi hf
    cases queue with
    | nil => exact ⟨sizes, areas, sz, rfl, hi⟩
    | cons t q => simp at hf
  | succ n ih =>
    intro queue sizes areas sz hi hf
    cases queue with
    | nil => exact ⟨sizes, areas, sz, rfl, hi⟩
    | cons i q =>
      have hiP : i ∈ P := hi.tokens i (by simp)
      have hlt := hP i hiP
      have ha : f.areas[i]? = some f.areas[i] := List.getElem?_eq_getElem hlt
      generalize f.areas[i] = a at ha
      have hai : areas[i]? = some { a with size := sz i } := by rw [hi.shape i, ha]; rfl
      unfold BlockFun.climbLoop
      rw [hai]
      simp only
      generalize hs : ({ a with size := sz i } : Area).resolveSize sizes = s
      have hlen : i < areas.length := (List.getElem?_eq_some_iff.1 hai).1
      have hgrow : ∀ j, Le (sizes j) (if j = i then s else sizes j) := by
        intro j
        split
        · rename_i hj
          subst hj
          rw [← hs]
          exact hi.mono j a ha
        · exact Le.rfl'
      have hown : ∀ c ∈ a.directSubs, (fun j => if j = i then s else sizes j) c = sizes c := by
        intro c hc
        refine if_neg ?_
        intro hci
        subst hci
        exact edge_irrefl h c ⟨a, ha, hc⟩
      have hneed_own : need a (fun j => if j = i then s else sizes j) = need a sizes := need_congr a hown
      have hself : ({ a with size := s } : Area).resolveSize (fun j => if j = i then s else sizes j) = s := by
        rw [resolve_eq, need_size, hneed_own]
        rw [resolve_eq, need_size] at hs
        simp only at hs ⊢
        split
        · rename_i hsh; rw [if_pos hsh] at hs; exact hs
        · rename_i hsh
          rw [if_neg hsh] at hs
          subst hs
          simp only [Prod.mk.injEq]
          omega
      refine ih _ _ _ (fun j => if j = i then s else sz j) ?_ ?_
      · refine ⟨?_, ?_, ?_, ?_, ?_, ?_⟩
        · intro j
          rw [List.getElem?_set]
          by_cases hj : i = j
          · subst hj
            rw [if_pos rfl, if_pos hlen, ha]
            simp
          · rw [if_neg hj, hi.shape j]
            have hj' : ¬ j = i := fun he => hj he.symm
            simp only [if_neg hj']
        · intro t ht
          have hq : ∀ t ∈ q, t ∈ P := fun t ht => hi.tokens t (by simp [ht])
          split at ht
          · rename_i hi0
            rcases List.mem_append.1 ht with h1 | h1
            · exact hq t h1
            · rw [List.mem_singleton] at h1
              subst h1
              exact (hpar i hiP (by omega)).1
          · exact hq t ht
        · intro j b hb hj
          have : j ≠ i := fun he => hj (he ▸ hiP)
          show (if j = i then s else sz j) = _
          rw [if_neg this]
          exact hi.out j b hb hj
        · intro j b hb
          show Le (if j = i then s else sizes j) _
          by_cases hj : j = i
          · subst hj
            rw [ha] at hb
            cases hb
            simp only [if_true]
            rw [hself]
            exact Le.rfl'
          · simp only [if_neg hj]
            exact (hi.mono j b hb).trans (resolve_mono _ (fun c _ => hgrow c))
        · intro j b hb hsh
          show Le _ (if j = i then s else sz j) ∧ Le (if j = i then s else sz j) _
          by_cases hj : j = i
          · subst hj
            rw [ha] at hb
            cases hb
            simp only [if_true, hneed_own]
            obtain ⟨h1, h2⟩ := hi.upper j a ha hsh
            rw [resolve_eq, need_size] at hs
            simp only [hsh, Bool.false_eq_true, if_false] at hs
            subst hs
            unfold Le at h1 h2 ⊢
            simp only at h1 h2 ⊢
            omega
          · simp only [if_neg hj]
            obtain ⟨h1, h2⟩ := hi.upper j b hb hsh
            refine ⟨h1, h2.trans ?_⟩
            have := need_mono b (sub := sizes) (sub' := fun j => if j = i then s else sizes j) (fun c _ => hgrow c)
            unfold Le at this ⊢
            simp only at this ⊢
            omega
        · intro j hj b hb
          by_cases hji : j = i
          · subst hji
            rw [ha] at hb
            cases hb
            simp only [if_true]
            exact .inl ⟨trivial, hself⟩
          · simp only [if_neg hji]
            -- the token at `i` went to the parent
            have hup : ∀ x, x ≠ i → Relation.ReflTransGen (Edge f.areas) x i → i ≠ 0 ∧ Relation.ReflTransGen (Edge f.areas) x (parents i) := by
              intro x hx hr
              rcases Relation.ReflTransGen.cases_tail hr with h1 | ⟨c, h1, h2⟩
              · exact absurd h1.symm hx
              · have h0 : i ≠ 0 := by have := (h.edge_lt h2).1; omega
                rw [h.parent h2 (hpar i hiP h0).2.1] at h1
                exact ⟨h0, h1⟩
            have hin : ∀ t, t ∈ q → t ∈ (if i > 0 then q ++ [parents i] else q) := by
              intro t ht
              split
              · exact List.mem_append.2 (.inl ht)
              · exact ht
            have hin2 : i ≠ 0 → parents i ∈ (if i > 0 then q ++ [parents i] else q) := by
              intro h0
              rw [if_pos (by omega)]
              simp
            by_cases hei : Edge f.areas j i
            · have h0 : i ≠ 0 := by have := (h.edge_lt hei).1; omega
              refine .inr ⟨parents i, hin2 h0, ?_⟩
              rw [h.parent hei (hpar i hiP h0).2.1]
            · rcases hi.cons j hj b hb with ⟨h1, h2⟩ | ⟨t, ht, hr⟩
              · refine .inl ⟨h1, ?_⟩
                rw [← h2]
                refine resolve_congr _ ?_
                intro c hc
                refine if_neg ?_
                intro hci
                subst hci
                exact hei ⟨b, hb, hc⟩
              · rcases List.mem_cons.1 ht with h1 | h1
                · subst h1
                  obtain ⟨h0, h2⟩ := hup j hji hr
                  exact .inr ⟨_, hin2 h0, h2⟩
                · exact .inr ⟨t, hin t h1, hr⟩
      · rw [List.map_cons, List.sum_cons] at hf
        split
        · rename_i hi0
          rw [List.map_append, List.sum_append]
          have := (hpar i hiP (by omega)).2.2
          simp
          omega
        · omega

theorem exists_leaf {f : BlockFun} (h : FunOk f) : ∀ y, y < f.areas.length →
    ∃ t, Relation.ReflTransGen (Edge f.areas) y t ∧ ∀ c, ¬ Edge f.areas t c := by
  obtain ⟨rank, hr⟩ := h.rank
  have hr : ∀ i c, Edge f.areas i c → rank i < rank c := fun i c ⟨a, ha, hc⟩ => hr i a ha c hc
  obtain ⟨M, hM⟩ : ∃ M, ∀ y, y < f.areas.length → rank y ≤ M := by
    generalize f.areas.length = n
    induction n with
    | zero => exact ⟨0, fun y hy => absurd hy (Nat.not_lt_zero _)⟩
    | succ n ih =>
      obtain ⟨M, hM⟩ := ih
      refine ⟨max M (rank n), fun y hy => ?_⟩
      rcases Nat.lt_succ_iff_lt_or_eq.1 hy with h1 | h1
      · have := hM y h1; omega
      · subst h1; omega
  have key : ∀ k y, y < f.areas.length → M - rank y ≤ k → ∃ t, Relation.ReflTransGen (Edge f.areas) y t ∧ ∀ c, ¬ Edge f.areas t c := by
    intro k
    induction k with
    | zero =>
      intro y hy hk
      refine ⟨y, .refl, fun c hc => ?_⟩
      have h1 := hr y c hc
      have h2 := hM c (h.edge_lt hc).2
      omega
    | succ k ih =>
      intro y hy hk
      by_cases hl : ∀ c, ¬ Edge f.areas y c
      · exact ⟨y, .refl, hl⟩
      · have : ∃ c, Edge f.areas y c := Classical.byContradiction fun hn => hl fun c hc => hn ⟨c, hc⟩
        obtain ⟨c, hc⟩ := this
        have h1 := hr y c hc
        have h2 := hM c (h.edge_lt hc).2
        obtain ⟨t, ht, hl⟩ := ih c (h.edge_lt hc).2 (by omega)
        exact ⟨t, Relation.ReflTransGen.head hc ht, hl⟩
  intro y hy
  exact key _ y hy (Nat.le_refl _)

/-- `recalculate_area_sizes` ends; the areas inside the root area have the size they need, all else is as before. -/
theorem recalculate_terminates {f : BlockFun} (h : FunOk f) :
    ∃ sz : Nat → Nat × Nat, ∃ areas', f.recalculate = some { f with areas := areas' } ∧
      (∀ j, areas'[j]? = (f.areas[j]?).map (fun a : Area => ({ a with size := sz j } : Area))) ∧
      ∀ j a, f.areas[j]? = some a →
        (Relation.ReflTransGen (Edge f.areas) 0 j → sz j = if a.autoShrink then need a sz else (max a.size.1 (need a sz).1, max a.size.2 (need a sz).2)) ∧
        (¬ Relation.ReflTransGen (Edge f.areas) 0 j → sz j = a.size) := by
  obtain ⟨P, parents, sizes, leaves, d, hdive, hi⟩ := dive_spec h f.areas.length [] [0] _ _ _ _ (dive_start h) (by simp)
  have hPS : P ++ [] = P := List.append_nil P
  have hmem := hi.mem
  have hpar := hi.par
  have hreach := hi.reach
  have hclosed := hi.closed
  have hzero := hi.zero
  have hnodup := hi.nodup
  rw [hPS] at hmem hpar hreach hclosed hzero hnodup
  have hPiff : ∀ y, y ∈ P ↔ Relation.ReflTransGen (Edge f.areas) 0 y := by
    intro y
    refine ⟨hreach y, fun hr => ?_⟩
    induction hr with
    | refl => exact hzero
    | tail _ he ih => exact hclosed _ ih _ he
  have hPlen : P.length ≤ f.areas.length := by
    have := (List.subperm_of_subset hnodup (l₂ := List.range f.areas.length) (fun y hy => List.mem_range.2 (hmem y hy))).length_le
    rwa [List.length_range] at this
  have hleaf : ∀ t ∈ leaves, d t + 1 ≤ f.areas.length := fun t ht => Nat.le_trans (hi.depthP t ((hi.leaf t).1 ht).1) hPlen
  have hleaflen : leaves.length ≤ f.areas.length := by
    have := (List.subperm_of_subset hi.leafNodup (l₂ := P) (fun y hy => ((hi.leaf y).1 hy).1)).length_le
    exact Nat.le_trans this hPlen
  have hsum : (leaves.map (fun t => d t + 1)).sum ≤ f.areas.length * f.areas.length := by
    have : ∀ (l : List Nat) (n : Nat), (∀ t ∈ l, d t + 1 ≤ n) → (l.map (fun t => d t + 1)).sum ≤ l.length * n := by
      intro l n
      induction l with
      | nil => intro _; simp
      | cons t l ih =>
        intro hl
        have h1 := ih (fun t ht => hl t (by simp [ht]))
        have h2 := hl t (by simp)
        rw [List.map_cons, List.sum_cons, List.length_cons, Nat.add_mul]
        omega
    exact Nat.le_trans (this leaves _ hleaf) (Nat.mul_le_mul_right _ hleaflen)
  obtain ⟨sizes', areas', sz, hclimb, hc⟩ := climb_spec h hmem hi.dzero hpar (f.areas.length * f.areas.length) leaves sizes f.areas
    (fun j => match f.areas[j]? with
      | none => (0, 0)
      | some a => a.size) ⟨by
        intro j
        cases f.areas[j]? with
        | none => rfl
        | some a => rfl, fun t ht => ((hi.leaf t).1 ht).1, by
        intro j a ha _
        simp only [ha], by
        intro j a ha
        simp only [ha]
        rcases hi.sz j with h1 | ⟨a', ha', h1⟩
        · rw [h1]; exact ⟨Nat.zero_le _, Nat.zero_le _⟩
        · rw [ha] at ha'
          cases ha'
          rw [h1]
          exact resolve_mono _ (fun c _ => ⟨Nat.zero_le _, Nat.zero_le _⟩), by
        intro j a ha _
        simp only [ha]
        exact ⟨Le.rfl', Nat.le_max_left _ _, Nat.le_max_left _ _⟩, by
        intro j hj a ha
        refine .inr ?_
        obtain ⟨t, ht, hl⟩ := exists_leaf h j (hmem j hj)
        exact ⟨t, (hi.leaf t).2 ⟨(hPiff t).2 (((hPiff j).1 hj).trans ht), hl⟩, ht⟩⟩ hsum
  refine ⟨sz, areas', ?_, hc.shape, ?_⟩
  · unfold BlockFun.recalculate
    rw [hdive]
    simp only
    rw [hclimb]
    rfl
  · intro j a ha
    refine ⟨fun hr => ?_, fun hr => hc.out j a ha (fun hp => hr ((hPiff j).1 hp))⟩
    have hjP := (hPiff j).2 hr
    have heq : ∀ y ∈ P, sizes' y = sz y := by
      intro y hy
      have hya : f.areas[y]? = some (f.areas[y]'(hmem y hy)) := List.getElem?_eq_getElem (hmem y hy)
      rcases hc.cons y hy _ hya with ⟨h1, _⟩ | ⟨t, ht, _⟩
      · exact h1
      · cases ht
    have hneed : need a sizes' = need a sz := need_congr a (fun c hc' => heq c (hclosed j hjP c ⟨a, ha, hc'⟩))
    rcases hc.cons j hjP a ha with ⟨h1, h2⟩ | ⟨t, ht, _⟩
    · rw [resolve_eq, need_size, hneed, h1] at h2
      simp only at h2
      split
      · rename_i hs; rw [if_pos hs] at h2; exact h2.symm
      · rename_i hs
        rw [if_neg hs] at h2
        have hs' : a.autoShrink = false := by simpa using hs
        obtain ⟨h3, h4⟩ := hc.upper j a ha hs'
        rw [hneed] at h4
        have e1 := congrArg Prod.fst h2
        have e2 := congrArg Prod.snd h2
        unfold Le at h3 h4
        simp only at h3 h4 e1 e2
        refine Prod.ext ?_ ?_ <;> simp only <;> omega
    · cases ht

/-- The invariant does not depend on the sizes. -/
theorem FunOk.resize {f : BlockFun} (h : FunOk f) {areas' : List Area} {sz : Nat → Nat × Nat}
    (hs : ∀ j, areas'[j]? = (f.areas[j]?).map (fun a : Area => ({ a with size := sz j } : Area))) {g : Nat} :
    Next f { f with areas := areas', generation := g } := by
  have hlen : areas'.length = f.areas.length := by
    apply Nat.le_antisymm
    · apply Nat.le_of_not_lt
      intro hlt
      have h1 := hs f.areas.length
      rw [List.getElem?_eq_getElem hlt, List.getElem?_eq_none (Nat.le_refl _)] at h1
      cases h1
    · apply Nat.le_of_not_lt
      intro hlt
      have h1 := hs areas'.length
      rw [List.getElem?_eq_none (Nat.le_refl _), List.getElem?_eq_getElem hlt] at h1
      cases h1
  have hmap : areas'.map (fun a => (a.blocks, a.origin)) = f.areas.map (fun a => (a.blocks, a.origin)) := by
    refine List.ext_getElem? ?_
    intro j
    rw [List.getElem?_map, List.getElem?_map, hs j]
    cases f.areas[j]? <;> rfl
  have hall : ({ f with areas := areas', generation := g } : BlockFun).allBlocks = f.allBlocks := by
    have h1 : ∀ l : List Area, l.flatMap Area.bs = (l.map (fun a => (a.blocks, a.origin))).flatMap (fun e => e.1.map (·.2)) := by
      intro l; rw [List.flatMap_map]; rfl
    show areas'.flatMap Area.bs = f.areas.flatMap Area.bs
    rw [h1, h1, hmap]
  refine ⟨⟨?_, by rw [hall]; exact h.ids, by rw [hall]; exact h.idRange, by rw [hall]; exact h.subs, ?_, ?_, ?_⟩, Nat.le_refl _, fun b hb => .inr ⟨b, by rw [hall] at hb; exact hb, rfl⟩⟩
  · intro a ha
    obtain ⟨j, hj⟩ := List.getElem?_of_mem ha
    rw [hs j] at hj
    cases hf : f.areas[j]? with
    | none => rw [hf] at hj; cases hj
    | some b =>
      rw [hf] at hj
      cases hj
      have := h.area hf
      exact ⟨this.load, this.orig⟩
  · rw [hall]
    intro c hc
    have := h.subRange c hc
    show 1 ≤ c ∧ c < areas'.length
    rw [hlen]
    exact this
  · obtain ⟨rank, hr⟩ := h.rank
    refine ⟨rank, ?_⟩
    intro j a ha c hc
    have ha' : areas'[j]? = some a := ha
    rw [hs j] at ha'
    cases hf : f.areas[j]? with
    | none => rw [hf] at ha'; cases ha'
    | some b =>
      rw [hf] at ha'
      cases ha'
      exact hr j b hf c hc
  · have := h.root
    intro h0
    have h0' : areas' = [] := h0
    rw [h0'] at hlen
    exact this (List.length_eq_zero_iff.1 hlen.symm)

end HexoDSP.Block
