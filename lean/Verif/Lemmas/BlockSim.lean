import Verif.Lemmas.BlockTree2
import Verif.Lemmas.BlockNames
/-! The compiled program does what the diagram says: the simulation. -/

set_option linter.unusedSectionVars false
set_option linter.dupNamespace false

namespace HexoDSP.Block

/-! ## The types -/

/-- What the compiler relies on about a type. -/
structure Shape (typ : String) (t : BlockType) : Prop where
  inner : typ ≠ "<a>" ∧ typ ≠ "<r>" ∧ typ ≠ "<res>"
  ins : ∃ names : List String, t.inputs = names.map some ∧ (names.head? = some "" ∨ (names.Nodup ∧ "" ∉ names))
  leaf : typ = "zero" ∨ typ = "value" ∨ typ = "get" → t.inputs = [] ∧ t.outputs = [some ""]
  wire : typ = "->" → t.inputs = [some ""] ∧ t.outputs = [some ""]
  fan : typ = "->2" ∨ typ = "->3" → t.inputs = [some ""] ∧ ∀ x ∈ t.outputs, x = some ""
  set : typ = "set" → t.inputs = [some ""] ∧ t.outputs = []
  bin : (binOf typ).isSome = true → t.inputs.length = 2 ∧ t.outputs = [some ""]
  outs : typ ≠ "->2" → typ ≠ "->3" → 2 ≤ (t.outputs.filterMap (fun o => o)).length →
    (t.outputs.filterMap (fun o => o)).Nodup ∧ "" ∉ t.outputs.filterMap (fun o => o)

theorem filterMap_some_map {α β : Type} (l : List α) (g : α → β) : (l.map (fun x => some (g x))).filterMap (fun o => o) = l.map g := by
  induction l with
  | nil => rfl
  | cons x l ih => simp [ih]

theorem builtin_shape : ∀ t ∈ builtinTypes, Shape t.name t := by
  intro t ht
  simp only [builtinTypes, List.mem_cons, List.not_mem_nil, or_false] at ht
  rcases ht with rfl | rfl | rfl | rfl | rfl | rfl | rfl | rfl | rfl | rfl | rfl | rfl | rfl | rfl
  all_goals
    refine ⟨by decide, ?_, by decide, by decide, by decide, by decide, by decide, by decide⟩
  all_goals first
    | exact ⟨[], rfl, .inr (by decide)⟩
    | exact ⟨[""], rfl, .inl rfl⟩
    | exact ⟨["", ""], rfl, .inl rfl⟩
    | exact ⟨["a", "b"], rfl, .inr (by decide)⟩

theorem language_shape {lib : List DspNode} (h : LibOk lib) {typ : String} {t : BlockType} (ht : language lib typ = some t) : Shape typ t := by
  unfold language at ht
  have hn : t.name = typ := by simpa using List.find?_some ht
  have hm := List.mem_of_find?_eq_some ht
  rw [List.mem_reverse, List.mem_append] at hm
  subst hn
  rcases hm with hm | hm
  · exact builtin_shape t hm
  · obtain ⟨n, hn, rfl⟩ := List.mem_map.1 hm
    obtain ⟨h1, h2, h3, h4⟩ := h n hn
    have hname : n.type.name = n.name := rfl
    rw [hname]
    have hb : ∀ s, s ∈ builtinTypes.map (·.name) → n.name ≠ s := fun s hs he => h1 (he ▸ hs)
    have hout : n.type.outputs.filterMap (fun o => o) = n.outputs.map cutName :=
      filterMap_some_map n.outputs (fun s => String.ofList (s.toList.take 2))
    refine ⟨?_, ⟨n.inputs.map cutName, ?_, h4⟩, ?_, ?_, ?_, ?_, ?_, ?_⟩
    · simpa using h2
    · show n.inputs.map _ = _
      rw [List.map_map]; rfl
    · rintro (he | he | he) <;> exact absurd he (hb _ (by decide))
    · intro he; exact absurd he (hb _ (by decide))
    · rintro (he | he) <;> exact absurd he (hb _ (by decide))
    · intro he; exact absurd he (hb _ (by decide))
    · intro he
      exfalso
      unfold binOf at he
      rw [if_neg (hb _ (by decide)), if_neg (hb _ (by decide)), if_neg (hb _ (by decide)), if_neg (hb _ (by decide))] at he
      cases he
    · intro _ _ hl
      rw [hout] at hl ⊢
      exact h3 (by simpa using hl)

/-! ## The blocks -/

section
variable {F S : Type}

/-- The names of the inputs, from top to bottom. -/
def Block.inNames (b : Block) : List String := b.inputs.filterMap (fun o => o)
/-- The names of the outputs, from top to bottom. -/
def Block.outNamesOf (b : Block) : List String := b.outputs.filterMap (fun o => o)

theorem rows_names : ∀ (l : List (Option String)) (n : Nat), l.length ≤ n →
    ((List.range n).filter (fun i => (l.getD i none).isSome)).map (fun r => (l.getD r none).getD "") = l.filterMap (fun o => o) := by
  intro l
  induction l with
  | nil => intro n _; simp
  | cons x l ih =>
    intro n hn
    obtain ⟨m, rfl⟩ : ∃ m, n = m + 1 := ⟨n - 1, by simp at hn; omega⟩
    rw [List.range_succ_eq_map, List.filter_cons]
    have ih' := ih m (by simpa using hn)
    have e : ((List.map Nat.succ (List.range m)).filter (fun i => ((x :: l).getD i none).isSome)).map (fun r => ((x :: l).getD r none).getD "") =
        l.filterMap (fun o => o) := by
      rw [List.filter_map, List.map_map, ← ih']
      rfl
    cases x with
    | none =>
      simp only [List.getD_cons_zero, Option.isSome_none, Bool.false_eq_true, if_false, List.filterMap_cons]
      exact e
    | some s =>
      simp only [List.getD_cons_zero, Option.isSome_some, if_true, List.filterMap_cons, List.map_cons, Option.getD_some]
      exact congrArg _ e

/-- What the simulation uses about a block. -/
structure BOk (L : Lang) (parse : String → Option F) (b : Block) (t : BlockType) : Prop where
  typ : L b.typ = some t
  shape : Shape b.typ t
  id : 1 ≤ b.id
  ins : b.inputRows.map (fun r => (b.inputs.getD r none).getD "") = t.inputs.filterMap (fun o => o)
  outs : (b.outputRows.map (fun r => (b.outputs.getD r none).getD "")).Perm (t.outputs.filterMap (fun o => o))
  number : b.typ = "value" → (parse b.lbl).isSome = true
  name : b.typ = "set" ∨ b.typ = "get" → UserVar b.lbl
  noIf : b.typ ≠ "if"

theorem BOk.of {lib : List DspNode} (h : LibOk lib) {parse : String → Option F} {b : Block} (hc : b.Conforms (language lib))
    (hu : b.Usable (language lib) parse) (hid : 1 ≤ b.id) : ∃ t, BOk (language lib) parse b t := by
  obtain ⟨t, h1, h2, h3, h4, h5, h6⟩ := hc
  refine ⟨t, h1, language_shape h h1, hid, ?_, ?_, hu.number, hu.name, hu.noIf⟩
  · rw [← hu.orderly t h1]
    exact rows_names b.inputs b.rows h3
  · have := rows_names b.outputs b.rows h4
    unfold Block.outputRows
    rw [this]
    exact h6

/-- Blocks whose outputs the compiler keeps in variables. -/
def Cached (L : Lang) (b : Block) : Prop := b.typ = "->2" ∨ b.typ = "->3" ∨ 2 ≤ (outNames L b.typ).length

theorem BOk.outNames {L : Lang} {parse : String → Option F} {b : Block} {t : BlockType} (h : BOk L parse b t) :
    outNames L b.typ = t.outputs.filterMap (fun o => o) := by unfold Block.outNames; rw [h.typ]

/-! ## The places -/

/-- All consumers of a slot have run. -/
def Settled (a : Area) (D : Nat → Prop) (q : Pos) : Prop := ∀ o b, Consumes a q o b → D b.id

theorem Consumes.unique {a : Area} (ha : AreaOk a) {p o o' : Pos} {b b' : Block} (h : Consumes a p o b) (h' : Consumes a p o' b') :
    o = o' ∧ b = b' := by
  have cov : ∀ {o b}, Consumes a p o b → a.refAtOrigin (p.1 + 1, p.2) = some (b, o) := by
    rintro o b ⟨hb, r, hr, h1, h2⟩
    have := (mem_inputRows.1 hr).1
    exact refAtOrigin_of ha hb ⟨h1.symm, by show o.2 ≤ p.2; omega, by show p.2 < _; omega⟩
  have h1 := cov h
  rw [cov h'] at h1
  simp only [Option.some.injEq, Prod.mk.injEq] at h1
  exact ⟨h1.2.symm, h1.1.symm⟩

/-- The slot `p` is the output `name` of the block at `o`. -/
def IsOut (a : Area) (p o : Pos) (b : Block) (name : String) : Prop :=
  a.refAtOrigin p = some (b, o) ∧ b.outputs.getD (p.2 - o.2).toNat none = some name

theorem IsOut.row {a : Area} (ha : AreaOk a) {p o : Pos} {b : Block} {name : String} (h : IsOut a p o b name) :
    (o, b) ∈ a.blocks ∧ ∃ r ∈ b.outputRows, p = (o.1, o.2 + (r : Int)) ∧ (b.outputs.getD r none).getD "" = name := by
  obtain ⟨hb, h1, h2, h3⟩ := refAtOrigin_mem ha h.1
  refine ⟨hb, (p.2 - o.2).toNat, mem_outputRows.2 ⟨by omega, by rw [h.2]; rfl⟩, ?_, by rw [h.2]; rfl⟩
  rw [Prod.ext_iff]
  exact ⟨h1, by show p.2 = _; omega⟩

theorem sum_ones {α : Type} (l : List α) : (l.map (fun _ => 1)).sum = l.length := by
  induction l with
  | nil => rfl
  | cons x l ih => simp only [List.map_cons, List.sum_cons, ih, List.length_cons]; omega

/-- The number of blocks further left. -/
def rank (a : Area) (o : Pos) : Nat := (a.blocks.filter (fun e => decide (e.1.1 < o.1))).length

theorem rank_lt {a : Area} {o o' : Pos} {b' : Block} (h : (o', b') ∈ a.blocks) (hlt : o'.1 < o.1) : rank a o' < rank a o := by
  have := sum_filter_lt (fun _ : Pos × Block => 1) (fun e => decide (e.1.1 < o.1)) (fun e => decide (e.1.1 < o'.1))
    (by intro x hx; simp only [decide_eq_true_eq] at *; omega) a.blocks (o', b') h (by simpa using hlt) (by simp)
  rw [sum_ones, sum_ones] at this
  unfold rank
  omega

theorem rank_lt_length {a : Area} {o : Pos} {b : Block} (h : (o, b) ∈ a.blocks) : rank a o < a.blocks.length := by
  have := sum_filter_lt (fun _ : Pos × Block => 1) (fun _ => true) (fun e => decide (e.1.1 < o.1))
    (by intro x _; rfl) a.blocks (o, b) h rfl (by simp)
  rw [sum_ones, sum_ones, List.filter_true] at this
  unfold rank
  omega

/-! ## The invariants -/

/-- While compiling: the blocks `D` were compiled, the wires `W` were used. -/
structure CInv (a : Area) (L : Lang) (cs : CS) (D : Nat → Prop) (W : Pos → Prop) : Prop where
  ents : ∀ e ∈ cs.map, ∃ i nm j x, D i ∧ 1 ≤ i ∧ e.1 = idout i nm ∧ e.2 = tmpName j x ∧ j ≤ cs.counter
  kept : ∀ o b, (o, b) ∈ a.blocks → D b.id → Cached L b → ∀ nm ∈ outNames L b.typ, ∃ v, cs.var b.id nm = some v
  once : ∀ o b, (o, b) ∈ a.blocks → D b.id → ¬ Cached L b → ∀ r ∈ b.outputRows, W (o.1, o.2 + (r : Int))

/-- While running. -/
structure Rel (cs : CS) (D : Nat → Prop) (env : Env F S) (r : Run F S) : Prop where
  done : ∀ i, (r.done i).isSome = true ↔ D i
  outs : ∀ i outs nm v, r.done i = some outs → cs.var i nm = some v → env.vars v = outs nm
  user : ∀ x, UserVar x → env.vars x = r.vars x
  mem : env.mem = r.mem
  res : ∀ v, r.res = some v → env.vars "_res_" = v

/-- What compiling something in the column `X` may change; `new` are the wires that it asks for. -/
structure Step (a : Area) (L : Lang) (X : Int) (new : Pos → Prop) (sink : Nat → Prop) (cs : CS) (D : Nat → Prop) (W : Pos → Prop)
    (cs' : CS) (D' : Nat → Prop) (W' : Pos → Prop) : Prop where
  inv : CInv a L cs' D' W'
  dmono : ∀ i, D i → D' i
  wmono : ∀ q, W q → W' q
  cnt : cs.counter ≤ cs'.counter
  ents : ∀ e ∈ cs'.map, e ∈ cs.map ∨ ∃ i x, e.2 = tmpName i x ∧ cs.counter < i
  pre : ∀ q, W' q → q.1 < X → Settled a D' q
  neww : ∀ q, W' q → W q ∨ new q ∨ (q.1 < X ∧ ∃ o b, Consumes a q o b)
  newd : ∀ i, D' i → D i ∨ ∃ o b, (o, b) ∈ a.blocks ∧ b.id = i ∧ o.1 ≤ X ∧ (b.outputRows ≠ [] ∨ sink i)

theorem lookup_mem' {l : List (String × String)} {k v : String} (h : l.lookup k = some v) : (k, v) ∈ l := by
  induction l with
  | nil => cases h
  | cons e l ih =>
    rw [List.lookup_cons] at h
    by_cases he : k = e.1
    · rw [he] at h
      simp only [beq_self_eq_true, Option.some.injEq] at h
      rw [he, ← h]
      exact List.mem_cons_self
    · rw [beq_false_of_ne he] at h
      exact List.mem_cons_of_mem _ (ih h)

theorem CInv.var_none {a : Area} {L : Lang} {cs : CS} {D : Nat → Prop} {W : Pos → Prop} (h : CInv a L cs D W) {i : Nat} (hi : ¬ D i)
    (nm : String) : cs.var i nm = none := by
  cases hv : cs.var i nm with
  | none => rfl
  | some v =>
    exfalso
    obtain ⟨i', nm', j, x, h1, -, h2, -⟩ := h.ents _ (lookup_mem' hv)
    rw [(idout_inj h2).1] at hi
    exact hi h1

theorem CInv.var_zero {a : Area} {L : Lang} {cs : CS} {D : Nat → Prop} {W : Pos → Prop} (h : CInv a L cs D W) (nm : String) :
    cs.var 0 nm = none := by
  cases hv : cs.var 0 nm with
  | none => rfl
  | some v =>
    exfalso
    obtain ⟨i', nm', j, x, -, h1, h2, -⟩ := h.ents _ (lookup_mem' hv)
    have := (idout_inj h2).1
    omega

theorem CInv.var_tmp {a : Area} {L : Lang} {cs : CS} {D : Nat → Prop} {W : Pos → Prop} (h : CInv a L cs D W) {i : Nat} {nm v : String}
    (hv : cs.var i nm = some v) : ∃ j x, v = tmpName j x ∧ j ≤ cs.counter := by
  obtain ⟨_, _, j, x, -, -, -, h3, h4⟩ := h.ents _ (lookup_mem' hv)
  exact ⟨j, x, h3, h4⟩

theorem CInv.wmono {a : Area} {L : Lang} {cs : CS} {D : Nat → Prop} {W W' : Pos → Prop} (h : CInv a L cs D W) (hw : ∀ q, W q → W' q) :
    CInv a L cs D W' := ⟨h.ents, h.kept, fun o b hb hd hc r hr => hw _ (h.once o b hb hd hc r hr)⟩

theorem CInv.bump {a : Area} {L : Lang} {cs : CS} {D : Nat → Prop} {W : Pos → Prop} (h : CInv a L cs D W) {n : Nat} (hn : cs.counter ≤ n) :
    CInv a L ⟨cs.map, n⟩ D W := by
  refine ⟨?_, h.kept, h.once⟩
  intro e he
  obtain ⟨i, nm, j, x, h1, h2, h3, h4, h5⟩ := h.ents e he
  exact ⟨i, nm, j, x, h1, h2, h3, h4, Nat.le_trans h5 hn⟩

theorem tmp_not_user {j : Nat} {x : String} : ¬ UserVar (tmpName j x) := fun h => h.1 (tmpName_head j x)
theorem percent_not_user {n : Nat} : ¬ UserVar ("%" ++ toString n) := fun h => h.2 (percent_head n)
theorem percent_ne_tmp {n j : Nat} {x : String} : ("%" ++ toString n) ≠ tmpName j x := by
  intro h
  have h1 := percent_head n
  rw [h, tmpName_head] at h1
  cases h1
theorem percent_ne_res {n : Nat} : ("%" ++ toString n) ≠ "_res_" := by
  intro h
  have h1 := percent_head n
  rw [h, res_head] at h1
  cases h1

/-- Only variables that nothing depends on changed. -/
theorem Rel.vars {cs : CS} {D : Nat → Prop} {env : Env F S} {r : Run F S}
    (h : Rel cs D env r) {vars : String → F} (hv : ∀ x, UserVar x ∨ x = "_res_" ∨ (∃ i nm, cs.var i nm = some x) → vars x = env.vars x) :
    Rel cs D ⟨vars, env.mem⟩ r := by
  refine ⟨h.done, ?_, ?_, h.mem, ?_⟩
  · intro i outs nm v h1 h2
    show vars v = _
    rw [hv v (.inr (.inr ⟨i, nm, h2⟩))]
    exact h.outs i outs nm v h1 h2
  · intro x hx
    show vars x = _
    rw [hv x (.inl hx)]
    exact h.user x hx
  · intro v h1
    show vars "_res_" = _
    rw [hv _ (.inr (.inl rfl))]
    exact h.res v h1

theorem spread_other (x : String) : ∀ (vs : List F) (vars : String → F) (i : Nat), (∀ n : Nat, x ≠ "%" ++ toString n) → spread vars i vs x = vars x := by
  intro vs
  induction vs with
  | nil => intro vars i _; rfl
  | cons v vs ih =>
    intro vars i h
    rw [spread, ih _ _ h]
    unfold upd
    rw [if_neg (h i)]

theorem spread_low : ∀ (vs : List F) (vars : String → F) (i j : Nat), j < i → spread vars i vs ("%" ++ toString j) = vars ("%" ++ toString j) := by
  intro vs
  induction vs with
  | nil => intro vars i j _; rfl
  | cons v vs ih =>
    intro vars i j h
    rw [spread, ih _ _ _ (by omega)]
    unfold upd
    rw [if_neg (by intro hh; have := percent_inj hh; omega)]

theorem spread_at (zero : F) : ∀ (vs : List F) (vars : String → F) (i k : Nat), k < vs.length →
    spread vars i vs ("%" ++ toString (i + k)) = vs.getD k zero := by
  intro vs
  induction vs with
  | nil => intro vars i k h; cases h
  | cons v vs ih =>
    intro vars i k h
    rw [spread]
    cases k with
    | zero =>
      show Block.spread (upd vars ("%" ++ toString i) v) (i + 1) vs ("%" ++ toString i) = v
      rw [spread_low vs (upd vars ("%" ++ toString i) v) (i + 1) i (Nat.lt_succ_self i)]
      unfold upd
      rw [if_pos rfl]
    | succ k =>
      have : i + (k + 1) = (i + 1) + k := by omega
      rw [this, ih _ (i + 1) k (by simpa using h)]
      rfl

theorem Rel.spread {a : Area} {L : Lang} {cs : CS} {D : Nat → Prop} {W : Pos → Prop} (hc : CInv a L cs D W) {env : Env F S} {r : Run F S}
    (h : Rel cs D env r) (i : Nat) (vs : List F) : Rel cs D ⟨Block.spread env.vars i vs, env.mem⟩ r := by
  apply h.vars
  intro x hx
  apply spread_other
  intro n hn
  rcases hx with hx | hx | ⟨i, nm, hx⟩
  · exact percent_not_user (hn ▸ hx)
  · exact percent_ne_res (hn ▸ hx)
  · obtain ⟨j, e, hx, -⟩ := hc.var_tmp hx
    exact percent_ne_tmp (hn ▸ hx)

/-- The block `i` ran. -/
def doneWith (r : Run F S) (i : Nat) (outs : String → F) : Run F S := { r with done := fun j => if j = i then some outs else r.done j }

theorem Rel.finish {a : Area} {L : Lang} {cs : CS} {D : Nat → Prop} {W : Pos → Prop} (hc : CInv a L cs D W) {env : Env F S} {r : Run F S}
    (h : Rel cs D env r) {i : Nat} (hi : ¬ D i) (outs : String → F) : Rel cs (fun j => D j ∨ j = i) env (doneWith r i outs) := by
  refine ⟨?_, ?_, h.user, h.mem, h.res⟩
  · intro j
    unfold doneWith
    simp only
    by_cases hj : j = i
    · simp [hj]
    · rw [if_neg hj, h.done j]
      simp [hj]
  · intro j outs' nm v h1 h2
    unfold doneWith at h1
    simp only at h1
    by_cases hj : j = i
    · rw [hj, hc.var_none hi] at h2
      cases h2
    · rw [if_neg hj] at h1
      exact h.outs j outs' nm v h1 h2

theorem CInv.finish {a : Area} {L : Lang} {cs : CS} {D : Nat → Prop} {W : Pos → Prop} (ha : AreaOk a)
    (hids : ∀ o b o' b', (o, b) ∈ a.blocks → (o', b') ∈ a.blocks → b.id = b'.id → o = o') (h : CInv a L cs D W)
    {o : Pos} {b : Block} (hb : (o, b) ∈ a.blocks) (hu : ¬ Cached L b) {P : Pos → Prop}
    (hP : ∀ r ∈ b.outputRows, P (o.1, o.2 + (r : Int))) : CInv a L cs (fun j => D j ∨ j = b.id) (fun q => W q ∨ P q) := by
  have same : ∀ o' b', (o', b') ∈ a.blocks → b'.id = b.id → o' = o ∧ b' = b := by
    intro o' b' hb' he
    have := hids o' b' o b hb' hb he
    subst this
    have h1 := (mem_iff_lookup ha.load.keys o' b').1 hb'
    rw [(mem_iff_lookup ha.load.keys o' b).1 hb] at h1
    exact ⟨rfl, (Option.some.inj h1).symm⟩
  refine ⟨?_, ?_, ?_⟩
  · intro e he
    obtain ⟨i, nm, j, x, h1, h2⟩ := h.ents e he
    exact ⟨i, nm, j, x, .inl h1, h2⟩
  · intro o' b' hb' hd hc
    rcases hd with hd | hd
    · exact h.kept o' b' hb' hd hc
    · rw [(same o' b' hb' hd).2] at hc
      exact absurd hc hu
  · intro o' b' hb' hd hc r hr
    rcases hd with hd | hd
    · exact .inl (h.once o' b' hb' hd hc r hr)
    · obtain ⟨h1, h2⟩ := same o' b' hb' hd
      subst h1; subst h2
      exact .inr (hP r hr)

/-! ## Running programs -/

theorem sequence_ok {β : Type} (l : List β) : sequence (l.map Except.ok) = .ok l := by
  induction l with
  | nil => rfl
  | cons x l ih => simp only [List.map_cons, sequence, ih]; rfl

theorem toJits_append (L : Lang) (zero : F) (l l' : List (Blk F)) : toJits L zero (l ++ l') = toJits L zero l ++ toJits L zero l' := by
  induction l with
  | nil => simp [toJits]
  | cons x l ih => simp only [List.cons_append, toJits, ih]

theorem execStmts_append (M : Machine F S) : ∀ (l l' : List (Jit F)) (v : F) (e : Env F S),
    execStmts M (l ++ l') v e = execStmts M l' (execStmts M l v e).1 (execStmts M l v e).2 := by
  intro l
  induction l with
  | nil => intro l' v e; simp [execStmts]
  | cons x l ih => intro l' v e; simp only [List.cons_append, execStmts, ih]

theorem execArgs_length (M : Machine F S) : ∀ (js : List (Jit F)) (e : Env F S), (execArgs M js e).1.length = js.length := by
  intro js
  induction js with
  | nil => intro e; simp [execArgs]
  | cons j js ih => intro e; simp [execArgs, ih]

end

end HexoDSP.Block
