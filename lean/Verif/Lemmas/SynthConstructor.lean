import Verif.Spec.SynthConstructor
import Verif.Lemmas.Map
import Verif.Lemmas.Reach
import Verif.Lemmas.GraphOrdering
import Verif.Props.NodeTable
import Verif.Props.NodeConf
import Mathlib.Data.List.Perm.Basic
import Mathlib.Data.List.Perm.Subperm
/-! Walking over a constructed network. -/

set_option linter.unusedSectionVars false

namespace HexoDSP.Synth
open HexoDSP.Table HexoDSP.TableProps
open HexoDSP.EngineSpec
open HexoDSP.Engine (World EOp Conf Conn NodeTable Value CallIn Block ConfWF)
open HexoDSP.GraphOrdering (Ordering Graph)

variable {V A M σ : Type}

/-! ## The table of nodes -/

theorem few_inputs : ∀ k : Fin nodeTable.length, (row k).params.length ≤ 32 := by decide +kernel

theorem inp_entry {k : Fin nodeTable.length} {j : Fin 256} {p : String} {i : Nat} (h : (NodeId.node k j).inp p = some i) :
    (p, i, false) ∈ entries (row k) ∧ i < (row k).params.length := by
  simp only [NodeId.inp, Option.map_eq_some_iff] at h
  obtain ⟨r, hr, rfl⟩ := h
  have h1 := List.mem_of_find?_eq_some hr
  have h2 := List.find?_some hr
  simp only [decide_eq_true_eq] at h2
  refine ⟨List.mem_append_left _ (List.mem_map.2 ⟨r, h1, by rw [h2]⟩), ?_⟩
  have h3 : r.idx ∈ (row k).params.map (·.idx) := List.mem_map_of_mem h1
  rwa [ok_idx (table_ok k), List.mem_range] at h3

theorem isAtom_of_entry {k : Fin nodeTable.length} {j : Fin 256} {p : String} {i : Nat} {b : Bool}
    (h : (p, i, b) ∈ entries (row k)) : ParamId.isAtom ⟨p, .node k j, i⟩ = b := by
  rw [isAtom_eq, (find_key (fun e : String × Nat × Bool => e.2.1) _ (entries_idx_nodup (table_ok k)) i (p, i, b)).2 ⟨h, rfl⟩]
  rfl

theorem inp_param {id : NodeId} {p : String} {i : Nat} (h : id.inp p = some i) :
    ∃ pid, id.inpParam p = some pid ∧ pid.isAtom = false ∧ engineParam pid = .input id i := by
  cases id with
  | nop => simp [NodeId.inp] at h
  | node k j =>
    obtain ⟨h1, _⟩ := inp_entry h
    have ha : ParamId.isAtom ⟨p, .node k j, i⟩ = false := isAtom_of_entry h1
    exact ⟨⟨p, .node k j, i⟩, (inpParam_iff k j p _).2 ⟨rfl, rfl, _, h1⟩, ha, by simp [engineParam, ha]⟩

theorem inp_lt {id : NodeId} {p : String} {i : Nat} (h : id.inp p = some i) : i < 32 := by
  cases id with
  | nop => simp [NodeId.inp] at h
  | node k j => have := (inp_entry h).2; have := few_inputs k; omega

/-- Names of inputs. -/
def inpNames : NodeId → List String
  | .nop => []
  | .node k _ => (row k).params.map (·.name)

theorem mem_inpNames {id : NodeId} {p : String} (h : (id.inp p).isSome) : p ∈ inpNames id := by
  cases id with
  | nop => simp [NodeId.inp] at h
  | node k j =>
    obtain ⟨i, hi⟩ := Option.isSome_iff_exists.1 h
    simp only [NodeId.inp, Option.map_eq_some_iff] at hi
    obtain ⟨r, hr, -⟩ := hi
    have h2 := List.find?_some hr
    simp only [decide_eq_true_eq] at h2
    exact List.mem_map.2 ⟨r, List.mem_of_find?_eq_some hr, h2⟩

theorem inpNames_length (id : NodeId) : (inpNames id).length ≤ 32 := by
  cases id with
  | nop => simp [inpNames]
  | node k j => simpa [inpNames] using few_inputs k

/-- Different parameters of the table are different parameters of the engine. -/
theorem engineParam_inj {n m : NodeId} {p q : String} {a b : Table.ParamId} (ha : n.inpParam p = some a) (hb : m.inpParam q = some b)
    (h : engineParam a = engineParam b) : n = m ∧ p = q := by
  cases n with
  | nop => simp [NodeId.inpParam] at ha
  | node k j =>
    cases m with
    | nop => simp [NodeId.inpParam] at hb
    | node l i =>
      obtain ⟨rfl, ha2, x, ha3⟩ := (inpParam_iff k j p a).1 ha
      obtain ⟨rfl, hb2, y, hb3⟩ := (inpParam_iff l i q b).1 hb
      obtain ⟨an, an', ai⟩ := a
      obtain ⟨bn, bn', bi⟩ := b
      simp only at ha2 hb2 ha3 hb3
      subst ha2 hb2
      have h1 : ParamId.isAtom ⟨an, .node k j, ai⟩ = x := isAtom_of_entry ha3
      have h2 : ParamId.isAtom ⟨bn, .node l i, bi⟩ = y := isAtom_of_entry hb3
      have key : ∀ (k : Fin nodeTable.length) (s t : String) (z : Nat) (x y : Bool), (s, z, x) ∈ entries (row k) → (t, z, y) ∈ entries (row k) →
          s = t := by
        intro k s t z x y hs ht
        have e1 := (find_key (fun e : String × Nat × Bool => e.2.1) _ (entries_idx_nodup (table_ok k)) z (s, z, x)).2 ⟨hs, rfl⟩
        have e2 := (find_key (fun e : String × Nat × Bool => e.2.1) _ (entries_idx_nodup (table_ok k)) z (t, z, y)).2 ⟨ht, rfl⟩
        rw [e1] at e2
        simp only [Option.some.injEq, Prod.mk.injEq] at e2
        exact e2.1
      cases x <;> cases y
      · simp only [engineParam, h1, h2, Bool.false_eq_true, if_false, Engine.ParamId.input.injEq] at h
        obtain ⟨h3, h4⟩ := h
        cases h3
        subst h4
        exact ⟨rfl, key k _ _ _ _ _ ha3 hb3⟩
      · simp [engineParam, h1, h2] at h
      · simp [engineParam, h1, h2] at h
      · simp only [engineParam, h1, h2, if_true, Engine.ParamId.atom.injEq] at h
        obtain ⟨h3, h4⟩ := h
        cases h3
        refine ⟨rfl, ?_⟩
        have fnd : ∀ (s : String) (z : Nat), (s, z, true) ∈ entries (row k) → ∃ at1 ∈ (row k).atoms, at1.name = s ∧ at1.inIdx = z ∧
            (row k).atoms.find? (fun a => a.inIdx = z) = some at1 := by
          intro s z hs
          simp only [entries, List.mem_append, List.mem_map, Prod.mk.injEq, Bool.false_eq_true, and_false, exists_false, false_or, and_true] at hs
          obtain ⟨a1, h5, h6, h7⟩ := hs
          refine ⟨a1, h5, h6, h7, ?_⟩
          refine (find_key (fun a : AtomRow => a.inIdx) _ ?_ z a1).2 ⟨h5, h7⟩
          have := ok_inIdx (table_ok k)
          rw [this]
          exact (List.nodup_range).map (fun a b hab => by simpa using hab)
        obtain ⟨a1, m1, n1, z1, f1⟩ := fnd _ _ ha3
        obtain ⟨a2, m2, n2, z2, f2⟩ := fnd _ _ hb3
        simp only [f1, f2] at h4
        have e1 := (find_key (fun a : AtomRow => a.atIdx) _ (ok_atIdx (table_ok k)) a1.atIdx a1).2 ⟨m1, rfl⟩
        have e2 := (find_key (fun a : AtomRow => a.atIdx) _ (ok_atIdx (table_ok k)) a1.atIdx a2).2 ⟨m2, h4.symm⟩
        rw [e1, Option.some.injEq] at e2
        rw [← n1, ← n2, e2]

/-! ## Lists of operations -/

theorem lastOf_append {α β : Type} (f : α → Option β) (l m : List α) :
    lastOf f (l ++ m) = m.foldl (fun b a => (f a).or b) (lastOf f l) := by
  simp [lastOf, List.foldl_append]

theorem wireOf_snoc (seen : List (Visit V)) (v : Visit V) (n : NodeId) (p : String) :
    wireOf (seen ++ [v]) n p = if v.node = n ∧ v.only = false then v.ops.foldl (fun b a => (COp.wire p a).or b) (wireOf seen n p)
      else wireOf seen n p := by
  unfold wireOf
  rw [List.filter_append, List.flatMap_append, lastOf_append]
  by_cases h : v.node = n <;> cases hv : v.only <;> simp [h, hv]

theorem valueOf_snoc (E : Env V A) (seen : List (Visit V)) (v : Visit V) (n : NodeId) (p : String) :
    valueOf E (seen ++ [v]) n p = if v.node = n then v.ops.foldl (fun b a => (COp.value E n p a).or b) (valueOf E seen n p)
      else valueOf E seen n p := by
  unfold valueOf
  rw [List.filter_append, List.flatMap_append, lastOf_append]
  by_cases h : v.node = n <;> simp [h]

theorem known_snoc (seen : List (Visit V)) (v : Visit V) : known (seen ++ [v]) = known seen ++ [v.node] := by simp [known]

theorem wireOf_unknown {seen : List (Visit V)} {n : NodeId} (h : n ∉ known seen) (p : String) : wireOf seen n p = none := by
  unfold wireOf
  rw [List.filter_eq_nil_iff.2]
  · rfl
  · intro v hv hc
    simp only [Bool.and_eq_true, decide_eq_true_eq] at hc
    exact h (List.mem_map.2 ⟨v, hv, hc.1⟩)

theorem valueOf_unknown (E : Env V A) {seen : List (Visit V)} {n : NodeId} (h : n ∉ known seen) (p : String) : valueOf E seen n p = none := by
  unfold valueOf
  rw [List.filter_eq_nil_iff.2]
  · rfl
  · intro v hv hc
    simp only [decide_eq_true_eq] at hc
    exact h (List.mem_map.2 ⟨v, hv, hc⟩)

/-- The loop over the operations of a node made by builders. -/
theorem applyOps_spec (E : Env V A) (id : NodeId) (only : Bool) : ∀ (ops : List (COp V)) (c : NodeConfig V A) (f : Found),
    (∀ op ∈ ops, OpOk id op) → KeysNodup c.edges → KeysNodup c.params →
    ∃ c' f', applyOps E id only ops c f = (c', f', none) ∧ KeysNodup c'.edges ∧ KeysNodup c'.params ∧
      f'.later = f.later ++ sources ops ∧
      (∀ p, c'.edges.lookup p = if only = false then ops.foldl (fun b a => (COp.wire p a).or b) (c.edges.lookup p) else c.edges.lookup p) ∧
      (∀ p, c'.params.lookup p = ops.foldl (fun b a => (COp.value E id p a).or b) (c.params.lookup p)) ∧
      (f'.changed = (f.changed || ops.any (fun op => match op with | .input _ _ _ => false | _ => true))) ∧
      (only = true → f'.rebuild = f.rebuild) := by
  intro ops
  induction ops with
  | nil => intro c f _ h1 h2; exact ⟨c, f, rfl, h1, h2, by simp [sources], by simp, by simp, by simp, fun _ => rfl⟩
  | cons op ops ih =>
    intro c f ht h1 h2
    have ht' : ∀ op ∈ ops, OpOk id op := fun o ho => ht o (List.mem_cons_of_mem _ ho)
    have h0 := ht op List.mem_cons_self
    have upd : ∀ (name : String) (a : A) (ma : Option V) (p : String), ((c.setParam name a ma).params.lookup p) =
        (if name = p then some (a, ma) else none).or (c.params.lookup p) := by
      intro name a ma p
      simp only [NodeConfig.setParam, lookup_insert, beq_iff_eq]
      by_cases hp : p = name
      · subst hp; simp
      · rw [if_neg hp, if_neg (fun h => hp h.symm)]; simp
    cases op with
    | set name v =>
      obtain ⟨i, hi⟩ := Option.isSome_iff_exists.1 h0
      obtain ⟨pid, hp, -, -⟩ := inp_param hi
      obtain ⟨c', f', e, k1, k2, k3, k4, k5, k6, k7⟩ := ih (c.setParam name (E.param (E.norm pid v)) none) { f with changed := true } ht' h1
        (keysNodup_insert h2 _ _)
      refine ⟨c', f', by simp [applyOps, hp, e], k1, k2, by simpa [sources] using k3, ?_, ?_, by simpa using k6, k7⟩
      · intro p; rw [k4 p]; simp [NodeConfig.setParam, COp.wire]
      · intro p
        rw [k5 p, upd]
        simp only [List.foldl_cons, COp.value]
        by_cases hn : name = p
        · subst hn; simp [hp]
        · simp [hn]
    | setMod name v ma =>
      obtain ⟨i, hi⟩ := Option.isSome_iff_exists.1 h0
      obtain ⟨pid, hp, -, -⟩ := inp_param hi
      obtain ⟨c', f', e, k1, k2, k3, k4, k5, k6, k7⟩ := ih (c.setParam name (E.param (E.norm pid v)) (some ma)) { f with changed := true } ht' h1
        (keysNodup_insert h2 _ _)
      refine ⟨c', f', by simp [applyOps, hp, e], k1, k2, by simpa [sources] using k3, ?_, ?_, by simpa using k6, k7⟩
      · intro p; rw [k4 p]; simp [NodeConfig.setParam, COp.wire]
      · intro p
        rw [k5 p, upd]
        simp only [List.foldl_cons, COp.value]
        by_cases hn : name = p
        · subst hn; simp [hp]
        · simp [hn]
    | setting name i =>
      obtain ⟨c', f', e, k1, k2, k3, k4, k5, k6, k7⟩ := ih (c.setParam name (E.setting i) none) { f with changed := true } ht' h1
        (keysNodup_insert h2 _ _)
      refine ⟨c', f', by simp [applyOps, e], k1, k2, by simpa [sources] using k3, ?_, ?_, by simpa using k6, k7⟩
      · intro p; rw [k4 p]; simp [NodeConfig.setParam, COp.wire]
      · intro p; rw [k5 p, upd]; simp only [List.foldl_cons, COp.value]
    | input q src out =>
      cases only with
      | true =>
        obtain ⟨c', f', e, k1, k2, k3, k4, k5, k6, k7⟩ := ih c { f with later := f.later ++ [src] } ht' h1 h2
        refine ⟨c', f', by simp [applyOps, e], k1, k2, by simpa [sources] using k3, ?_, ?_, by simpa using k6, k7⟩
        · intro p; rw [k4 p]; simp
        · intro p; rw [k5 p]; simp [COp.value]
      | false =>
        obtain ⟨c', f', e, k1, k2, k3, k4, k5, k6, k7⟩ := ih (c.setEdge q src.1 out) { f with rebuild := true, later := f.later ++ [src] } ht'
          (keysNodup_insert h1 _ _) h2
        refine ⟨c', f', by simp [applyOps, e], k1, k2, by simpa [sources] using k3, ?_, ?_, by simpa using k6, by simp⟩
        · intro p
          rw [k4 p]
          simp only [if_true, List.foldl_cons, COp.wire]
          congr 1
          simp only [NodeConfig.setEdge, lookup_insert, beq_iff_eq]
          by_cases hp : p = q
          · subst hp; simp
          · rw [if_neg hp, if_neg (fun h => hp h.symm)]; simp
        · intro p; rw [k5 p]; simp [NodeConfig.setEdge, COp.value]

/-! ## What is stored about the nodes -/

/-- What is stored agrees with what was read. -/
structure NodesOk (E : Env V A) (nodes : List (NodeId × NodeConfig V A)) (seen : List (Visit V)) : Prop where
  keys : KeysNodup nodes
  mem : ∀ n, (nodes.lookup n).isSome ↔ n ∈ known seen
  edges : ∀ n nc, nodes.lookup n = some nc → KeysNodup nc.edges ∧ ∀ p, nc.edges.lookup p = wireOf seen n p
  params : ∀ n nc, nodes.lookup n = some nc → KeysNodup nc.params ∧ ∀ p, nc.params.lookup p = valueOf E seen n p

theorem nodesOk_nil (E : Env V A) : NodesOk E [] [] :=
  ⟨keysNodup_nil, by simp [known], by simp, by simp⟩

theorem nodesOk_visit {E : Env V A} {nodes : List (NodeId × NodeConfig V A)} {seen : List (Visit V)} (h : NodesOk E nodes seen) (id : NodeId)
    (only : Bool) (ops : List (COp V)) (ht : ∀ op ∈ ops, OpOk id op) :
    ∃ c' f', applyOps E id only ops ((nodes.lookup id).getD NodeConfig.new) ⟨false, false, []⟩ = (c', f', none) ∧
      f'.later = sources ops ∧ NodesOk E (Map.insert nodes id c') (seen ++ [⟨id, ops, only⟩]) ∧
      (f'.changed = ops.any (fun op => match op with | .input _ _ _ => false | _ => true)) ∧ (only = true → f'.rebuild = false) := by
  have h0 : KeysNodup ((nodes.lookup id).getD NodeConfig.new).edges ∧ KeysNodup ((nodes.lookup id).getD NodeConfig.new).params ∧
      (∀ p, ((nodes.lookup id).getD NodeConfig.new).edges.lookup p = wireOf seen id p) ∧
      ∀ p, ((nodes.lookup id).getD NodeConfig.new).params.lookup p = valueOf E seen id p := by
    cases hl : nodes.lookup id with
    | some nc => exact ⟨(h.edges id nc hl).1, (h.params id nc hl).1, (h.edges id nc hl).2, (h.params id nc hl).2⟩
    | none =>
      have hu : id ∉ known seen := fun hm => by have := (h.mem id).2 hm; simp [hl] at this
      exact ⟨keysNodup_nil, keysNodup_nil, fun p => by rw [wireOf_unknown hu]; rfl, fun p => by rw [valueOf_unknown E hu]; rfl⟩
  obtain ⟨a1, a2, a3, a4⟩ := h0
  obtain ⟨c', f', e, k1, k2, k3, k4, k5, k6, k7⟩ := applyOps_spec E id only ops _ ⟨false, false, []⟩ ht a1 a2
  refine ⟨c', f', e, by simpa using k3, ⟨keysNodup_insert h.keys _ _, ?_, ?_, ?_⟩, by simpa using k6, k7⟩
  · intro n
    rw [lookup_insert, known_snoc, List.mem_append, ← h.mem n]
    by_cases hn : n = id
    · simp [hn]
    · simp [hn]
  · intro n nc hl
    rw [lookup_insert] at hl
    by_cases hn : n = id
    · subst hn
      simp only [beq_self_eq_true, if_true, Option.some.injEq] at hl
      subst hl
      refine ⟨k1, fun p => ?_⟩
      rw [k4 p, wireOf_snoc, a3 p]
      cases only <;> simp
    · have hb : (n == id) = false := by simpa using hn
      rw [hb] at hl
      refine ⟨(h.edges n nc hl).1, fun p => ?_⟩
      rw [wireOf_snoc, if_neg (fun hc => hn hc.1.symm)]
      exact (h.edges n nc hl).2 p
  · intro n nc hl
    rw [lookup_insert] at hl
    by_cases hn : n = id
    · subst hn
      simp only [beq_self_eq_true, if_true, Option.some.injEq] at hl
      subst hl
      refine ⟨k2, fun p => ?_⟩
      rw [k5 p, valueOf_snoc, a4 p]
      simp
    · have hb : (n == id) = false := by simpa using hn
      rw [hb] at hl
      refine ⟨(h.params n nc hl).1, fun p => ?_⟩
      rw [valueOf_snoc, if_neg (fun hc => hn hc.symm)]
      exact (h.params n nc hl).2 p

end HexoDSP.Synth
