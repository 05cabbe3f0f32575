import Verif.Lemmas.Reach
import Verif.Model.MatrixEngine
import Mathlib.Tactic.ByContra
/-!
# Choice of node instances (C50)
-/

set_option linter.unusedSectionVars false

namespace HexoDSP.MatrixEngineProps
open Engine EngineSpec

variable {K V A M σ : Type} [DecidableEq K] [Add V] [Mul V] [Sub V] [Div V] [NatCast V] [OfNat V 0]
variable {T : NodeTable (NodeId K) V A} {a0 : A}
variable {run : σ → CallIn (NodeId K) V A → σ × (Nat → Block V)}

/-- The `j`-th instance after `id`, counting modulo 256. -/
def nth (id : NodeId K) (j : Nat) : NodeId K := ⟨id.kind, (id.inst + j) % 256⟩

/-- Calls after which the configurator still describes the last program. -/
def NoRebuild {N : Type} : EOp N V A M → Prop
  | .sync _ _ _ => False
  | .deleteNodes => False
  | _ => True

/-- A node counts as used. -/
def Used {N : Type} [DecidableEq N] (c : Conf N V A) (n : N) : Prop :=
  ∃ ni, c.instanceOf n = some ni ∧ ni.inUse = true

theorem instanceOf_id {N : Type} [DecidableEq N] {T : NodeTable N V A} {c0 c : Conf N V A} (h : Rebuilt T c0 c)
    {n : N} {ni : NodeInstance N} (hi : c.instanceOf n = some ni) : ni.id = n := by
  have hm := instanceOf_isSome_mem h.wf hi
  rw [h.ids] at hm
  obtain ⟨u, hu⟩ := instanceOf_eq h hm
  rw [hu] at hi
  cases hi
  rfl

/-- Node instances and the used flags are as a program with this order left them. -/
structure FromProg {N : Type} [DecidableEq N] (order : List N) (c : Conf N V A) : Prop where
  wf : ConfWF c
  id : ∀ n ni, c.instanceOf n = some ni → ni.id = n
  used : ∀ n, Used c n ↔ n ∈ order

theorem fromProg_same {N : Type} [DecidableEq N] {order : List N} {c c' : Conf N V A} (h : FromProg order c)
    (hs : SameNodes c c') : FromProg order c' := by
  have : ∀ n, c'.instanceOf n = c.instanceOf n := by
    intro n; unfold Conf.instanceOf Conf.uniqueIndexFor; rw [hs.1, hs.2]
  refine ⟨hs.wf h.wf, fun n ni hi => h.id n ni (by rw [← this]; exact hi), fun n => ?_⟩
  unfold Used
  rw [this]
  exact h.used n

theorem instanceOf_createNode {N : Type} [DecidableEq N] {c : Conf N V A} (hw : ConfWF c) {m : N}
    (hm : m ∉ c.ids) (n : N) : (c.createNode m).instanceOf n = c.instanceOf n := by
  unfold Conf.instanceOf Conf.uniqueIndexFor Conf.createNode
  simp only
  rw [lookup_insert]
  by_cases he : n = m
  · subst he
    have : c.node2idx.lookup n = none := (uniqueIndexFor_none hw n).2 hm
    simp [this]
  · have hne : (n == m) = false := by simpa using he
    simp only [hne, Bool.false_eq_true, if_false]
    cases hl : c.node2idx.lookup n with
    | none => rfl
    | some i =>
      have := (hw.idx n i).1 hl
      have hlt : i < c.nodes.length := by
        have := (List.getElem?_eq_some_iff.1 this).1
        simpa [Conf.ids] using this
      simp only
      rw [List.getElem?_append_left hlt]

theorem fromProg_step {N : Type} [DecidableEq N] {T : NodeTable N V A}
    {run : σ → CallIn N V A → σ × (Nat → Block V)} {order : List N} {w w1 : World N V A M σ}
    {op : EOp N V A M} {out : Option (BlockResult N V A)} (h : FromProg order w.conf) (hp : Polite w op)
    (hno : NoRebuild op) (hs : w.step T a0 run op = some (w1, out)) : FromProg order w1.conf := by
  cases op with
  | createNode n =>
    simp only [World.step, Option.some.injEq, Prod.mk.injEq] at hs
    have hn : n ∉ w.conf.ids := (uniqueIndexFor_none h.wf n).1 (by simpa [Polite, Allocated] using hp)
    rw [← hs.1]
    have := instanceOf_createNode h.wf hn
    refine ⟨confWF_createNode h.wf n hn, fun m mi hi => h.id m mi (by rw [← this]; exact hi), fun m => ?_⟩
    show Used (w.conf.createNode n) m ↔ _
    unfold Used
    rw [this]
    exact h.used m
  | deleteNodes => exact absurd hno id
  | setInput n i v =>
    simp only [World.step, Option.some.injEq, Prod.mk.injEq] at hs
    rw [← hs.1, conf_sendAll]
    exact fromProg_same h (sameNodes_setInput (M := M) w.conf n i v)
  | setAtom n i v =>
    simp only [World.step, Option.some.injEq, Prod.mk.injEq] at hs
    rw [← hs.1, conf_sendAll]
    exact fromProg_same h (sameNodes_setAtom (M := M) w.conf n i v)
  | setModamt p v =>
    simp only [World.step, Option.some.injEq, Prod.mk.injEq] at hs
    rw [← hs.1, conf_sendAll]
    exact fromProg_same h (sameNodes_setModamt (M := M) w.conf p v)
  | sync order es copyOld => exact absurd hno id
  | monitor n ins outs =>
    simp only [World.step, Option.some.injEq, Prod.mk.injEq] at hs
    rw [← hs.1, conf_sendAll]; exact h
  | injectMidi ev =>
    simp only [World.step, Option.some.injEq, Prod.mk.injEq] at hs
    rw [← hs.1, conf_send]; exact h
  | poll =>
    simp only [World.step] at hs
    cases hb : w.exec.applyAll w.shared w.queue with
    | none => simp [hb] at hs
    | some r =>
      simp only [hb, Option.map_some, Option.some.injEq, Prod.mk.injEq] at hs
      rw [← hs.1]; exact h
  | process nf =>
    simp only [World.step] at hs
    cases hb : w.exec.process run w.shared.heap w.st nf with
    | none => simp [hb] at hs
    | some r =>
      simp only [hb, Option.map_some, Option.some.injEq, Prod.mk.injEq] at hs
      rw [← hs.1]; exact h
  | dropOne =>
    simp only [World.step] at hs
    split at hs
    · simp only [Option.some.injEq, Prod.mk.injEq] at hs; rw [← hs.1]; exact h
    · simp only [Option.some.injEq, Prod.mk.injEq] at hs; rw [← hs.1]; exact h
  | setSlope n =>
    simp only [World.step, Option.some.injEq, Prod.mk.injEq] at hs
    rw [← hs.1]; exact h

theorem fromProg_sync {N : Type} [DecidableEq N] {T : NodeTable N V A}
    {run : σ → CallIn N V A → σ × (Nat → Block V)} {order : List N} {es : List (Conn N)} {cp : Bool}
    {w w1 : World N V A M σ} {out : Option (BlockResult N V A)} (hw : ConfWF w.conf)
    (hl : Legal w.conf order es) (hs : w.step T a0 run (.sync order es cp) = some (w1, out)) :
    FromProg order w1.conf := by
  simp only [World.step] at hs
  cases hb : w.conf.buildProg T a0 w.shared.heap order es with
  | none => simp [hb] at hs
  | some r =>
    simp only [hb, Option.map_some, Option.some.injEq, Prod.mk.injEq] at hs
    rw [← hs.1, conf_send]
    show FromProg order r.1
    have hrb := rebuilt_buildProg (p := r.2.1) (h' := r.2.2) hw hb
    have hu := used_buildProg (p := r.2.1) (h' := r.2.2) hw (fun e he => by
      obtain ⟨p, q, s, hh⟩ := hl.before e he
      rw [hh]; simp) hb
    refine ⟨hrb.wf, fun n ni hi => instanceOf_id hrb hi, fun n => ⟨?_, ?_⟩⟩
    · rintro ⟨ni, h1, h2⟩; exact (hu n ni h1).1 h2
    · intro hn
      have hm : n ∈ w.conf.ids := by
        have := hl.alloc n hn
        unfold Allocated at this
        by_contra hc
        rw [(uniqueIndexFor_none hw n).2 hc] at this
        cases this
      obtain ⟨u, hi⟩ := instanceOf_eq hrb hm
      exact ⟨_, hi, (hu n _ hi).2 hn⟩

theorem fromProg_ran {N : Type} [DecidableEq N] {T : NodeTable N V A}
    {run : σ → CallIn N V A → σ × (Nat → Block V)} {order : List N} {w w1 : World N V A M σ}
    {ops : List (EOp N V A M)} (hr : Ran T a0 run w ops w1) (h : FromProg order w.conf)
    (hno : ∀ op ∈ ops, NoRebuild op) : FromProg order w1.conf := by
  induction hr with
  | nil => exact h
  | cons hp hs _ ih => exact ih (fromProg_step h hp (hno _ (by simp)) hs) (fun op ho => hno op (by simp [ho]))
  | outside st _ ih => exact ih h hno

theorem nth_zero {id : NodeId K} (h : id.inst < 256) : nth id 0 = id := by
  unfold nth; rw [Nat.add_zero, Nat.mod_eq_of_lt h]

theorem nth_next {id : NodeId K} (j : Nat) : nth id.nextInstance j = nth id (j + 1) := by
  unfold nth NodeId.nextInstance NodeId.toInstance
  simp only [NodeId.mk.injEq, true_and]
  omega

theorem next_inst (id : NodeId K) : id.nextInstance.inst < 256 := Nat.mod_lt _ (by omega)

theorem unused_spec {order : List (NodeId K)} {c : Conf (NodeId K) V A} (h : FromProg order c) (fuel : Nat) :
    ∀ (id : NodeId K), id.inst < 256 →
      (∀ r, c.unusedInstanceNodeId fuel id = some r →
        ∃ j < fuel, r = nth id j ∧ r ∉ order ∧ ∀ i < j, nth id i ∈ order) ∧
      ((∃ j < fuel, nth id j ∉ order) → ∃ r, c.unusedInstanceNodeId fuel id = some r) := by
  unfold Conf.unusedInstanceNodeId
  induction fuel with
  | zero => intro id _; exact ⟨fun r hr => by simp [Conf.unusedInstance] at hr, fun ⟨j, hj, _⟩ => by omega⟩
  | succ fuel ih =>
    intro id hid
    have hz := nth_zero hid
    simp only [Conf.unusedInstance]
    cases hi : c.instanceOf id with
    | none =>
      have hno : id ∉ order := by
        intro hm
        obtain ⟨ni, h1, _⟩ := (h.used id).2 hm
        rw [hi] at h1; cases h1
      refine ⟨?_, fun _ => ⟨_, rfl⟩⟩
      intro r hr
      cases hr
      exact ⟨0, by omega, hz.symm, hno, fun i hi => by omega⟩
    | some ni =>
      simp only
      have hni := h.id id ni hi
      by_cases hu : ni.inUse = true
      · rw [if_pos hu]
        have hmem : id ∈ order := (h.used id).1 ⟨ni, hi, hu⟩
        obtain ⟨a1, a2⟩ := ih id.nextInstance (next_inst id)
        constructor
        · intro r hr
          obtain ⟨j, hj, h1, h2, h3⟩ := a1 r hr
          refine ⟨j + 1, by omega, by rw [h1, nth_next], h2, ?_⟩
          intro i hij
          cases i with
          | zero => rw [hz]; exact hmem
          | succ i => rw [← nth_next]; exact h3 i (by omega)
        · rintro ⟨j, hj, hjo⟩
          cases j with
          | zero => rw [hz] at hjo; exact absurd hmem hjo
          | succ j => exact a2 ⟨j, by omega, by rw [nth_next]; exact hjo⟩
      · rw [if_neg hu]
        have hno : id ∉ order := by
          intro hm
          obtain ⟨ni', h1, h2⟩ := (h.used id).2 hm
          rw [hi] at h1; cases h1; exact hu h2
        refine ⟨?_, fun _ => ⟨_, rfl⟩⟩
        intro r hr
        cases hr
        exact ⟨0, by omega, by rw [hz, hni], by rw [hni]; exact hno, fun i hi => by omega⟩

variable {w w1 w2 : World (NodeId K) V A M σ} {order : List (NodeId K)} {es : List (Conn (NodeId K))} {cp : Bool}
variable {out : Option (BlockResult (NodeId K) V A)} {ops : List (EOp (NodeId K) V A M)} {id : NodeId K}

/-- **C50**: after any history, a rebuild and any calls that do not rebuild again, the instance offered
for a new node is not part of the current program, and it is the first such one from the given
instance on (counting modulo 256). -/
theorem unused_instance_first (hr : Reached T a0 run w) (hl : Legal w.conf order es)
    (hs : w.step T a0 run (.sync order es cp) = some (w1, out)) (hran : Ran T a0 run w1 ops w2)
    (hno : ∀ op ∈ ops, NoRebuild op) (hid : id.inst < 256) {fuel : Nat} {r : NodeId K}
    (h : w2.conf.unusedInstanceNodeId fuel id = some r) :
    r ∉ order ∧ ∃ j, r = ⟨id.kind, (id.inst + j) % 256⟩ ∧
      ∀ i < j, (⟨id.kind, (id.inst + i) % 256⟩ : NodeId K) ∈ order := by
  have hf := fromProg_ran hran (fromProg_sync (wf_reached hr) hl hs) hno
  obtain ⟨j, _, h1, h2, h3⟩ := (unused_spec hf fuel id hid).1 r h
  exact ⟨h2, j, h1, h3⟩

/-- **C50**: the search ends, after at most 256 steps, if some instance is unused. -/
theorem unused_instance_terminates (hr : Reached T a0 run w) (hl : Legal w.conf order es)
    (hs : w.step T a0 run (.sync order es cp) = some (w1, out)) (hran : Ran T a0 run w1 ops w2)
    (hno : ∀ op ∈ ops, NoRebuild op) (hid : id.inst < 256)
    (hfree : ∃ i < 256, (⟨id.kind, i⟩ : NodeId K) ∉ order) :
    ∃ r, w2.conf.unusedInstanceNodeId 256 id = some r := by
  have hf := fromProg_ran hran (fromProg_sync (wf_reached hr) hl hs) hno
  obtain ⟨i, hi, hio⟩ := hfree
  apply (unused_spec hf 256 id hid).2
  refine ⟨(i + 256 - id.inst) % 256, Nat.mod_lt _ (by omega), ?_⟩
  have : (id.inst + (i + 256 - id.inst) % 256) % 256 = i := by omega
  unfold nth
  rw [this]
  exact hio

/-- If all 256 instances are in use the search does not end: no number of steps suffices. -/
theorem unused_instance_loops (hr : Reached T a0 run w) (hl : Legal w.conf order es)
    (hs : w.step T a0 run (.sync order es cp) = some (w1, out)) (hran : Ran T a0 run w1 ops w2)
    (hno : ∀ op ∈ ops, NoRebuild op) (hid : id.inst < 256)
    (hfull : ∀ i < 256, (⟨id.kind, i⟩ : NodeId K) ∈ order) (fuel : Nat) :
    w2.conf.unusedInstanceNodeId fuel id = none := by
  have hf := fromProg_ran hran (fromProg_sync (wf_reached hr) hl hs) hno
  cases h : w2.conf.unusedInstanceNodeId fuel id with
  | none => rfl
  | some r =>
    obtain ⟨j, _, h1, h2, _⟩ := (unused_spec hf fuel id hid).1 r h
    rw [h1] at h2
    exact absurd (hfull _ (Nat.mod_lt _ (by omega))) h2

/-! ## `create_intermediate_nodes` -/

/-- The allocated instances of each kind are contiguous from zero. -/
def Contiguous (c : Conf (NodeId K) V A) : Prop :=
  ∀ n, Allocated c n → ∀ i ≤ n.inst, Allocated c ⟨n.kind, i⟩

theorem alloc_iff {N : Type} [DecidableEq N] {c : Conf N V A} (hw : ConfWF c) (n : N) :
    Allocated c n ↔ n ∈ c.ids := by
  have := uniqueIndexFor_none hw n
  unfold Allocated
  cases hu : c.uniqueIndexFor n with
  | none => simpa using this.1 hu
  | some i => simpa [hu] using this

theorem ids_createNode {N : Type} [DecidableEq N] (c : Conf N V A) (n : N) : (c.createNode n).ids = c.ids ++ [n] := by
  simp [Conf.createNode, Conf.ids]

theorem ensure_spec {c : Conf (NodeId K) V A} (hw : ConfWF c) (n : NodeId K) :
    ConfWF (c.ensureNode n) ∧ ∀ m, m ∈ (c.ensureNode n).ids ↔ m ∈ c.ids ∨ m = n := by
  unfold Conf.ensureNode
  split
  · rename_i h
    have hn := (uniqueIndexFor_none hw n).1 (by simpa using h)
    exact ⟨confWF_createNode hw n hn, fun m => by rw [ids_createNode]; simp⟩
  · rename_i h
    refine ⟨hw, fun m => ⟨Or.inl, ?_⟩⟩
    rintro (hm | rfl)
    · exact hm
    · by_contra hc
      exact h (by rw [(uniqueIndexFor_none hw m).2 hc]; rfl)

theorem ensureFold_spec (l : List Nat) (n : NodeId K) : ∀ {c : Conf (NodeId K) V A}, ConfWF c →
    ConfWF (l.foldl (fun c i => c.ensureNode (n.toInstance i)) c) ∧
    ∀ m, m ∈ (l.foldl (fun c i => c.ensureNode (n.toInstance i)) c).ids ↔
      m ∈ c.ids ∨ ∃ i ∈ l, m = n.toInstance i := by
  induction l with
  | nil => intro c hw; exact ⟨hw, fun m => by simp⟩
  | cons a l ih =>
    intro c hw
    obtain ⟨h1, h2⟩ := ensure_spec hw (n.toInstance a)
    obtain ⟨h3, h4⟩ := ih h1
    refine ⟨h3, fun m => ?_⟩
    rw [List.foldl_cons, h4, h2]
    simp only [List.mem_cons, exists_eq_or_imp]
    rw [or_assoc]

theorem createFor_spec {c : Conf (NodeId K) V A} (hw : ConfWF c) (n : NodeId K) (hn : n.inst < 256) :
    ConfWF (c.createFor n) ∧
    ∀ m, m ∈ (c.createFor n).ids ↔ m ∈ c.ids ∨ (n ∉ c.ids ∧ m.kind = n.kind ∧ m.inst ≤ n.inst) := by
  unfold Conf.createFor
  split
  · rename_i h
    have hnot := (uniqueIndexFor_none hw n).1 (by simpa using h)
    obtain ⟨h1, h2⟩ := ensureFold_spec (List.range n.inst) n hw
    have hlow : ∀ m : NodeId K, (∃ i ∈ List.range n.inst, m = n.toInstance i) ↔ m.kind = n.kind ∧ m.inst < n.inst := by
      intro m
      constructor
      · rintro ⟨i, hi, rfl⟩
        have hi := List.mem_range.1 hi
        refine ⟨rfl, ?_⟩
        show i % 256 < n.inst
        rw [Nat.mod_eq_of_lt (by omega)]; exact hi
      · rintro ⟨h3, h4⟩
        refine ⟨m.inst, List.mem_range.2 h4, ?_⟩
        cases m with
        | mk k i =>
          simp only at h3 h4
          unfold NodeId.toInstance
          rw [Nat.mod_eq_of_lt (show i < 256 by omega), h3]
    have hnn : n ∉ ((List.range n.inst).foldl (fun c i => c.ensureNode (n.toInstance i)) c).ids := by
      rw [h2, hlow]
      rintro (h3 | ⟨_, h3⟩)
      · exact hnot h3
      · omega
    refine ⟨confWF_createNode h1 n hnn, fun m => ?_⟩
    rw [ids_createNode, List.mem_append, h2, hlow, List.mem_singleton]
    constructor
    · rintro ((h3 | ⟨h3, h4⟩) | rfl)
      · exact Or.inl h3
      · exact Or.inr ⟨hnot, h3, by omega⟩
      · exact Or.inr ⟨hnot, rfl, Nat.le_refl _⟩
    · rintro (h3 | ⟨_, h3, h4⟩)
      · exact Or.inl (Or.inl h3)
      · rcases Nat.lt_or_ge m.inst n.inst with h5 | h5
        · exact Or.inl (Or.inr ⟨h3, h5⟩)
        · right
          cases m; cases n
          simp only [NodeId.mk.injEq] at *
          exact ⟨h3, by omega⟩
  · rename_i h
    refine ⟨hw, fun m => ⟨Or.inl, ?_⟩⟩
    rintro (h1 | ⟨h1, _⟩)
    · exact h1
    · exact absurd (by rw [(uniqueIndexFor_none hw n).2 h1]; rfl) h

theorem createFold_spec (l : List (NodeId K)) (hl : ∀ n ∈ l, n.inst < 256) : ∀ {c : Conf (NodeId K) V A}, ConfWF c →
    ConfWF (l.foldl Conf.createFor c) ∧ (∀ n, n ∈ c.ids ∨ n ∈ l → n ∈ (l.foldl Conf.createFor c).ids) ∧
    (Contiguous c → Contiguous (l.foldl Conf.createFor c)) ∧
    (∀ m, m ∈ (l.foldl Conf.createFor c).ids → m ∈ c.ids ∨ ∃ n ∈ l, m.kind = n.kind ∧ m.inst ≤ n.inst) := by
  induction l with
  | nil => intro c hw; exact ⟨hw, fun n h => by simpa using h, fun h => h, fun m h => Or.inl h⟩
  | cons a l ih =>
    intro c hw
    obtain ⟨h1, h2⟩ := createFor_spec hw a (hl a (by simp))
    obtain ⟨h3, h4, h5, h6⟩ := ih (fun n hn => hl n (by simp [hn])) h1
    refine ⟨h3, ?_, ?_, ?_⟩
    · intro n hn
      apply h4
      rw [h2]
      rcases hn with hn | hn
      · exact Or.inl (Or.inl hn)
      · rcases List.mem_cons.1 hn with rfl | hn
        · by_cases hc : n ∈ c.ids
          · exact Or.inl (Or.inl hc)
          · exact Or.inl (Or.inr ⟨hc, rfl, Nat.le_refl _⟩)
        · exact Or.inr hn
    · intro hc
      apply h5
      intro n hn i hi
      rw [alloc_iff h1, h2] at hn ⊢
      rcases hn with hn | ⟨hn, hk, hle⟩
      · left
        exact (alloc_iff hw _).1 (hc n ((alloc_iff hw n).2 hn) i hi)
      · right
        exact ⟨hn, hk, by simp only; omega⟩
    · intro m hm
      rcases h6 m hm with hm | ⟨n, hn, hk⟩
      · rw [h2] at hm
        rcases hm with hm | ⟨_, hk⟩
        · exact Or.inl hm
        · exact Or.inr ⟨a, by simp, hk⟩
      · exact Or.inr ⟨n, by simp [hn], hk⟩

/-- **C50**: creating the nodes of a matrix allocates every node that occurs in a cell, keeps what was
allocated, allocates nothing but these and lower instances of them, and keeps the instances of each
kind contiguous from zero. -/
theorem create_intermediate_contiguous (hr : Reached T a0 run w) (m : HexoDSP.Matrix.Matrix (NodeId K))
    (hm : ∀ n ∈ cellNodes m, n.inst < 256) :
    (∀ n ∈ cellNodes m, Allocated (w.conf.createIntermediate m) n) ∧
    (∀ n, Allocated w.conf n → Allocated (w.conf.createIntermediate m) n) ∧
    (∀ n, Allocated (w.conf.createIntermediate m) n → Allocated w.conf n ∨
      ∃ n' ∈ cellNodes m, n.kind = n'.kind ∧ n.inst ≤ n'.inst) ∧
    (Contiguous w.conf → Contiguous (w.conf.createIntermediate m)) := by
  have hw := wf_reached hr
  obtain ⟨h1, h2, h3, h4⟩ := createFold_spec (cellNodes m) hm hw
  refine ⟨fun n hn => (alloc_iff h1 n).2 (h2 n (Or.inr hn)),
    fun n hn => (alloc_iff h1 n).2 (h2 n (Or.inl ((alloc_iff hw n).1 hn))), ?_, h3⟩
  intro n hn
  rcases h4 n ((alloc_iff h1 n).1 hn) with h | h
  · exact Or.inl ((alloc_iff hw n).2 h)
  · exact Or.inr h

/-- A fresh engine is contiguous. -/
theorem contiguous_new : Contiguous (Conf.new : Conf (NodeId K) V A) := by
  intro n hn
  simp [Allocated, Conf.new, Conf.uniqueIndexFor] at hn

/-! ### The hypotheses are met -/

def exT : NodeTable (NodeId Bool) Int Nat :=
  { outCount := fun _ => 1, inCount := fun _ => 1, atCount := fun _ => 0, normDef := fun _ _ => 0,
    atomDef := fun _ _ => 0 }

def exRun : Unit → CallIn (NodeId Bool) Int Nat → Unit × (Nat → Block Int) := fun st _ => (st, fun _ _ => 0)

/-- Nodes 0, 1 and 3 of one kind, two of them in the program. -/
def exW : World (NodeId Bool) Int Nat Unit Unit :=
  (politeRun exT 0 exRun (World.new ()) [.createNode ⟨true, 0⟩, .createNode ⟨true, 1⟩, .createNode ⟨true, 3⟩]).get
    (by decide +kernel)

def exOrder : List (NodeId Bool) := [⟨true, 1⟩, ⟨true, 0⟩]

def exS : World (NodeId Bool) Int Nat Unit Unit × Option (BlockResult (NodeId Bool) Int Nat) :=
  (exW.step exT 0 exRun (.sync exOrder [⟨⟨true, 0⟩, 0, ⟨true, 1⟩, 0⟩] false)).get (by decide +kernel)

example : Reached exT 0 exRun exW ∧ Legal exW.conf exOrder [⟨⟨true, 0⟩, 0, ⟨true, 1⟩, 0⟩] ∧
    exW.step exT 0 exRun (.sync exOrder [⟨⟨true, 0⟩, 0, ⟨true, 1⟩, 0⟩] false) = some (exS.1, exS.2) ∧
    exS.1.conf.unusedInstanceNodeId 256 ⟨true, 0⟩ = some ⟨true, 2⟩ ∧
    exS.1.conf.unusedInstanceNodeId 256 ⟨true, 3⟩ = some ⟨true, 3⟩ ∧
    exS.1.conf.unusedInstanceNodeId 256 ⟨false, 255⟩ = some ⟨false, 255⟩ :=
  ⟨⟨(), _, ran_of_politeRun _ _ _ (Option.some_get _).symm⟩,
   ⟨by decide +kernel, by decide +kernel, by decide +kernel, by
     intro e he
     simp only [List.mem_singleton] at he
     subst he
     exact ⟨[], [], [], rfl⟩⟩,
   (Option.some_get (by decide +kernel)).symm, by decide +kernel, by decide +kernel, by decide +kernel⟩

theorem ran_creates {N : Type} [DecidableEq N] {T : NodeTable N V A}
    {run : σ → CallIn N V A → σ × (Nat → Block V)} (l : List N) : ∀ (w : World N V A M σ), ConfWF w.conf →
      l.Nodup → (∀ n ∈ l, n ∉ w.conf.ids) →
      ∃ w', Ran T a0 run w (l.map .createNode) w' ∧ w'.conf.ids = w.conf.ids ++ l := by
  induction l with
  | nil => intro w _ _ _; exact ⟨w, .nil w, by simp⟩
  | cons a l ih =>
    intro w hw hnd hn
    obtain ⟨h1, h2⟩ := List.nodup_cons.1 hnd
    have ha := hn a (by simp)
    obtain ⟨w', h3, h4⟩ := ih { w with conf := w.conf.createNode a } (confWF_createNode hw a ha) h2 (by
      intro n hnl
      show n ∉ (w.conf.createNode a).ids
      rw [ids_createNode]
      intro hm
      rcases List.mem_append.1 hm with hm | hm
      · exact hn n (by simp [hnl]) hm
      · rw [List.mem_singleton] at hm; subst hm; exact h1 hnl)
    refine ⟨w', .cons (out := none) ?_ rfl h3, ?_⟩
    · show ¬ Allocated w.conf a
      rw [alloc_iff hw]; exact ha
    · rw [h4]
      show (w.conf.createNode a).ids ++ l = _
      rw [ids_createNode]; simp

/-- All 256 instances in use: the situation of `unused_instance_loops` is reachable. -/
example : ∃ (w : World (NodeId Bool) Int Nat Unit Unit)
    (order : List (NodeId Bool)), Reached exT 0 exRun w ∧ Legal w.conf order [] ∧
    w.step exT 0 exRun (.sync order [] false) ≠ none ∧ ∀ i < 256, (⟨true, i⟩ : NodeId Bool) ∈ order := by
  have hnd : ((List.range 256).map (fun i => (⟨true, i⟩ : NodeId Bool))).Nodup := by
    apply List.Pairwise.map _ _ List.nodup_range
    intro a b hab h
    exact hab (by simpa using h)
  obtain ⟨w, h1, h2⟩ := ran_creates (T := exT) (a0 := 0) (run := exRun) (M := Unit)
    ((List.range 256).map (fun i => (⟨true, i⟩ : NodeId Bool))) (World.new ()) confWF_new hnd
    (by intro n _; simp [World.new, Conf.new, Conf.ids])
  have hr : Reached exT 0 exRun w := ⟨(), _, h1⟩
  have hw := wf_reached hr
  have hids : w.conf.ids = (List.range 256).map (fun i => (⟨true, i⟩ : NodeId Bool)) := by
    rw [h2]; simp [World.new, Conf.new, Conf.ids]
  have hlen : w.conf.ids.length ≤ 256 := by rw [hids]; simp
  obtain ⟨b, hb⟩ := buildProg_isSome (T := exT) (a0 := 0) (h := w.shared.heap) (es := []) hw hlen hnd
    (by rw [hids]; exact fun n hn => hn) (by simp)
  refine ⟨w, _, hr, ⟨by simpa [Conf.ids] using hlen, hnd, ?_, by simp⟩, ?_, ?_⟩
  · intro n hn
    rw [alloc_iff hw, hids]; exact hn
  · simp [World.step, hb]
  · intro i hi
    exact List.mem_map.2 ⟨i, List.mem_range.2 hi, rfl⟩

end HexoDSP.MatrixEngineProps
