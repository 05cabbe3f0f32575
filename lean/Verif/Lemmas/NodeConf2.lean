import Verif.Lemmas.NodeConf
import Verif.Spec.Engine
/-! Consequences of the layout: tiling, instance lookup. -/

set_option linter.unusedSectionVars false

namespace HexoDSP.Engine
open EngineSpec

variable {N V A : Type} [DecidableEq N]

theorem region_exists (f : N → Nat) (l : List N) (g : Nat) (hg : g < tot f l) :
    ∃ i n, l[i]? = some n ∧ tot f (l.take i) ≤ g ∧ g < tot f (l.take i) + f n := by
  induction l generalizing g with
  | nil => simp at hg
  | cons a l ih =>
    by_cases h : g < f a
    · exact ⟨0, a, by simp, by simp, by simpa using h⟩
    · obtain ⟨i, n, h1, h2, h3⟩ := ih (g - f a) (by simp at hg; omega)
      refine ⟨i + 1, n, by simpa using h1, ?_, ?_⟩ <;> simp only [List.take_succ_cons, tot_cons] <;> omega

theorem region_unique (f : N → Nat) (l : List N) (g i j : Nat) (n m : N)
    (hi : l[i]? = some n) (hj : l[j]? = some m)
    (h1 : tot f (l.take i) ≤ g ∧ g < tot f (l.take i) + f n)
    (h2 : tot f (l.take j) ≤ g ∧ g < tot f (l.take j) + f m) : i = j := by
  have e1 := tot_take_succ f l i n hi
  have e2 := tot_take_succ f l j m hj
  rcases Nat.lt_trichotomy i j with h | h | h
  · have := tot_take_le f l (i + 1) j h; omega
  · exact h
  · have := tot_take_le f l (j + 1) i h; omega

/-- The node index and the node list agree, and no id is allocated twice. -/
structure ConfWF (c : Conf N V A) : Prop where
  nodup : c.ids.Nodup
  idx : ∀ n i, c.node2idx.lookup n = some i ↔ c.ids[i]? = some n

theorem confWF_new : ConfWF (Conf.new : Conf N V A) :=
  ⟨List.nodup_nil, fun n i => by simp [Conf.new, Conf.ids]⟩

theorem confWF_createNode {c : Conf N V A} (h : ConfWF c) (n : N) (hn : n ∉ c.ids) :
    ConfWF (c.createNode n) := by
  have hids : (c.createNode n).ids = c.ids ++ [n] := by simp [Conf.createNode, Conf.ids]
  constructor
  · rw [hids, List.nodup_append]
    refine ⟨h.nodup, by simp, ?_⟩
    intro a ha b hb hab
    simp at hb
    exact hn (by rw [← hb, ← hab]; exact ha)
  · intro m i
    rw [hids]
    simp only [Conf.createNode]
    rw [lookup_insert]
    have hl : c.ids.length = c.nodes.length := by simp [Conf.ids]
    rw [List.getElem?_append]
    by_cases hm : m = n
    · subst hm
      simp only [beq_self_eq_true, if_true, Option.some.injEq]
      constructor
      · intro hi; subst hi; simp [hl]
      · intro hi
        split at hi
        · exact absurd (List.mem_of_getElem? hi) hn
        · cases hk : i - c.ids.length with
          | zero => omega
          | succ k => simp [hk] at hi
    · have : (m == n) = false := by simpa using hm
      simp only [this, Bool.false_eq_true, if_false, h.idx]
      constructor
      · intro hi
        have hlt : i < c.ids.length := (List.getElem?_eq_some_iff.1 hi).1
        rw [if_pos hlt, hi]
      · intro hi
        split at hi
        · exact hi
        · cases hk : i - c.ids.length with
          | zero => simp [hk] at hi; exact absurd hi.symm hm
          | succ k => simp [hk] at hi

theorem instanceOf_isSome_mem {c : Conf N V A} (h : ConfWF c) {n : N} {ni : NodeInstance N}
    (hi : c.instanceOf n = some ni) : n ∈ c.ids := by
  unfold Conf.instanceOf Conf.uniqueIndexFor at hi
  cases hl : c.node2idx.lookup n with
  | none => simp [hl] at hi
  | some i => exact List.mem_of_getElem? ((h.idx n i).1 hl)

/-- The configurator right after the ports were rebuilt. -/
structure Rebuilt (T : NodeTable N V A) (c0 c : Conf N V A) : Prop where
  wf : ConfWF c
  ids : c.ids = c0.ids
  inst : ∀ i n, c.ids[i]? = some n → ∃ u, c.nodes[i]? =
    some (n, some { instAt T c0.paramModamt (c.ids.take i) n with inUse := u })

theorem rebuilt_ids (T : NodeTable N V A) [OfNat V 0] (a0 : A) (c : Conf N V A) (h : Heap V)
    (hnd : c.ids.Nodup) : (c.rebuildPorts T a0 h).1.ids = c.ids := by
  have hs := rebuildLoop_spec T c hnd
  apply List.ext_getElem?
  intro i
  show ((c.rebuildLoop T).nodes.map (fun e => e.1))[i]? = _
  rw [List.getElem?_map, hs.nodes]
  cases c.ids[i]? <;> rfl

theorem rebuilt_rebuildPorts (T : NodeTable N V A) [OfNat V 0] (a0 : A) (c : Conf N V A) (h : Heap V)
    (hw : ConfWF c) : Rebuilt T c (c.rebuildPorts T a0 h).1 := by
  have hids := rebuilt_ids T a0 c h hw.nodup
  have hs := rebuildLoop_spec T c hw.nodup
  refine ⟨⟨by rw [hids]; exact hw.nodup, ?_⟩, hids, ?_⟩
  · intro n i
    rw [hids]
    exact hw.idx n i
  · intro i n hi
    rw [hids] at hi ⊢
    refine ⟨false, ?_⟩
    show (c.rebuildLoop T).nodes[i]? = _
    rw [hs.nodes, hi]
    rfl

theorem instanceOf_rebuilt {T : NodeTable N V A} {c0 c : Conf N V A} (h : Rebuilt T c0 c)
    {i : Nat} {n : N} (hi : c.ids[i]? = some n) :
    ∃ u, c.instanceOf n = some { instAt T c0.paramModamt (c.ids.take i) n with inUse := u } := by
  obtain ⟨u, hu⟩ := h.inst i n hi
  refine ⟨u, ?_⟩
  unfold Conf.instanceOf Conf.uniqueIndexFor
  rw [(h.wf.idx n i).2 hi]
  simp [hu]

theorem instanceOf_rebuilt_none {T : NodeTable N V A} {c0 c : Conf N V A} (h : Rebuilt T c0 c)
    {n : N} (hn : n ∉ c.ids) : c.instanceOf n = none := by
  cases hi : c.instanceOf n with
  | none => rfl
  | some ni => exact absurd (instanceOf_isSome_mem h.wf hi) hn

theorem ids_markUsed (c : Conf N V A) (n : N) : (c.markUsed n).ids = c.ids := by
  unfold Conf.markUsed
  split
  · rfl
  · rename_i i _
    apply List.ext_getElem?
    intro j
    simp only [Conf.ids, List.getElem?_map, List.getElem?_modify]
    by_cases hj : i = j
    · simp only [hj, if_true]
      cases c.nodes[j]? <;> rfl
    · simp [hj]

theorem rebuilt_markUsed {T : NodeTable N V A} {c0 c : Conf N V A} (h : Rebuilt T c0 c) (n : N) :
    Rebuilt T c0 (c.markUsed n) := by
  have hids := ids_markUsed c n
  have hn2 : (c.markUsed n).node2idx = c.node2idx := by
    unfold Conf.markUsed; split <;> rfl
  refine ⟨⟨by rw [hids]; exact h.wf.nodup, fun m i => by rw [hn2, hids]; exact h.wf.idx m i⟩,
    by rw [hids]; exact h.ids, ?_⟩
  intro i m hi
  rw [hids] at hi ⊢
  obtain ⟨u, hu⟩ := h.inst i m hi
  unfold Conf.markUsed
  split
  · exact ⟨u, hu⟩
  · rename_i j _
    simp only [List.getElem?_modify]
    by_cases hj : j = i
    · subst hj; exact ⟨true, by simp [hu]⟩
    · exact ⟨u, by simp [hj, hu]⟩

theorem modLocal_instAt (T : NodeTable N V A) (amts : List ((N × Nat) × Option V)) (pre : List N)
    (n : N) (u : Bool) (k : Nat) (hk : k < 32) :
    ({ instAt T amts pre n with inUse := u } : NodeInstance N).modLocal2Global k =
      some (if k < T.inCount n ∧ (amtOf amts n k).isSome then
        some (tot (modTot T amts) pre + modCnt amts n k) else none) := by
  have hl : (in2modOf amts n (tot (modTot T amts) pre) (T.inCount n)).length = 32 := by
    simp [in2modOf]
  have hng : ¬ k > (in2modOf amts n (tot (modTot T amts) pre) (T.inCount n)).length := by omega
  show (if k > (in2modOf amts n (tot (modTot T amts) pre) (T.inCount n)).length then some none
    else (in2modOf amts n (tot (modTot T amts) pre) (T.inCount n))[k]?) = _
  rw [if_neg hng]
  simp [in2modOf, List.getElem?_map, List.getElem?_range hk]

end HexoDSP.Engine
