import Verif.Lemmas.Map
import Verif.Model.NodeConf
/-! The layout computed by `rebuild_node_ports`. -/

set_option linter.unusedSectionVars false

namespace HexoDSP.Engine

variable {N V A : Type} [DecidableEq N]

/-- Sum of a port count over a list of nodes. -/
def tot (f : N → Nat) (l : List N) : Nat := (l.map f).sum

@[simp] theorem tot_nil (f : N → Nat) : tot f [] = 0 := rfl
@[simp] theorem tot_cons (f : N → Nat) (a : N) (l : List N) : tot f (a :: l) = f a + tot f l := rfl
theorem tot_append (f : N → Nat) (l m : List N) : tot f (l ++ m) = tot f l + tot f m := by
  simp [tot]

theorem tot_take_succ (f : N → Nat) (l : List N) (i : Nat) (n : N) (h : l[i]? = some n) :
    tot f (l.take (i + 1)) = tot f (l.take i) + f n := by
  rw [List.take_add_one, h]
  simp [tot_append]

theorem tot_take_le (f : N → Nat) (l : List N) (i j : Nat) (h : i ≤ j) :
    tot f (l.take i) ≤ tot f (l.take j) := by
  have : l.take j = l.take i ++ (l.take j).drop i := by
    have := List.take_append_drop i (l.take j)
    rw [List.take_take, Nat.min_eq_left h] at this
    exact this.symm
  rw [this, tot_append]
  omega

theorem tot_take_le_tot (f : N → Nat) (l : List N) (i : Nat) : tot f (l.take i) ≤ tot f l := by
  have := List.take_append_drop i l
  have h := congrArg (tot f) this
  rw [tot_append] at h
  omega

/-- The modulation amount set for an input. -/
def amtOf (amts : List ((N × Nat) × Option V)) (n : N) (i : Nat) : Option V :=
  (amts.lookup (n, i)).join

/-- Number of inputs below `k` with a modulation amount. -/
def modCnt (amts : List ((N × Nat) × Option V)) (n : N) (k : Nat) : Nat :=
  ((List.range k).filter (fun i => (amtOf amts n i).isSome)).length

theorem modCnt_succ (amts : List ((N × Nat) × Option V)) (n : N) (k : Nat) :
    modCnt amts n (k + 1) = modCnt amts n k + if (amtOf amts n k).isSome then 1 else 0 := by
  unfold modCnt
  rw [List.range_succ, List.filter_append]
  cases h : (amtOf amts n k).isSome <;> simp [h]

theorem modCnt_mono (amts : List ((N × Nat) × Option V)) (n : N) {j k : Nat} (h : j ≤ k) :
    modCnt amts n j ≤ modCnt amts n k := by
  induction k with
  | zero => have : j = 0 := by omega
            subst this; exact Nat.le_refl _
  | succ k ih =>
    rw [modCnt_succ]
    by_cases hjk : j = k + 1
    · subst hjk; rw [modCnt_succ]; exact Nat.le_refl _
    · have := ih (by omega); omega

theorem modCnt_lt (amts : List ((N × Nat) × Option V)) (n : N) {j k : Nat} (h : j < k)
    (ha : (amtOf amts n j).isSome) : modCnt amts n j < modCnt amts n k := by
  have h1 : modCnt amts n (j + 1) = modCnt amts n j + 1 := by rw [modCnt_succ]; simp [ha]
  have := modCnt_mono amts n (show j + 1 ≤ k by omega)
  omega

/-- The modulator map of a node with `cnt` inputs whose first modulator is `m0`. -/
def in2modOf (amts : List ((N × Nat) × Option V)) (n : N) (m0 cnt : Nat) : List (Option Nat) :=
  (List.range 32).map (fun j =>
    if j < cnt ∧ (amtOf amts n j).isSome then some (m0 + modCnt amts n j) else none)

/-- Entry of the parameter table for input `i` of node `n`. -/
def paramEntry (T : NodeTable N V A) (amts : List ((N × Nat) × Option V))
    (pv : List ((N × Nat) × V)) (n : N) (i in0 m0 : Nat) : NodeInputParam V :=
  { inputIdx := in0 + i
    value := (pv.lookup (n, i)).getD (T.normDef n i)
    modamt := (amtOf amts n i).map (fun a => (m0 + modCnt amts n i, a)) }

/-- State of the input loop after `k` inputs. -/
structure InAfter (T : NodeTable N V A) (amts : List ((N × Nat) × Option V)) (n : N) (in0 : Nat)
    (s0 : InputAcc N V) (k : Nat) (s : InputAcc N V) : Prop where
  mod : s.modLen = s0.modLen + modCnt amts n k
  map : s.in2mod = in2modOf amts n s0.modLen k
  par : ∀ (m : N) (i : Nat), s.params.lookup (m, i) =
    if m = n ∧ i < k then some (paramEntry T amts s0.paramValues n i in0 s0.modLen)
    else s0.params.lookup (m, i)
  val : ∀ (m : N) (i : Nat), s.paramValues.lookup (m, i) =
    if m = n ∧ i < k then some ((s0.paramValues.lookup (n, i)).getD (T.normDef n i))
    else s0.paramValues.lookup (m, i)
  parKeys : KeysNodup s0.params → KeysNodup s.params
  valKeys : KeysNodup s0.paramValues → KeysNodup s.paramValues

theorem in2modOf_set (amts : List ((N × Nat) × Option V)) (n : N) (m0 k : Nat)
    (ha : (amtOf amts n k).isSome) :
    (in2modOf amts n m0 k).set k (some (m0 + modCnt amts n k)) = in2modOf amts n m0 (k + 1) := by
  apply List.ext_getElem?
  intro j
  unfold in2modOf
  simp only [List.getElem?_set, List.getElem?_map, List.length_map, List.length_range]
  by_cases hj : j < 32
  · rw [List.getElem?_range hj]
    by_cases hjk : k = j
    · subst hjk
      simp [hj, ha]
    · simp only [hjk, if_false, Option.map_some]
      have : (j < k + 1) = (j < k) := by apply propext; omega
      simp only [this]
  · have : (List.range 32)[j]? = none := by simp; omega
    simp only [this]
    by_cases hjk : k = j <;> simp [hjk]
    omega

theorem in2modOf_none (amts : List ((N × Nat) × Option V)) (n : N) (m0 k : Nat)
    (ha : (amtOf amts n k).isSome = false) : in2modOf amts n m0 (k + 1) = in2modOf amts n m0 k := by
  unfold in2modOf
  apply List.map_congr_left
  intro j _
  by_cases hjk : j = k
  · subst hjk; simp [ha]
  · have : (j < k + 1) = (j < k) := by apply propext; omega
    simp only [this]

theorem rebuildInput_spec (T : NodeTable N V A) (amts : List ((N × Nat) × Option V)) (n : N)
    (in0 : Nat) (s0 : InputAcc N V) (hm : s0.in2mod = List.replicate 32 none) (k : Nat) :
    InAfter T amts n in0 s0 k ((List.range k).foldl (rebuildInput T amts n in0) s0) := by
  induction k with
  | zero =>
    refine ⟨rfl, ?_, ?_, ?_, fun h => h, fun h => h⟩
    · rw [List.range_zero, List.foldl_nil, hm]
      unfold in2modOf
      rfl
    · intro m i; simp
    · intro m i; simp
  | succ k ih =>
    rw [List.range_succ, List.foldl_append]
    generalize (List.range k).foldl (rebuildInput T amts n in0) s0 = s at ih
    obtain ⟨h1, h2, h3, h4, h5, h6⟩ := ih
    simp only [List.foldl_cons, List.foldl_nil]
    have hv : (s.paramValues.lookup (n, k)) = s0.paramValues.lookup (n, k) := by
      rw [h4]; simp
    have hkey : ∀ (m : N) (i : Nat), ((m, i) == (n, k)) = decide (m = n ∧ i = k) := by
      intro m i
      by_cases h : m = n ∧ i = k
      · obtain ⟨rfl, rfl⟩ := h; simp
      · rw [decide_eq_false h]
        apply Bool.eq_false_iff.2
        intro hb
        have := eq_of_beq hb
        cases this
        exact h ⟨rfl, rfl⟩
    have hval : ∀ (m : N) (i : Nat),
        (Map.insert s.paramValues (n, k) ((s.paramValues.lookup (n, k)).getD (T.normDef n k))).lookup (m, i) =
        if m = n ∧ i < k + 1 then some ((s0.paramValues.lookup (n, i)).getD (T.normDef n i))
        else s0.paramValues.lookup (m, i) := by
      intro m i
      rw [lookup_insert, hkey, hv, h4]
      by_cases hmn : m = n
      · subst hmn
        by_cases hik : i = k
        · subst hik; simp
        · by_cases hlt : i < k
          · have : i < k + 1 := by omega
            simp [hik, hlt, this]
          · have : ¬ i < k + 1 := by omega
            simp [hik, hlt, this]
      · simp [hmn]
    have hpar : ∀ (np : NodeInputParam V), np = paramEntry T amts s0.paramValues n k in0 s0.modLen →
        ∀ (m : N) (i : Nat), (Map.insert s.params (n, k) np).lookup (m, i) =
        if m = n ∧ i < k + 1 then some (paramEntry T amts s0.paramValues n i in0 s0.modLen)
        else s0.params.lookup (m, i) := by
      intro np hnp m i
      rw [lookup_insert, hkey, h3]
      by_cases hmn : m = n
      · subst hmn
        by_cases hik : i = k
        · subst hik; simp [hnp]
        · by_cases hlt : i < k
          · have : i < k + 1 := by omega
            simp [hik, hlt, this]
          · have : ¬ i < k + 1 := by omega
            simp [hik, hlt, this]
      · simp [hmn]
    unfold rebuildInput
    have hamt : (amts.lookup (n, k)).join = amtOf amts n k := rfl
    cases ha : amtOf amts n k with
    | some ma =>
      simp only [hamt, ha]
      refine ⟨?_, ?_, ?_, hval, fun h => keysNodup_insert (h5 h) _ _, fun h => keysNodup_insert (h6 h) _ _⟩
      · rw [modCnt_succ, h1]; simp [ha]; omega
      · simp only [h2, h1]
        exact in2modOf_set amts n s0.modLen k (by simp [ha])
      · apply hpar
        simp [paramEntry, hv, ha, h1]
    | none =>
      simp only [hamt, ha]
      refine ⟨?_, ?_, ?_, hval, fun h => keysNodup_insert (h5 h) _ _, fun h => keysNodup_insert (h6 h) _ _⟩
      · rw [modCnt_succ, h1]; simp [ha]
      · simp only [h2]
        exact (in2modOf_none amts n s0.modLen k (by simp [ha])).symm
      · apply hpar
        simp [paramEntry, hv, ha]

/-- State of the atom loop after `k` atoms. -/
structure AtAfter (T : NodeTable N V A) (n : N) (at0 : Nat)
    (s0 : AtomAcc N A) (k : Nat) (s : AtomAcc N A) : Prop where
  ats : ∀ (m : N) (i : Nat), s.atoms.lookup (m, i) =
    if m = n ∧ i < k then
      some { atIdx := at0 + i, value := (s0.atomValues.lookup (n, i)).getD (T.atomDef n i) }
    else s0.atoms.lookup (m, i)
  val : ∀ (m : N) (i : Nat), s.atomValues.lookup (m, i) =
    if m = n ∧ i < k then some ((s0.atomValues.lookup (n, i)).getD (T.atomDef n i))
    else s0.atomValues.lookup (m, i)
  atKeys : KeysNodup s0.atoms → KeysNodup s.atoms
  valKeys : KeysNodup s0.atomValues → KeysNodup s.atomValues

theorem rebuildAtom_spec (T : NodeTable N V A) (n : N) (at0 : Nat) (s0 : AtomAcc N A) (k : Nat) :
    AtAfter T n at0 s0 k ((List.range k).foldl (rebuildAtom T n at0) s0) := by
  induction k with
  | zero => exact ⟨fun m i => by simp, fun m i => by simp, fun h => h, fun h => h⟩
  | succ k ih =>
    rw [List.range_succ, List.foldl_append]
    generalize (List.range k).foldl (rebuildAtom T n at0) s0 = s at ih
    obtain ⟨h3, h4, h5, h6⟩ := ih
    simp only [List.foldl_cons, List.foldl_nil]
    have hv : (s.atomValues.lookup (n, k)) = s0.atomValues.lookup (n, k) := by
      rw [h4]; simp
    have hkey : ∀ (m : N) (i : Nat), ((m, i) == (n, k)) = decide (m = n ∧ i = k) := by
      intro m i
      by_cases h : m = n ∧ i = k
      · obtain ⟨rfl, rfl⟩ := h; simp
      · rw [decide_eq_false h]
        apply Bool.eq_false_iff.2
        intro hb
        have := eq_of_beq hb
        cases this
        exact h ⟨rfl, rfl⟩
    unfold rebuildAtom
    refine ⟨?_, ?_, fun h => keysNodup_insert (h5 h) _ _, fun h => keysNodup_insert (h6 h) _ _⟩
    all_goals
      intro m i
      simp only [lookup_insert, hkey, hv, h4, h3]
      by_cases hmn : m = n
      · subst hmn
        by_cases hik : i = k
        · subst hik; simp
        · by_cases hlt : i < k
          · have : i < k + 1 := by omega
            simp [hik, hlt, this]
          · have : ¬ i < k + 1 := by omega
            simp [hik, hlt, this]
      · simp [hmn]

/-- Number of modulators of a node. -/
def modTot (T : NodeTable N V A) (amts : List ((N × Nat) × Option V)) (n : N) : Nat :=
  modCnt amts n (T.inCount n)

/-- Instance data of a node with the nodes `pre` before it. -/
def instAt (T : NodeTable N V A) (amts : List ((N × Nat) × Option V)) (pre : List N) (n : N) :
    NodeInstance N :=
  { id := n, inUse := false, progIdx := pre.length
    outR := (tot T.outCount pre, tot T.outCount pre + T.outCount n)
    inR := (tot T.inCount pre, tot T.inCount pre + T.inCount n)
    atR := (tot T.atCount pre, tot T.atCount pre + T.atCount n)
    modR := (tot (modTot T amts) pre, tot (modTot T amts) pre + modTot T amts n)
    in2mod := in2modOf amts n (tot (modTot T amts) pre) (T.inCount n) }

/-- State of the loop of `rebuild_node_ports` after the nodes `pre`. -/
structure RebAfter (T : NodeTable N V A) (amts : List ((N × Nat) × Option V))
    (pv : List ((N × Nat) × V)) (av : List ((N × Nat) × A)) (pre : List N) (s : Rebuild N V A) : Prop where
  len : s.nodes.length = pre.length
  nodes : ∀ i, s.nodes[i]? = (pre[i]?).map (fun n => (n, some (instAt T amts (pre.take i) n)))
  out : s.outLen = tot T.outCount pre
  inp : s.inLen = tot T.inCount pre
  at_ : s.atLen = tot T.atCount pre
  mod : s.modLen = tot (modTot T amts) pre
  par : ∀ i n, pre[i]? = some n → ∀ k, k < T.inCount n → s.params.lookup (n, k) =
    some (paramEntry T amts pv n k (tot T.inCount (pre.take i)) (tot (modTot T amts) (pre.take i)))
  parNone : ∀ n k, s.params.lookup (n, k) ≠ none → n ∈ pre ∧ k < T.inCount n
  val : ∀ n k, s.paramValues.lookup (n, k) =
    if n ∈ pre ∧ k < T.inCount n then some ((pv.lookup (n, k)).getD (T.normDef n k))
    else pv.lookup (n, k)
  ats : ∀ i n, pre[i]? = some n → ∀ k, k < T.atCount n → s.atoms.lookup (n, k) =
    some { atIdx := tot T.atCount (pre.take i) + k, value := (av.lookup (n, k)).getD (T.atomDef n k) }
  atNone : ∀ n k, s.atoms.lookup (n, k) ≠ none → n ∈ pre ∧ k < T.atCount n
  aval : ∀ n k, s.atomValues.lookup (n, k) =
    if n ∈ pre ∧ k < T.atCount n then some ((av.lookup (n, k)).getD (T.atomDef n k))
    else av.lookup (n, k)
  parKeys : KeysNodup s.params
  atKeys : KeysNodup s.atoms
  valKeys : KeysNodup pv → KeysNodup s.paramValues
  avalKeys : KeysNodup av → KeysNodup s.atomValues

theorem rebuildNode_spec (T : NodeTable N V A) (amts : List ((N × Nat) × Option V))
    (pv : List ((N × Nat) × V)) (av : List ((N × Nat) × A)) (pre : List N) (s : Rebuild N V A)
    (h : RebAfter T amts pv av pre s) (n : N) (hn : n ∉ pre) :
    RebAfter T amts pv av (pre ++ [n]) (rebuildNode T amts s n) := by
  obtain ⟨hlen, hnodes, hout, hinp, hat, hmod, hpar, hparN, hval, hats, hatN, haval, hpk, hak, hvk, havk⟩ := h
  have hI := rebuildInput_spec T amts n s.inLen
    { modLen := s.modLen, in2mod := List.replicate 32 none, params := s.params,
      paramValues := s.paramValues } rfl (T.inCount n)
  have hA := rebuildAtom_spec T n s.atLen { atoms := s.atoms, atomValues := s.atomValues }
    (T.atCount n)
  unfold rebuildNode
  revert hI hA
  generalize (List.range (T.inCount n)).foldl (rebuildInput T amts n s.inLen) _ = ins
  generalize (List.range (T.atCount n)).foldl (rebuildAtom T n s.atLen) _ = ats
  intro hI hA
  obtain ⟨i1, i2, i3, i4, i5, i6⟩ := hI
  obtain ⟨a3, a4, a5, a6⟩ := hA
  simp only at i1 i2 i3 i4 i5 i6 a3 a4 a5 a6
  have hpn : ∀ k, s.paramValues.lookup (n, k) = pv.lookup (n, k) := by
    intro k; rw [hval]; simp [hn]
  have han : ∀ k, s.atomValues.lookup (n, k) = av.lookup (n, k) := by
    intro k; rw [haval]; simp [hn]
  have hidx : ∀ i, (pre ++ [n])[i]? = if i < pre.length then pre[i]? else if i = pre.length then some n else none := by
    intro i
    rw [List.getElem?_append]
    split
    · rfl
    · split
      · rename_i h; subst h; simp
      · simp; omega
  have htake : ∀ i, i ≤ pre.length → (pre ++ [n]).take i = pre.take i := by
    intro i hi
    rw [List.take_append_of_le_length hi]
  refine ⟨by simp [hlen], ?_, ?_, ?_, ?_, ?_, ?_, ?_, ?_, ?_, ?_, ?_, i5 hpk, a5 hak,
    fun h => i6 (hvk h), fun h => a6 (havk h)⟩
  · intro i
    rw [hidx, List.getElem?_append, hlen]
    split
    · rename_i hi
      rw [hnodes, htake i (by omega)]
    · split
      · rename_i h1 h2
        subst h2
        simp only [Nat.sub_self, List.getElem?_cons_zero, Option.map_some]
        rw [htake _ (Nat.le_refl _), List.take_length]
        simp only [instAt, hout, hinp, hat, hmod, i1, i2, modTot]
      · rename_i h1 h2
        have : i - pre.length ≠ 0 := by omega
        cases hh : i - pre.length with
        | zero => omega
        | succ k => simp
  · simp [tot_append, hout]
  · simp [tot_append, hinp]
  · simp [tot_append, hat]
  · simp [tot_append, i1, hmod, modTot]
  · intro i m hm k hk
    rw [hidx] at hm
    split at hm
    · rename_i hi
      have hmp : m ∈ pre := List.mem_of_getElem? hm
      have hne : m ≠ n := fun h => hn (h ▸ hmp)
      rw [htake i (by omega), i3]
      simp only [hne, false_and, if_false]
      exact hpar i m hm k hk
    · split at hm
      · rename_i h1 h2
        cases hm
        subst h2
        rw [htake _ (Nat.le_refl _), List.take_length, i3]
        simp only [true_and, hk, if_true, paramEntry, hpn, hinp, hmod]
      · cases hm
  · intro m k hm
    rw [i3] at hm
    split at hm
    · rename_i h
      exact ⟨by simp [h.1], h.1 ▸ h.2⟩
    · obtain ⟨h1, h2⟩ := hparN m k hm
      exact ⟨by simp [h1], h2⟩
  · intro m k
    rw [i4]
    by_cases hmn : m = n
    · subst hmn
      by_cases hk : k < T.inCount m
      · simp [hk, hpn]
      · simp [hk, hpn]
    · simp only [hmn, false_and, if_false, List.mem_append, List.mem_singleton, or_false]
      exact hval m k
  · intro i m hm k hk
    rw [hidx] at hm
    split at hm
    · rename_i hi
      have hmp : m ∈ pre := List.mem_of_getElem? hm
      have hne : m ≠ n := fun h => hn (h ▸ hmp)
      rw [htake i (by omega), a3]
      simp only [hne, false_and, if_false]
      exact hats i m hm k hk
    · split at hm
      · rename_i h1 h2
        cases hm
        subst h2
        rw [htake _ (Nat.le_refl _), List.take_length, a3]
        simp only [true_and, hk, if_true, han, hat]
      · cases hm
  · intro m k hm
    rw [a3] at hm
    split at hm
    · rename_i h
      exact ⟨by simp [h.1], h.1 ▸ h.2⟩
    · obtain ⟨h1, h2⟩ := hatN m k hm
      exact ⟨by simp [h1], h2⟩
  · intro m k
    rw [a4]
    by_cases hmn : m = n
    · subst hmn
      by_cases hk : k < T.atCount m
      · simp [hk, han]
      · simp [hk, han]
    · simp only [hmn, false_and, if_false, List.mem_append, List.mem_singleton, or_false]
      exact haval m k

theorem rebuildFold_spec (T : NodeTable N V A) (amts : List ((N × Nat) × Option V))
    (pv : List ((N × Nat) × V)) (av : List ((N × Nat) × A)) (rest : List N) :
    ∀ (pre : List N) (s : Rebuild N V A), RebAfter T amts pv av pre s → (pre ++ rest).Nodup →
      RebAfter T amts pv av (pre ++ rest) (rest.foldl (rebuildNode T amts) s) := by
  induction rest with
  | nil => intro pre s h _; simpa using h
  | cons n rest ih =>
    intro pre s h hnd
    have hn : n ∉ pre := by
      intro hm
      have := List.nodup_append.1 hnd
      exact this.2.2 n hm n (by simp) rfl
    have h' := rebuildNode_spec T amts pv av pre s h n hn
    have := ih (pre ++ [n]) _ h' (by simpa using hnd)
    simpa using this

/-- The ids of the allocated nodes, in order of allocation. -/
def Conf.ids (c : Conf N V A) : List N := c.nodes.map (fun e => e.1)

theorem rebuildLoop_spec (T : NodeTable N V A) (c : Conf N V A) (hnd : c.ids.Nodup) :
    RebAfter T c.paramModamt c.paramValues c.atomValues c.ids (c.rebuildLoop T) := by
  have h0 : RebAfter T c.paramModamt c.paramValues c.atomValues []
      { nodes := [], outLen := 0, inLen := 0, atLen := 0, modLen := 0, params := [],
        paramValues := c.paramValues, atoms := [], atomValues := c.atomValues } :=
    ⟨rfl, fun i => by simp, rfl, rfl, rfl, rfl, fun i n h => by simp at h, fun n k h => by simp at h,
     fun n k => by simp, fun i n h => by simp at h, fun n k h => by simp at h, fun n k => by simp,
     keysNodup_nil, keysNodup_nil, fun h => h, fun h => h⟩
  have := rebuildFold_spec T c.paramModamt c.paramValues c.atomValues c.ids [] _ h0 (by simpa using hnd)
  simpa [Conf.rebuildLoop, Conf.ids] using this

end HexoDSP.Engine
