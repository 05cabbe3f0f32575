import Verif.Lemmas.BuildProg2
/-! A program built in a topological order is well formed. -/

set_option linter.unusedSectionVars false

namespace HexoDSP.Engine
open EngineSpec

variable {N V A : Type} [DecidableEq N]

/-- No valid connection leads from a node to itself or to a node earlier in the order. -/
def Topo (T : NodeTable N V A) (ids order : List N) (es : List (Conn N)) : Prop :=
  order.Pairwise (fun a b => ∀ e ∈ es, validConn T ids e = true → ¬ (e.dst = a ∧ e.src = b)) ∧
  ∀ e ∈ es, validConn T ids e = true → e.dst ∈ order → e.src ≠ e.dst

theorem opFor_outR (T : NodeTable N V A) (amts : List ((N × Nat) × Option V)) (ids : List N)
    (es : List (Conn N)) (n : N) : (opFor T amts ids es n).outR =
      (base T.outCount ids n, base T.outCount ids n + T.outCount n) := rfl

theorem opFor_inR (T : NodeTable N V A) (amts : List ((N × Nat) × Option V)) (ids : List N)
    (es : List (Conn N)) (n : N) : (opFor T amts ids es n).inR =
      (base T.inCount ids n, base T.inCount ids n + T.inCount n) := rfl

theorem opFor_atR (T : NodeTable N V A) (amts : List ((N × Nat) × Option V)) (ids : List N)
    (es : List (Conn N)) (n : N) : (opFor T amts ids es n).atR =
      (base T.atCount ids n, base T.atCount ids n + T.atCount n) := rfl

theorem opFor_modR (T : NodeTable N V A) (amts : List ((N × Nat) × Option V)) (ids : List N)
    (es : List (Conn N)) (n : N) : (opFor T amts ids es n).modR =
      (base (modTot T amts) ids n, base (modTot T amts) ids n + modTot T amts n) := rfl

theorem globalConn_eq (T : NodeTable N V A) (amts : List ((N × Nat) × Option V)) (ids : List N)
    (e : Conn N) : globalConn T amts ids e =
      (base T.outCount ids e.src + e.srcOut, base T.inCount ids e.dst + e.dstIn,
        if (amtOf amts e.dst e.dstIn).isSome then
          some (base (modTot T amts) ids e.dst + modCnt amts e.dst e.dstIn) else none) := rfl

theorem validConn_iff (T : NodeTable N V A) (ids : List N) (e : Conn N) :
    validConn T ids e = true ↔
      e.src ∈ ids ∧ e.dst ∈ ids ∧ e.dstIn < T.inCount e.dst ∧ e.srcOut < T.outCount e.src := by
  simp [validConn]

theorem mem_opFor_inputs {T : NodeTable N V A} {amts : List ((N × Nat) × Option V)} {ids : List N}
    {es : List (Conn N)} {n : N} {io : Nat × Nat × Option Nat} :
    io ∈ (opFor T amts ids es n).inputs ↔
      ∃ e ∈ es, validConn T ids e = true ∧ e.dst = n ∧ io = globalConn T amts ids e := by
  show io ∈ (es.filter (fun e => validConn T ids e && decide (e.dst = n))).map (globalConn T amts ids) ↔ _
  simp only [List.mem_map, List.mem_filter, Bool.and_eq_true, decide_eq_true_eq]
  constructor
  · rintro ⟨e, ⟨h1, h2, h3⟩, rfl⟩; exact ⟨e, h1, h2, h3, rfl⟩
  · rintro ⟨e, h1, h2, h3, rfl⟩; exact ⟨e, ⟨h1, h2, h3⟩, rfl⟩

theorem regions_disjoint (f : N → Nat) {ids : List N} {a b : N} (ha : a ∈ ids) (hb : b ∈ ids)
    (hab : a ≠ b) (g : Nat) :
    ¬ (Within (base f ids a, base f ids a + f a) g ∧ Within (base f ids b, base f ids b + f b) g) := by
  rintro ⟨⟨h1, h2⟩, h3, h4⟩
  simp only at h1 h2 h3 h4
  exact hab (base_inj f (k := g - base f ids a) (j := g - base f ids b) ha hb (by omega) (by omega) (by omega)).1

theorem modIdx_inj {amts : List ((N × Nat) × Option V)} {n : N} {j k : Nat}
    (hj : (amtOf amts n j).isSome) (hk : (amtOf amts n k).isSome) (h : modCnt amts n j = modCnt amts n k) :
    j = k := by
  rcases Nat.lt_trichotomy j k with hh | hh | hh
  · have := modCnt_lt amts n hh hj; omega
  · exact hh
  · have := modCnt_lt amts n hh hk; omega

theorem opsOK_opFor {T : NodeTable N V A} {amts : List ((N × Nat) × Option V)} {ids order : List N}
    {es : List (Conn N)} (hnd : order.Nodup) (hord : ∀ n ∈ order, n ∈ ids) (ht : Topo T ids order es) :
    OpsOK (tot T.outCount ids) (tot T.inCount ids) (tot T.atCount ids) (tot (modTot T amts) ids)
      (order.map (opFor T amts ids es)) := by
  have hpw : order.Pairwise (fun a b => a ∈ order ∧ b ∈ order) := by
    rw [List.pairwise_iff_getElem]
    intro i j hi hj _
    exact ⟨List.getElem_mem _, List.getElem_mem _⟩
  constructor
  · intro op hop
    obtain ⟨n, hn, rfl⟩ := List.mem_map.1 hop
    rw [opFor_outR]
    have := base_lt T.outCount (hord n hn)
    simp only; omega
  · intro op hop
    obtain ⟨n, hn, rfl⟩ := List.mem_map.1 hop
    rw [opFor_inR]
    have := base_lt T.inCount (hord n hn)
    simp only; omega
  · intro op hop
    obtain ⟨n, hn, rfl⟩ := List.mem_map.1 hop
    rw [opFor_atR]
    have := base_lt T.atCount (hord n hn)
    simp only; omega
  · intro op hop
    obtain ⟨n, hn, rfl⟩ := List.mem_map.1 hop
    rw [opFor_modR]
    have := base_lt (modTot T amts) (hord n hn)
    simp only; omega
  · intro op hop io hio
    obtain ⟨n, hn, rfl⟩ := List.mem_map.1 hop
    obtain ⟨e, he, hv, hd, rfl⟩ := mem_opFor_inputs.1 hio
    obtain ⟨v1, v2, v3, v4⟩ := (validConn_iff T ids e).1 hv
    subst hd
    rw [globalConn_eq, opFor_inR, opFor_modR]
    refine ⟨?_, ⟨by simp only; omega, by simp only; omega⟩, ?_⟩
    · have := base_lt T.outCount v1; simp only; omega
    · intro m hm
      simp only at hm
      split at hm
      · rename_i ha
        have hm' := Option.some.inj hm
        have := modCnt_lt amts e.dst v3 ha
        have h2 : modTot T amts e.dst = modCnt amts e.dst (T.inCount e.dst) := rfl
        constructor <;> simp only <;> omega
      · cases hm
  · intro op hop io hio io' hio' m h1 h2
    obtain ⟨n, hn, rfl⟩ := List.mem_map.1 hop
    obtain ⟨e, he, hv, hd, rfl⟩ := mem_opFor_inputs.1 hio
    obtain ⟨e', he', hv', hd', rfl⟩ := mem_opFor_inputs.1 hio'
    rw [globalConn_eq] at h1 h2 ⊢
    rw [globalConn_eq]
    simp only at h1 h2 ⊢
    split at h1
    · split at h2
      · rename_i ha ha'
        have e1 := Option.some.inj h1
        have e2 := Option.some.inj h2
        rw [hd] at e1 ha ⊢
        rw [hd'] at e2 ha' ⊢
        have := modIdx_inj ha ha' (by omega)
        rw [this]
      · cases h2
    · cases h1
  · rw [List.pairwise_map]
    apply List.Pairwise.imp _ (List.Pairwise.and hnd hpw)
    rintro a b ⟨hne, ha, hb⟩ g
    rw [opFor_outR, opFor_outR, opFor_inR, opFor_inR, opFor_modR, opFor_modR]
    exact ⟨regions_disjoint T.outCount (hord a ha) (hord b hb) hne g,
      regions_disjoint T.inCount (hord a ha) (hord b hb) hne g,
      regions_disjoint (modTot T amts) (hord a ha) (hord b hb) hne g⟩
  · rw [List.pairwise_map]
    apply List.Pairwise.imp _ (List.Pairwise.and ht.1 hpw)
    rintro a b ⟨hab, ha, hb⟩ io hio hw
    obtain ⟨e, he, hv, hd, rfl⟩ := mem_opFor_inputs.1 hio
    obtain ⟨v1, v2, v3, v4⟩ := (validConn_iff T ids e).1 hv
    rw [globalConn_eq, opFor_outR] at hw
    have h1 := hw.1; have h2 := hw.2
    simp only at h1 h2
    have := (base_inj T.outCount (k := e.srcOut) (j := base T.outCount ids e.src + e.srcOut - base T.outCount ids b)
      v1 (hord b hb) v4 (by omega) (by omega)).1
    exact hab e he hv ⟨hd, this⟩
  · intro op hop io hio hw
    obtain ⟨n, hn, rfl⟩ := List.mem_map.1 hop
    obtain ⟨e, he, hv, hd, rfl⟩ := mem_opFor_inputs.1 hio
    obtain ⟨v1, v2, v3, v4⟩ := (validConn_iff T ids e).1 hv
    rw [globalConn_eq, opFor_outR] at hw
    have h1 := hw.1; have h2 := hw.2
    simp only at h1 h2
    have := (base_inj T.outCount (k := e.srcOut) (j := base T.outCount ids e.src + e.srcOut - base T.outCount ids n)
      v1 (hord n hn) v4 (by omega) (by omega)).1
    subst hd
    exact ht.2 e he hv hn this

theorem built_ok {T : NodeTable N V A} {c : Conf N V A} {order : List N} {es : List (Conn N)}
    {p : NodeProg N V A} (hb : Built T c order es p) (hnd : order.Nodup) (hord : ∀ n ∈ order, n ∈ c.ids)
    (ht : Topo T c.ids order es) (ho : p.owned.Nodup) : ProgOK p := by
  refine ⟨by rw [hb.curLen, hb.inLen], by rw [hb.parLen, hb.inLen], by rw [hb.fbLen, hb.outLen], ho, ?_⟩
  rw [hb.outLen, hb.inLen, hb.atLen, hb.modLen, hb.prog]
  exact opsOK_opFor hnd hord ht

end HexoDSP.Engine
