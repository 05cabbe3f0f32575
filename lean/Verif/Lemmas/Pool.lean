import Verif.Model.NodeExec
import Verif.Lemmas.Smoother
import Mathlib.Tactic.Tauto
/-! The pool of parameter smoothers. -/

set_option linter.unusedSectionVars false

namespace HexoDSP.Engine

variable {V : Type}

/-- Indices of the running smoothers. -/
def busy (ss : List (Nat × Smoother V)) : List Nat := (ss.filter (fun x => !x.2.done)).map Prod.fst

theorem mem_busy {ss : List (Nat × Smoother V)} {g : Nat} : g ∈ busy ss ↔ ∃ s, (g, s) ∈ ss ∧ s.done = false := by
  simp [busy]

theorem busy_cons (x : Nat × Smoother V) (ss : List (Nat × Smoother V)) :
    busy (x :: ss) = if x.2.done then busy ss else x.1 :: busy ss := by
  unfold busy
  cases h : x.2.done <;> simp [h]

section
variable [Sub V] [Div V] [NatCast V]

/-- What a parameter change does to the pool. -/
structure SetIn (idx : Nat) (v : V) (slope : Nat) (ss ss' : List (Nat × Smoother V)) : Prop where
  other : ∀ g s, g ≠ idx → s.done = false → ((g, s) ∈ ss' ↔ (g, s) ∈ ss)
  this : ∀ s, (idx, s) ∈ ss' → s.done = false → s.target = v ∧ s.count = slope
  has : ∃ s, (idx, s) ∈ ss' ∧ s.done = false
  nodup : (busy ss').Nodup
  slopes : ∀ x ∈ ss', x.2.slopeSamples = slope
  len : ss'.length = ss.length

theorem retarget_none (idx : Nat) (cur v : V) (ss : List (Nat × Smoother V)) :
    retarget idx cur v ss = none ↔ idx ∉ busy ss := by
  induction ss with
  | nil => simp [retarget, busy]
  | cons x ss ih =>
    simp only [retarget, busy_cons]
    by_cases hd : x.2.done
    · simp [hd, ih]
    · by_cases hi : x.1 = idx
      · simp [hd, hi]
      · have hi' : idx ≠ x.1 := fun h => hi h.symm
        simp [hd, hi, hi', ih]

theorem retarget_some {idx slope : Nat} {cur v : V} : ∀ {ss ss' : List (Nat × Smoother V)}, (busy ss).Nodup →
    (∀ x ∈ ss, x.2.slopeSamples = slope) → retarget idx cur v ss = some ss' →
    SetIn idx v slope ss ss' ∧ busy ss' = busy ss := by
  intro ss
  induction ss with
  | nil => intro ss' _ _ h; cases h
  | cons x ss ih =>
    intro ss' hnd hsl h
    rw [busy_cons] at hnd
    simp only [retarget] at h
    split at h
    · rename_i hc
      cases h
      simp only [Bool.and_eq_true, Bool.not_eq_true', beq_iff_eq] at hc
      obtain ⟨hd, hi⟩ := hc
      rw [if_neg (by simp [hd])] at hnd
      obtain ⟨hn1, hn2⟩ := List.nodup_cons.1 hnd
      have hb : busy ((x.1, x.2.set cur v) :: ss) = busy (x :: ss) := by
        rw [busy_cons, busy_cons]
        simp [Smoother.set, hd]
      refine ⟨⟨?_, ?_, ?_, ?_, ?_, by simp⟩, hb⟩
      · intro g s hg hs
        simp only [List.mem_cons, Prod.ext_iff]
        constructor
        · rintro (h | h)
          · exact absurd (h.1.trans hi) hg
          · exact .inr h
        · rintro (h | h)
          · exact absurd (h.1.trans hi) hg
          · exact .inr h
      · intro s hs hsd
        rcases List.mem_cons.1 hs with h | h
        · cases h
          exact ⟨rfl, hsl x (by simp)⟩
        · exact absurd (mem_busy.2 ⟨s, h, hsd⟩) (hi ▸ hn1)
      · exact ⟨x.2.set cur v, by simp [hi], rfl⟩
      · rw [hb, busy_cons, if_neg (by simp [hd])]; exact hnd
      · intro y hy
        rcases List.mem_cons.1 hy with rfl | hy
        · exact hsl x (by simp)
        · exact hsl y (by simp [hy])
    · rename_i hc
      obtain ⟨ss1, h1, rfl⟩ := Option.map_eq_some_iff.1 h
      have hnd2 : (busy ss).Nodup := by
        split at hnd
        · exact hnd
        · exact (List.nodup_cons.1 hnd).2
      obtain ⟨hs, hb⟩ := ih hnd2 (fun y hy => hsl y (by simp [hy])) h1
      have hbx : busy (x :: ss1) = busy (x :: ss) := by rw [busy_cons, busy_cons, hb]
      refine ⟨⟨?_, ?_, ?_, ?_, ?_, by simp [hs.len]⟩, hbx⟩
      · intro g s hg hsd
        simp only [List.mem_cons, hs.other g s hg hsd]
      · intro s hmem hsd
        rcases List.mem_cons.1 hmem with h | h
        · subst h
          simp [hsd] at hc
        · exact hs.this s h hsd
      · obtain ⟨s, h1, h2⟩ := hs.has
        exact ⟨s, by simp [h1], h2⟩
      · rw [hbx, busy_cons]; exact hnd
      · intro y hy
        rcases List.mem_cons.1 hy with rfl | hy
        · exact hsl _ (by simp)
        · exact hs.slopes y hy

theorem startIdle_spec {idx slope : Nat} {cur v : V} : ∀ {ss : List (Nat × Smoother V)}, (busy ss).Nodup →
    (∀ x ∈ ss, x.2.slopeSamples = slope) → idx ∉ busy ss → (∃ x ∈ ss, x.2.done = true) →
    SetIn idx v slope ss (startIdle idx cur v ss) ∧ ∀ g, g ∈ busy (startIdle idx cur v ss) ↔ g = idx ∨ g ∈ busy ss := by
  intro ss
  induction ss with
  | nil => rintro _ _ _ ⟨x, hx, _⟩; cases hx
  | cons x ss ih =>
    intro hnd hsl hni hidle
    rw [busy_cons] at hnd hni
    simp only [startIdle]
    split
    · rename_i hd
      rw [if_pos hd] at hnd hni
      have hb : busy ((idx, x.2.set cur v) :: ss) = idx :: busy ss := by
        rw [busy_cons]; simp [Smoother.set]
      refine ⟨⟨?_, ?_, ?_, ?_, ?_, by simp⟩, ?_⟩
      · intro g s hg hs
        simp only [List.mem_cons, Prod.ext_iff]
        constructor
        · rintro (h | h)
          · exact absurd h.1 hg
          · exact .inr h
        · rintro (h | h)
          · rw [← h.2, hs] at hd; cases hd
          · exact .inr h
      · intro s hs hsd
        rcases List.mem_cons.1 hs with h | h
        · cases h
          exact ⟨rfl, hsl x (by simp)⟩
        · exact absurd (mem_busy.2 ⟨s, h, hsd⟩) hni
      · exact ⟨x.2.set cur v, by simp, rfl⟩
      · rw [hb]; exact List.nodup_cons.2 ⟨hni, hnd⟩
      · intro y hy
        rcases List.mem_cons.1 hy with rfl | hy
        · exact hsl x (by simp)
        · exact hsl y (by simp [hy])
      · intro g
        rw [hb, busy_cons, if_pos hd]
        simp
    · rename_i hd
      rw [if_neg hd] at hnd hni
      obtain ⟨hn1, hn2⟩ := List.nodup_cons.1 hnd
      simp only [List.mem_cons, not_or] at hni
      have hidle' : ∃ x ∈ ss, x.2.done = true := by
        obtain ⟨y, hy, hyd⟩ := hidle
        rcases List.mem_cons.1 hy with rfl | hy
        · exact absurd hyd hd
        · exact ⟨y, hy, hyd⟩
      obtain ⟨hs, hb⟩ := ih hn2 (fun y hy => hsl y (by simp [hy])) hni.2 hidle'
      refine ⟨⟨?_, ?_, ?_, ?_, ?_, by simp [hs.len]⟩, ?_⟩
      · intro g s hg hsd
        simp only [List.mem_cons, hs.other g s hg hsd]
      · intro s hmem hsd
        rcases List.mem_cons.1 hmem with h | h
        · subst h; exact absurd rfl hni.1
        · exact hs.this s h hsd
      · obtain ⟨s, h1, h2⟩ := hs.has
        exact ⟨s, by simp [h1], h2⟩
      · rw [busy_cons, if_neg hd]
        refine List.nodup_cons.2 ⟨fun hm => ?_, hs.nodup⟩
        rcases (hb _).1 hm with h | h
        · exact hni.1 h.symm
        · exact hn1 h
      · intro y hy
        rcases List.mem_cons.1 hy with rfl | hy
        · exact hsl _ (by simp)
        · exact hs.slopes y hy
      · intro g
        rw [busy_cons, busy_cons, if_neg hd, if_neg hd, List.mem_cons, hb g, List.mem_cons]
        tauto

end

/-- If nobody is idle then as many parameters move as there are smoothers. -/
theorem busy_full {ss : List (Nat × Smoother V)} (h : ¬ ∃ x ∈ ss, x.2.done = true) : (busy ss).length = ss.length := by
  unfold busy
  rw [List.length_map, List.filter_eq_self.2]
  intro x hx
  simp only [not_exists, not_and] at h
  simp [h x hx]

section
variable [Add V] [OfNat V 0]

/-- What a block does to the pool, the parameters and the buffers. -/
structure RanPool (inp : List BufId) (nf : Nat) (ss ss' : List (Nat × Smoother V)) (a a' : SmoothAcc V) : Prop where
  pool : ss' = ss.map (fun x => if x.2.done then x else (x.1, x.2.after nf))
  refresh : a'.refresh = a.refresh ++ (ss.filter (fun x => !x.2.done)).map (fun x => (x.1, x.2.out (nf - 1)))
  params : ∀ g s, (g, s) ∈ ss → s.done = false → g < a.params.length → a'.params[g]? = some (s.out (nf - 1))
  paramsElse : ∀ g, g ∉ busy ss → a'.params[g]? = a.params[g]?
  parLen : a'.params.length = a.params.length
  data : ∀ g s b, (g, s) ∈ ss → s.done = false → inp[g]? = some b → ∀ f, f < nf → a'.heap.data b f = s.out f
  dataElse : ∀ g b, g ∉ busy ss → inp[g]? = some b → a'.heap.data b = a.heap.data b

theorem runSmoothers_spec {inp : List BufId} (hinp : inp.Nodup) {nf : Nat} (hnf : 0 < nf) : ∀ (ss : List (Nat × Smoother V))
    (a : SmoothAcc V), (busy ss).Nodup → (∀ g ∈ busy ss, g < inp.length) →
    ∃ ss' a', runSmoothers inp nf a ss = some (ss', a') ∧ RanPool inp nf ss ss' a a' := by
  intro ss
  induction ss with
  | nil =>
    intro a _ _
    exact ⟨[], a, rfl, rfl, by simp, fun g s h => absurd h (by simp), fun _ _ => rfl, rfl,
      fun g s b h => absurd h (by simp), fun _ _ _ _ => rfl⟩
  | cons x ss ih =>
    intro a hnd hb
    obtain ⟨i, s⟩ := x
    rw [busy_cons] at hnd hb
    simp only [runSmoothers]
    by_cases hd : s.done = true
    · simp only [hd, if_true] at hnd hb ⊢
      obtain ⟨ss', a', h1, h2⟩ := ih a hnd hb
      refine ⟨(i, s) :: ss', a', by rw [h1]; rfl, ?_⟩
      have hnot : ∀ g s', (g, s') ∈ (i, s) :: ss → s'.done = false → (g, s') ∈ ss := by
        intro g s' h hs'
        rcases List.mem_cons.1 h with h | h
        · cases h; rw [hd] at hs'; cases hs'
        · exact h
      have hbe : busy ((i, s) :: ss) = busy ss := by rw [busy_cons]; simp [hd]
      refine ⟨by simp [hd, h2.pool], by simp [hd, h2.refresh], fun g s' h hs' => h2.params g s' (hnot g s' h hs') hs',
        fun g hg => h2.paramsElse g (by rw [← hbe]; exact hg), h2.parLen,
        fun g s' b h hs' => h2.data g s' b (hnot g s' h hs') hs', fun g b hg => h2.dataElse g b (by rw [← hbe]; exact hg)⟩
    · simp only [hd, if_false, Bool.false_eq_true] at hnd hb ⊢
      obtain ⟨hn1, hn2⟩ := List.nodup_cons.1 hnd
      have hi : i < inp.length := hb i (by simp)
      rw [List.getElem?_eq_getElem hi]
      simp only [show nf ≠ 0 by omega, if_false]
      obtain ⟨ss', a', h1, h2⟩ := ih
        { heap := a.heap.write inp[i] (fun f => if f < nf then s.out f else a.heap.data inp[i] f)
          params := a.params.set i (s.out (nf - 1)), refresh := a.refresh ++ [(i, s.out (nf - 1))] } hn2
        (fun g hg => hb g (by simp [hg]))
      refine ⟨(i, s.after nf) :: ss', a', by rw [h1]; rfl, ?_⟩
      have hbe : busy ((i, s) :: ss) = i :: busy ss := by rw [busy_cons]; simp [hd]
      have hd' : s.done = false := by simpa using hd
      refine ⟨by simp [hd, h2.pool], by simp [hd, h2.refresh], ?_, ?_, by simpa using h2.parLen, ?_, ?_⟩
      · intro g s' h hs' hg
        rcases List.mem_cons.1 h with h | h
        · cases h
          rw [h2.paramsElse _ hn1]
          simp [hg]
        · exact h2.params g s' h hs' (by simpa using hg)
      · intro g hg
        rw [hbe] at hg
        simp only [List.mem_cons, not_or] at hg
        rw [h2.paramsElse g hg.2]
        simp only
        rw [List.getElem?_set_ne (fun h => hg.1 h.symm)]
      · intro g s' b h hs' hgb f hf
        rcases List.mem_cons.1 h with h | h
        · cases h
          rw [h2.dataElse _ b hn1 hgb]
          have : b = inp[i] := by
            rw [List.getElem?_eq_getElem hi] at hgb
            exact (Option.some.inj hgb).symm
          subst this
          simp [Heap.write, hf]
        · exact h2.data g s' b h hs' hgb f hf
      · intro g b hg hgb
        rw [hbe] at hg
        simp only [List.mem_cons, not_or] at hg
        rw [h2.dataElse g b hg.2 hgb]
        have hne : b ≠ inp[i] := by
          rintro rfl
          have := (List.getElem?_inj (List.getElem?_eq_some_iff.1 hgb).1 hinp).1 (hgb.trans (List.getElem?_eq_getElem hi).symm)
          exact hg.1 this
        simp [Heap.write, hne]

end

theorem refreshTargets_spec {inp : List BufId} (hinp : inp.Nodup) : ∀ (ts : List (Nat × V)) (h : Heap V),
    (∀ e ∈ ts, e.1 < inp.length) → ∃ h', refreshTargets inp h ts = some h' ∧
      ∀ g b v, inp[g]? = some b → (∀ e ∈ ts, e.1 = g → e.2 = v) →
        ((∃ e ∈ ts, e.1 = g) ∨ h.data b = fun _ => v) → h'.data b = fun _ => v := by
  intro ts
  induction ts with
  | nil =>
    intro h _
    refine ⟨h, rfl, fun g b v _ _ hor => ?_⟩
    rcases hor with ⟨e, he, _⟩ | h1
    · cases he
    · exact h1
  | cons e ts ih =>
    intro h hb
    obtain ⟨i, x⟩ := e
    have hi : i < inp.length := hb (i, x) (by simp)
    obtain ⟨h', h1, h2⟩ := ih (h.fill inp[i] x) (fun e he => hb e (by simp [he]))
    refine ⟨h', by simp only [refreshTargets, List.getElem?_eq_getElem hi]; exact h1, ?_⟩
    intro g b v hgb hall hor
    refine h2 g b v hgb (fun e he => hall e (by simp [he])) ?_
    by_cases hg : i = g
    · right
      subst hg
      have : b = inp[i] := by
        rw [List.getElem?_eq_getElem hi] at hgb
        exact (Option.some.inj hgb).symm
      subst this
      have := hall (i, x) (by simp) rfl
      simp only at this
      subst this
      simp [Heap.fill, Heap.write]
    · have hne : b ≠ inp[i] := by
        rintro rfl
        have := (List.getElem?_inj (List.getElem?_eq_some_iff.1 hgb).1 hinp).1 (hgb.trans (List.getElem?_eq_getElem hi).symm)
        exact hg this.symm
      rcases hor with ⟨e, he, heg⟩ | hd
      · rcases List.mem_cons.1 he with rfl | he
        · exact absurd heg hg
        · exact .inl ⟨e, he, heg⟩
      · right
        simp [Heap.fill, Heap.write, hne, hd]

end HexoDSP.Engine
