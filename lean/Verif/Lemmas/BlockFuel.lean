import Verif.Model.BlockCompile
/-! More fuel does not change what the compiler answers. -/

namespace HexoDSP.Block

section
variable {α F : Type} {L : Lang} {parse : String → Option F} {G : Graph α}

theorem kids_fuel {t t' : α → Option String → CS → Except CErr (Blk F × CS)}
    (h : ∀ x o cs, t x o cs ≠ .error .endless → t' x o cs = t x o cs) : ∀ (ks : List (String × String × α)) (cs : CS),
    transKids t ks cs ≠ .error .endless → transKids t' ks cs = transKids t ks cs := by
  intro ks
  induction ks with
  | nil => intro cs _; rfl
  | cons k ks ih =>
    intro cs hne
    unfold transKids at hne ⊢
    have h1 : t k.2.2 (portOpt k.2.1) cs ≠ .error .endless := by
      intro he; rw [he] at hne; exact hne rfl
    rw [h _ _ _ h1]
    cases ht : t k.2.2 (portOpt k.2.1) cs with
    | error e => rfl
    | ok r =>
      rw [ht] at hne
      simp only at hne ⊢
      have h2 : transKids t ks r.2 ≠ .error .endless := by
        intro he; rw [he] at hne; exact hne rfl
      rw [ih _ h2]

theorem map_endless {β γ : Type} {g : β → γ} {e : Except CErr β} (h : e.map g ≠ .error .endless) : e ≠ .error .endless := by
  intro he; rw [he] at h; exact h rfl

theorem trans_fuel : ∀ (n : Nat) (x : α) (o : Option String) (cs : CS), trans L parse G n x o cs ≠ .error .endless →
    trans L parse G (n + 1) x o cs = trans L parse G n x o cs := by
  intro n
  induction n with
  | zero => intro x o cs h; exact absurd rfl h
  | succ n ih =>
    intro x o cs h
    rw [trans] at h ⊢
    rw [show trans L parse G (n + 1) x o cs = _ from by rw [trans]]
    simp only at h ⊢
    cases hv : cs.var (G.info x).1 (o.getD "") with
    | some v => rfl
    | none =>
      rw [hv] at h
      simp only at h ⊢
      by_cases h1 : (G.info x).2.1 = "<a>"
      · rw [if_pos h1] at h ⊢
        rw [if_pos h1, kids_fuel ih _ _ (map_endless h)]
      rw [if_neg h1] at h ⊢
      rw [if_neg h1]
      by_cases h2 : (G.info x).2.1 = "<r>"
      · rw [if_pos h2] at h ⊢
        rw [if_pos h2]
        cases hk : G.kids x with
        | nil => rfl
        | cons k ks => rw [hk] at h; simp only at h ⊢; rw [ih _ _ _ (map_endless h)]
      rw [if_neg h2] at h ⊢
      rw [if_neg h2]
      by_cases h3 : (G.info x).2.1 = "->"
      · rw [if_pos h3] at h ⊢
        rw [if_pos h3]
        cases hk : G.kids x with
        | nil => rfl
        | cons k ks => rw [hk] at h; exact ih _ _ _ h
      rw [if_neg h3] at h ⊢
      rw [if_neg h3]
      by_cases h4 : (G.info x).2.1 = "value"
      · rw [if_pos h4, if_pos h4]
      rw [if_neg h4] at h ⊢
      rw [if_neg h4]
      by_cases h5 : (G.info x).2.1 = "set" ∨ (G.info x).2.1 = "<res>"
      · rw [if_pos h5] at h ⊢
        rw [if_pos h5]
        cases hk : G.kids x with
        | nil => rfl
        | cons k ks => rw [hk] at h; simp only at h ⊢; rw [ih _ _ _ (map_endless h)]
      rw [if_neg h5] at h ⊢
      rw [if_neg h5]
      by_cases h6 : (G.info x).2.1 = "get"
      · rw [if_pos h6, if_pos h6]
      rw [if_neg h6] at h ⊢
      rw [if_neg h6]
      by_cases h7 : (G.info x).2.1 = "->2" ∨ (G.info x).2.1 = "->3"
      · rw [if_pos h7] at h ⊢
        rw [if_pos h7]
        cases hk : G.kids x with
        | nil => rfl
        | cons k ks => rw [hk] at h; simp only at h ⊢; rw [ih _ _ _ (map_endless h)]
      rw [if_neg h7] at h ⊢
      rw [if_neg h7]
      have h8 : transKids (trans L parse G n) (G.kids x) cs ≠ .error .endless := by
        intro he; rw [he] at h; exact h rfl
      rw [kids_fuel ih _ _ h8]

theorem loop_fuel {f : BlockFun} {s : String} : ∀ (n : Nat) (g : Gen) (jobs : List Job) (r : Except Err Gen),
    Gen.loop f s n g jobs = some r → Gen.loop f s (n + 1) g jobs = some r := by
  intro n
  induction n with
  | zero =>
    intro g jobs r h
    cases jobs with
    | nil => exact h
    | cons j rest => cases h
  | succ n ih =>
    intro g jobs r h
    cases jobs with
    | nil => exact h
    | cons j rest =>
      unfold Gen.loop at h ⊢
      cases hs : Gen.step f s g rest j with
      | error e => rw [hs] at h; exact h
      | ok q => rw [hs] at h; exact ih _ _ _ h

/-- Enough fuel is enough. -/
theorem compile_fuel {zero : F} {f : BlockFun} {n m : Nat} (hnm : n ≤ m) (h : compile L parse zero n f ≠ .error .endless) :
    compile L parse zero m f = compile L parse zero n f := by
  induction hnm with
  | refl => rfl
  | @step m _ ih =>
    rw [← ih] at h ⊢
    unfold compile at h ⊢
    unfold BlockFun.generateTree at h ⊢
    cases hz : L "zero" with
    | none => rfl
    | some t =>
      rw [hz] at h
      simp only at h ⊢
      cases hl : Gen.loop f t.name m ⟨[⟨0, "<r>", "", []⟩], []⟩ [Job.area 0 0] with
      | none => rw [hl] at h; exact absurd rfl h
      | some r =>
        rw [loop_fuel _ _ _ _ hl]
        cases r with
        | error e => rfl
        | ok g =>
          rw [hl] at h
          simp only [Option.map_some, Except.map] at h ⊢
          have h1 : trans L parse (heapGraph g.heap) m 0 none ⟨[], 0⟩ ≠ .error .endless := by
            intro he; rw [he] at h; exact h rfl
          rw [trans_fuel _ _ _ _ h1]

end

end HexoDSP.Block
