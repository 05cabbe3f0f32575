import Verif.Lemmas.Reach
import Mathlib.Data.List.Perm.Basic
/-! Ownership of the sample buffers. -/

set_option linter.unusedSectionVars false

namespace HexoDSP.Engine
open EngineSpec

variable {N V A M σ : Type} [DecidableEq N]

theorem swapZip_perm {α : Type} (a : List α) : ∀ b : List α,
    ((swapZip a b).1 ++ (swapZip a b).2).Perm (a ++ b) ∧ (swapZip a b).1.length = a.length ∧
    (swapZip a b).2.length = b.length := by
  induction a with
  | nil => intro b; exact ⟨.refl _, rfl, rfl⟩
  | cons x a ih =>
    intro b
    cases b with
    | nil => exact ⟨.refl _, rfl, rfl⟩
    | cons y b =>
      obtain ⟨h1, h2, h3⟩ := ih b
      refine ⟨?_, by simp [swapZip, h2], by simp [swapZip, h3]⟩
      show (y :: (swapZip a b).1 ++ x :: (swapZip a b).2).Perm (x :: a ++ y :: b)
      have e1 : (y :: (swapZip a b).1 ++ x :: (swapZip a b).2).Perm (x :: y :: ((swapZip a b).1 ++ (swapZip a b).2)) :=
        List.perm_middle (l₁ := y :: (swapZip a b).1)
      have e2 : (x :: a ++ y :: b).Perm (x :: y :: (a ++ b)) := by
        simp [(List.perm_middle (a := y) (l₁ := a) (l₂ := b)).cons x]
      exact e1.trans (((h1.cons y).cons x).trans e2.symm)

/-- Every buffer a program refers to is one it owns. -/
structure RefsOwn (p : NodeProg N V A) : Prop where
  cur : ∀ b, some b ∈ p.curInp → b ∈ p.owned
  mods : ∀ mo ∈ p.modops, (∀ b, mo.inbuf = some b → b ∈ p.owned) ∧ (∀ b, mo.outbuf = some b → b ∈ p.owned)

/-- A program that refers to no buffer. -/
structure Unlinked (p : NodeProg N V A) : Prop where
  cur : ∀ b, some b ∉ p.curInp
  mods : ∀ mo ∈ p.modops, mo.inbuf = none ∧ mo.outbuf = none

theorem Unlinked.refs {p : NodeProg N V A} (h : Unlinked p) : RefsOwn p :=
  ⟨fun b hb => absurd hb (h.cur b), fun mo hmo => ⟨fun b hb => by simp [(h.mods mo hmo).1] at hb,
    fun b hb => by simp [(h.mods mo hmo).2] at hb⟩⟩

/-- The same buffers in the same places. -/
structure SameBufs (p q : NodeProg N V A) : Prop where
  inp : q.inp = p.inp
  out : q.out = p.out
  mods : q.modops.map (fun m => m.modbuf) = p.modops.map (fun m => m.modbuf)
  curLen : q.curInp.length = p.curInp.length

theorem SameBufs.refl (p : NodeProg N V A) : SameBufs p p := ⟨rfl, rfl, rfl, rfl⟩

theorem SameBufs.trans {p q r : NodeProg N V A} (h : SameBufs p q) (h' : SameBufs q r) : SameBufs p r :=
  ⟨h'.1.trans h.1, h'.2.trans h.2, h'.3.trans h.3, h'.4.trans h.4⟩

theorem SameBufs.owned {p q : NodeProg N V A} (h : SameBufs p q) : q.owned = p.owned := by
  unfold NodeProg.owned
  rw [h.inp, h.out, h.mods]

theorem mem_owned_inp {p : NodeProg N V A} {b : BufId} {i : Nat} (h : p.inp[i]? = some b) : b ∈ p.owned := by
  simp [NodeProg.owned, List.mem_of_getElem? h]

theorem mem_owned_out {p : NodeProg N V A} {b : BufId} {i : Nat} (h : p.out[i]? = some b) : b ∈ p.owned := by
  simp [NodeProg.owned, List.mem_of_getElem? h]

theorem mem_owned_mod {p : NodeProg N V A} {mo : ModOp V} (h : mo ∈ p.modops) : mo.modbuf ∈ p.owned := by
  simp only [NodeProg.owned, List.mem_append, List.mem_map]
  exact Or.inr ⟨mo, h, rfl⟩

theorem assignInput_refs {p q : NodeProg N V A} {io : Nat × Nat × Option Nat} (h : RefsOwn p)
    (ha : assignInput p io = some q) : SameBufs p q ∧ RefsOwn q := by
  unfold assignInput at ha
  cases ho : p.out[io.1]? with
  | none => simp [ho] at ha
  | some ob =>
    simp only [ho] at ha
    split at ha
    · cases hm : io.2.2 with
      | none =>
        simp only [hm, Option.some.injEq] at ha
        subst ha
        refine ⟨⟨rfl, rfl, rfl, by simp⟩, ⟨?_, h.mods⟩⟩
        intro b hb
        rcases List.mem_or_eq_of_mem_set hb with hb | hb
        · exact h.cur b hb
        · cases hb; exact mem_owned_out ho
      | some m =>
        simp only [hm] at ha
        cases hmo : p.modops[m]? with
        | none => simp [hmo] at ha
        | some mo =>
          cases hi : p.inp[io.2.1]? with
          | none => simp [hmo, hi] at ha
          | some ib =>
            simp only [hmo, hi, Option.some.injEq] at ha
            have hmods : (p.modops.set m (mo.lock ib ob)).map (fun m => m.modbuf) =
                p.modops.map (fun m => m.modbuf) := by
              apply List.ext_getElem?
              intro j
              simp only [List.getElem?_map, List.getElem?_set]
              by_cases hj : m = j
              · subst hj
                rw [if_pos rfl]
                split
                · rw [hmo]; rfl
                · rename_i hlt
                  exact absurd (List.getElem?_eq_some_iff.1 hmo).1 hlt
              · rw [if_neg hj]
            subst ha
            have hsb : SameBufs p { p with curInp := p.curInp.set io.2.1 (some mo.modbuf)
                                           modops := p.modops.set m (mo.lock ib ob) } :=
              ⟨rfl, rfl, hmods, by simp⟩
            refine ⟨hsb, ⟨?_, ?_⟩⟩
            · intro b hb
              rw [hsb.owned]
              rcases List.mem_or_eq_of_mem_set hb with hb | hb
              · exact h.cur b hb
              · cases hb; exact mem_owned_mod (List.mem_of_getElem? hmo)
            · intro mo' hmo'
              rw [hsb.owned]
              rcases List.mem_or_eq_of_mem_set hmo' with hb | hb
              · exact h.mods mo' hb
              · subst hb
                exact ⟨fun b hb => by cases hb; exact mem_owned_inp hi, fun b hb => by cases hb; exact mem_owned_out ho⟩
    · cases ha

theorem assignInputs_refs (ios : List (Nat × Nat × Option Nat)) : ∀ {p q : NodeProg N V A}, RefsOwn p →
    ios.foldlM assignInput p = some q → SameBufs p q ∧ RefsOwn q := by
  induction ios with
  | nil => intro p q h ha; simp at ha; subst ha; exact ⟨.refl _, h⟩
  | cons io ios ih =>
    intro p q h ha
    rw [List.foldlM_cons] at ha
    cases hs : assignInput p io with
    | none => simp [hs] at ha
    | some p1 =>
      simp only [hs, Option.bind_eq_bind, Option.bind_some] at ha
      obtain ⟨h1, h2⟩ := assignInput_refs h hs
      obtain ⟨h3, h4⟩ := ih h2 ha
      exact ⟨h1.trans h3, h4⟩

theorem assignOp_refs {p q : NodeProg N V A} {op : NodeOp N} (h : RefsOwn p) (ha : assignOp p op = some q) :
    SameBufs p q ∧ RefsOwn q := by
  unfold assignOp refreshInputs at ha
  split at ha
  · rename_i hc
    simp only [Option.bind_some] at ha
    have hsb : SameBufs p { p with curInp := p.curInp.take op.inR.1 ++
          (((p.inp.take op.inR.2).drop op.inR.1).map some) ++ p.curInp.drop op.inR.2 } := ⟨rfl, rfl, rfl, by simp; omega⟩
    have hr : RefsOwn { p with curInp := p.curInp.take op.inR.1 ++
          (((p.inp.take op.inR.2).drop op.inR.1).map some) ++ p.curInp.drop op.inR.2 } := by
      refine ⟨?_, h.mods⟩
      intro b hb
      rw [hsb.owned]
      simp only [List.mem_append] at hb
      rcases hb with (hb | hb) | hb
      · exact h.cur b (List.mem_of_mem_take hb)
      · obtain ⟨b', hb', he⟩ := List.mem_map.1 hb
        cases he
        have := List.mem_of_mem_take (List.mem_of_mem_drop hb')
        simp [NodeProg.owned, this]
      · exact h.cur b (List.mem_of_mem_drop hb)
    obtain ⟨h1, h2⟩ := assignInputs_refs op.inputs hr ha
    exact ⟨hsb.trans h1, h2⟩
  · simp at ha

theorem assignOutputs_refs {p q : NodeProg N V A} (h : RefsOwn p) (ha : p.assignOutputs = some q) :
    SameBufs p q ∧ RefsOwn q := by
  unfold NodeProg.assignOutputs at ha
  have key : ∀ (ops : List (NodeOp N)) {p q : NodeProg N V A}, RefsOwn p → ops.foldlM assignOp p = some q →
      SameBufs p q ∧ RefsOwn q := by
    intro ops
    induction ops with
    | nil => intro p q h ha; simp at ha; subst ha; exact ⟨.refl _, h⟩
    | cons op ops ih =>
      intro p q h ha
      rw [List.foldlM_cons] at ha
      cases hs : assignOp p op with
      | none => simp [hs] at ha
      | some p1 =>
        simp only [hs, Option.bind_eq_bind, Option.bind_some] at ha
        obtain ⟨h1, h2⟩ := assignOp_refs h hs
        obtain ⟨h3, h4⟩ := ih h2 ha
        exact ⟨h1.trans h3, h4⟩
  cases hf : p.prog.foldlM assignOp p with
  | none => simp [hf] at ha
  | some r =>
    simp only [hf, Option.map_some, Option.some.injEq] at ha
    obtain ⟨h1, h2⟩ := key p.prog h hf
    subst ha
    exact ⟨⟨h1.1, h1.2, h1.3, h1.4⟩, ⟨h2.1, h2.2⟩⟩

theorem unlinked_unlock (p : NodeProg N V A) : Unlinked p.unlock ∧ SameBufs p p.unlock := by
  refine ⟨⟨?_, ?_⟩, ⟨rfl, rfl, ?_, ?_⟩⟩
  · intro b hb
    simp only [NodeProg.unlock, List.mem_map] at hb
    obtain ⟨_, _, h⟩ := hb
    cases h
  · intro mo hmo
    simp only [NodeProg.unlock, List.mem_map] at hmo
    obtain ⟨m, _, rfl⟩ := hmo
    exact ⟨rfl, rfl⟩
  · simp [NodeProg.unlock, ModOp.unlock, List.map_map, Function.comp_def]
  · simp [NodeProg.unlock]

/-- The exchange of two programs: nothing is lost, nothing duplicated. -/
theorem swapPrevious_spec {p prev : NodeProg N V A} (hp : Unlinked p) :
    Unlinked (p.swapPrevious prev).1 ∧
    ((p.swapPrevious prev).1.owned ++ (p.swapPrevious prev).2.owned).Perm (p.owned ++ prev.owned) ∧
    (p.swapPrevious prev).1.prog = p.prog ∧ (p.swapPrevious prev).1.params = p.params ∧
    (p.swapPrevious prev).1.atoms = p.atoms ∧ (p.swapPrevious prev).1.out = p.out ∧
    (p.swapPrevious prev).1.inp = (swapZip prev.inp p.inp).2 ∧
    (p.swapPrevious prev).1.curInp.length = p.curInp.length ∧
    (p.swapPrevious prev).1.outFb = p.outFb ∧
    (p.swapPrevious prev).1.modops.map (fun m => (m.amount, m.modbuf)) = p.modops.map (fun m => (m.amount, m.modbuf)) := by
  have h1 : ∃ p1, p1 = (if p.locked then p.unlock else p) ∧ Unlinked p1 ∧ SameBufs p p1 ∧ p1.prog = p.prog ∧
      p1.params = p.params ∧ p1.atoms = p.atoms ∧ p1.outFb = p.outFb ∧
      p1.modops.map (fun m => (m.amount, m.modbuf)) = p.modops.map (fun m => (m.amount, m.modbuf)) := by
    refine ⟨_, rfl, ?_⟩
    split
    · refine ⟨(unlinked_unlock p).1, (unlinked_unlock p).2, rfl, rfl, rfl, rfl, ?_⟩
      simp [NodeProg.unlock, ModOp.unlock, List.map_map, Function.comp_def]
    · exact ⟨hp, .refl p, rfl, rfl, rfl, rfl, rfl⟩
  have h2 : ∃ q1, q1 = (if prev.locked then prev.unlock else prev) ∧ SameBufs prev q1 := by
    refine ⟨_, rfl, ?_⟩
    split
    · exact (unlinked_unlock prev).2
    · exact .refl prev
  obtain ⟨p1, e1, u1, s1, a1, a2, a3, a4, a5⟩ := h1
  obtain ⟨q1, e2, s2⟩ := h2
  have he : p.swapPrevious prev =
      ({ p1 with inp := (swapZip q1.inp p1.inp).2 }, { q1 with inp := (swapZip q1.inp p1.inp).1 }) := by
    rw [e1, e2]; rfl
  rw [he]
  refine ⟨⟨u1.cur, u1.mods⟩, ?_, a1, a2, a3, s1.out, by rw [s1.inp, s2.inp], s1.curLen, a4, a5⟩
  obtain ⟨hz, _, _⟩ := swapZip_perm q1.inp p1.inp
  rw [s1.inp, s2.inp] at hz ⊢
  simp only [NodeProg.owned, s1.out, s1.mods, s2.out, s2.mods]
  rw [List.perm_iff_count] at hz ⊢
  intro b
  have := hz b
  simp only [List.count_append] at this ⊢
  omega

section
variable [OfNat V 0]

theorem fill_owned {T : NodeTable N V A} {a0 : A} {c c' : Conf N V A} {h h' : Heap V} {order : List N}
    {es : List (Conn N)} {p : NodeProg N V A} (hw : ConfWF c)
    (hb : c.buildProg T a0 h order es = some (c', p, h')) :
    (c'.fillProg p).owned.Perm (List.range' h.next (h'.next - h.next)) ∧ h.next ≤ h'.next ∧ h'.freed = h.freed ∧
    Unlinked (c'.fillProg p) := by
  have ht := tables_buildProg hb
  obtain ⟨hf, _, hlk, ho, hi, hm, hn, hfr⟩ := fill_filled hw ht (onlyProg_buildProg hb) (buildProg_split hb).2
  refine ⟨?_, by omega, hfr, ?_⟩
  · unfold NodeProg.owned
    rw [hi, ho, hm]
    have e : h'.next - h.next = tot T.outCount c.ids + (tot T.inCount c.ids + tot (modTot T c.paramModamt) c.ids) := by
      omega
    rw [e]
    rw [show List.range' h.next (tot T.outCount c.ids + (tot T.inCount c.ids + tot (modTot T c.paramModamt) c.ids)) =
      List.range' h.next (tot T.outCount c.ids) ++ (List.range' (h.next + tot T.outCount c.ids) (tot T.inCount c.ids) ++
        List.range' (h.next + tot T.outCount c.ids + tot T.inCount c.ids) (tot (modTot T c.paramModamt) c.ids)) by
      rw [List.range'_append_1, List.range'_append_1]]
    rw [← List.append_assoc]
    exact List.Perm.append_right _ List.perm_append_comm
  · have hp := onlyProg_buildProg hb
    rw [fillProg_eq, hp]
    refine ⟨?_, ?_⟩
    · intro b hb'
      simp only at hb'
      have : (freshProg T a0 c h).curInp = List.replicate (c.rebuildLoop T).inLen none := rfl
      rw [this] at hb'
      have := List.eq_of_mem_replicate hb'
      cases this
    · intro mo hmo
      simp only at hmo
      obtain ⟨i, hi'⟩ := List.mem_iff_getElem?.1 hmo
      have hlt : i < (freshProg T a0 c h).modops.length := by
        have := (List.getElem?_eq_some_iff.1 hi').1
        rwa [storeMod_length] at this
      obtain ⟨mo', q1, q2, q3, q4, _⟩ := storeMod_get (c'.params.map (fun e => e.2)) (freshProg T a0 c h).modops i _
        (List.getElem?_eq_getElem hlt)
      rw [q1] at hi'
      cases hi'
      have hmm : (freshProg T a0 c h).modops = (List.range' (h.next + (c.rebuildLoop T).outLen + (c.rebuildLoop T).inLen)
        (c.rebuildLoop T).modLen).map (fun b => { amount := 0, modbuf := b, outbuf := none, inbuf := none }) := rfl
      rw [q3, q4]
      have hmem := List.getElem_mem hlt
      generalize (freshProg T a0 c h).modops[i] = mo at hmem
      rw [hmm] at hmem
      obtain ⟨b, _, rfl⟩ := List.mem_map.1 hmem
      exact ⟨rfl, rfl⟩

end

end HexoDSP.Engine
