import Verif.Model.NodeExec
import Verif.Spec.Engine
/-! Well formed programs and what `assign_outputs` does to them. -/

set_option linter.unusedSectionVars false

namespace HexoDSP.Engine
open EngineSpec

variable {N V A M σ : Type}

/-- The last connection that feeds global input `g`. -/
def lastConn (ios : List (Nat × Nat × Option Nat)) (g : Nat) : Option (Nat × Nat × Option Nat) :=
  ios.foldl (fun acc io => if io.2.1 = g then some io else acc) none

/-- Facts about the operations of a program that do not depend on buffers. -/
structure OpsOK (nOut nIn nAt nMod : Nat) (ops : List (NodeOp N)) : Prop where
  outB : ∀ op ∈ ops, op.outR.1 ≤ op.outR.2 ∧ op.outR.2 ≤ nOut
  inB : ∀ op ∈ ops, op.inR.1 ≤ op.inR.2 ∧ op.inR.2 ≤ nIn
  atB : ∀ op ∈ ops, op.atR.1 ≤ op.atR.2 ∧ op.atR.2 ≤ nAt
  modB : ∀ op ∈ ops, op.modR.1 ≤ op.modR.2 ∧ op.modR.2 ≤ nMod
  conn : ∀ op ∈ ops, ∀ io ∈ op.inputs, io.1 < nOut ∧ Within op.inR io.2.1 ∧
    ∀ m, io.2.2 = some m → Within op.modR m
  modInj : ∀ op ∈ ops, ∀ io ∈ op.inputs, ∀ io' ∈ op.inputs, ∀ m, io.2.2 = some m → io'.2.2 = some m →
    io.2.1 = io'.2.1
  disj : ops.Pairwise (fun a b => ∀ g, ¬ (Within a.outR g ∧ Within b.outR g) ∧
    ¬ (Within a.inR g ∧ Within b.inR g) ∧ ¬ (Within a.modR g ∧ Within b.modR g))
  order : ops.Pairwise (fun a b => ∀ io ∈ a.inputs, ¬ Within b.outR io.1)
  noSelf : ∀ op ∈ ops, ∀ io ∈ op.inputs, ¬ Within op.outR io.1

/-- A well formed program. -/
structure ProgOK (p : NodeProg N V A) : Prop where
  curLen : p.curInp.length = p.inp.length
  parLen : p.params.length = p.inp.length
  fbLen : p.outFb.length = p.out.length
  owned : p.owned.Nodup
  ops : OpsOK p.out.length p.inp.length p.atoms.length p.modops.length p.prog

/-- The buffer that `cur_inp` must hold for global input `g` when `acc` is the last connection to it. -/
def wantBuf (p : NodeProg N V A) (g : Nat) : Option (Nat × Nat × Option Nat) → Option BufId
  | none => p.inp[g]?
  | some io =>
    match io.2.2 with
    | none => p.out[io.1]?
    | some m => (p.modops[m]?).map (fun mo => mo.modbuf)

/-- Input `g` is linked to the source given by `acc`. -/
def LinkedTo (p : NodeProg N V A) (g : Nat) (acc : Option (Nat × Nat × Option Nat)) : Prop :=
  p.curInp[g]? = some (wantBuf p g acc) ∧
  ∀ io m, acc = some io → io.2.2 = some m →
    ∃ mo, p.modops[m]? = some mo ∧ mo.inbuf = p.inp[g]? ∧ mo.outbuf = p.out[io.1]?

/-- Every input of every operation is linked. -/
def Linked (p : NodeProg N V A) : Prop :=
  ∀ op ∈ p.prog, ∀ g, Within op.inR g → LinkedTo p g (lastConn op.inputs g)

/-- What `assign_outputs` leaves alone. -/
structure SameBut (p q : NodeProg N V A) : Prop where
  inp : q.inp = p.inp
  out : q.out = p.out
  params : q.params = p.params
  atoms : q.atoms = p.atoms
  prog : q.prog = p.prog
  outFb : q.outFb = p.outFb
  curLen : q.curInp.length = p.curInp.length
  modLen : q.modops.length = p.modops.length
  mods : ∀ (m : Nat) (mo : ModOp V), p.modops[m]? = some mo → ∃ mo' : ModOp V, q.modops[m]? = some mo' ∧ mo'.modbuf = mo.modbuf ∧
    mo'.amount = mo.amount

theorem SameBut.refl (p : NodeProg N V A) : SameBut p p :=
  ⟨rfl, rfl, rfl, rfl, rfl, rfl, rfl, rfl, fun _ mo h => ⟨mo, h, rfl, rfl⟩⟩

theorem SameBut.trans {p q r : NodeProg N V A} (h1 : SameBut p q) (h2 : SameBut q r) : SameBut p r := by
  refine ⟨h2.inp.trans h1.inp, h2.out.trans h1.out, h2.params.trans h1.params, h2.atoms.trans h1.atoms,
    h2.prog.trans h1.prog, h2.outFb.trans h1.outFb, h2.curLen.trans h1.curLen, h2.modLen.trans h1.modLen, ?_⟩
  intro m mo h
  obtain ⟨mo1, a1, a2, a3⟩ := h1.mods m mo h
  obtain ⟨mo2, b1, b2, b3⟩ := h2.mods m mo1 a1
  exact ⟨mo2, b1, b2.trans a2, b3.trans a3⟩

theorem SameBut.modbufs {p q : NodeProg N V A} (h : SameBut p q) :
    q.modops.map (fun m => m.modbuf) = p.modops.map (fun m => m.modbuf) := by
  apply List.ext_getElem?
  intro i
  rw [List.getElem?_map, List.getElem?_map]
  cases hp : p.modops[i]? with
  | none =>
    have : q.modops[i]? = none := by
      rw [List.getElem?_eq_none_iff] at hp ⊢
      rw [h.modLen]; exact hp
    rw [this]
  | some mo =>
    obtain ⟨mo', h1, h2, _⟩ := h.mods i mo hp
    rw [h1]; simp [h2]

theorem SameBut.owned {p q : NodeProg N V A} (h : SameBut p q) : q.owned = p.owned := by
  unfold NodeProg.owned
  rw [h.inp, h.out, h.modbufs]

theorem SameBut.ok {p q : NodeProg N V A} (h : SameBut p q) (hp : ProgOK p) : ProgOK q := by
  refine ⟨by rw [h.curLen, h.inp]; exact hp.curLen, by rw [h.params, h.inp]; exact hp.parLen,
    by rw [h.outFb, h.out]; exact hp.fbLen, by rw [h.owned]; exact hp.owned, ?_⟩
  rw [h.out, h.inp, h.atoms, h.modLen, h.prog]
  exact hp.ops

theorem getElem?_set_eq {α : Type} (l : List α) (i j : Nat) (a : α) :
    (l.set i a)[j]? = if i = j ∧ j < l.length then some a else l[j]? := by
  rw [List.getElem?_set]
  by_cases h : i = j
  · subst h
    by_cases hl : i < l.length
    · simp [hl]
    · simp only [hl, if_false, if_true, and_false]
      rw [List.getElem?_eq_none (by omega)]
  · simp [h]

/-- One connection. -/
theorem assignInput_spec {p : NodeProg N V A} {io : Nat × Nat × Option Nat}
    (h1 : io.1 < p.out.length) (h2 : io.2.1 < p.curInp.length) (hl : p.curInp.length = p.inp.length)
    (h3 : ∀ m, io.2.2 = some m → m < p.modops.length) :
    ∃ q, assignInput p io = some q ∧ SameBut p q ∧
      LinkedTo q io.2.1 (some io) ∧
      (∀ g, g ≠ io.2.1 → q.curInp[g]? = p.curInp[g]?) ∧
      (∀ m, io.2.2 ≠ some m → q.modops[m]? = p.modops[m]?) := by
  unfold assignInput
  rw [List.getElem?_eq_getElem h1]
  simp only [h2, if_true]
  cases hm : io.2.2 with
  | none =>
    refine ⟨_, rfl, ⟨rfl, rfl, rfl, rfl, rfl, rfl, by simp, rfl, fun _ mo h => ⟨mo, h, rfl, rfl⟩⟩,
      ⟨?_, ?_⟩, ?_, fun _ _ => rfl⟩
    · simp only [getElem?_set_eq, h2, and_self, if_true, wantBuf, hm]
      rw [List.getElem?_eq_getElem h1]
    · intro io' m h hm'
      cases h
      rw [hm] at hm'
      cases hm'
    · intro g hg
      rw [getElem?_set_eq, if_neg]
      rintro ⟨h, _⟩; exact hg h.symm
  | some m =>
    have hmlt := h3 m hm
    have hi : io.2.1 < p.inp.length := by omega
    have e1 : p.modops[m]? = some p.modops[m] := List.getElem?_eq_getElem hmlt
    have e2 : p.inp[io.2.1]? = some p.inp[io.2.1] := List.getElem?_eq_getElem hi
    simp only [e1, e2]
    refine ⟨_, rfl, ⟨rfl, rfl, rfl, rfl, rfl, rfl, by simp, by simp, ?_⟩, ⟨?_, ?_⟩, ?_, ?_⟩
    · intro j mo h
      simp only [getElem?_set_eq]
      by_cases hj : m = j
      · subst hj
        rw [List.getElem?_eq_getElem hmlt] at h
        cases h
        exact ⟨p.modops[m].lock p.inp[io.2.1] p.out[io.1], if_pos ⟨rfl, hmlt⟩, rfl, rfl⟩
      · exact ⟨mo, by rw [if_neg (fun hh => hj hh.1)]; exact h, rfl, rfl⟩
    · simp only [getElem?_set_eq, h2, and_self, if_true, wantBuf, hm, hmlt]
      rfl
    · intro io' m' h hm'
      cases h
      rw [hm] at hm'
      cases hm'
      refine ⟨p.modops[m].lock p.inp[io.2.1] p.out[io.1], ?_, ?_, ?_⟩
      · simp only [getElem?_set_eq, hmlt, and_self, if_true]
      · simp [ModOp.lock, hi]
      · simp [ModOp.lock, h1]
    · intro g hg
      rw [getElem?_set_eq, if_neg]
      rintro ⟨h, _⟩; exact hg h.symm
    · intro j hj
      rw [getElem?_set_eq, if_neg]
      rintro ⟨h, _⟩; exact hj (by rw [h])

theorem linkedTo_congr {p q : NodeProg N V A} (h : SameBut p q) {g : Nat}
    {acc : Option (Nat × Nat × Option Nat)} (hl : LinkedTo p g acc)
    (hc : q.curInp[g]? = p.curInp[g]?)
    (hm : ∀ io m, acc = some io → io.2.2 = some m → q.modops[m]? = p.modops[m]?) : LinkedTo q g acc := by
  obtain ⟨h1, h2⟩ := hl
  constructor
  · rw [hc, h1]
    congr 1
    cases acc with
    | none => simp [wantBuf, h.inp]
    | some io =>
      cases hio : io.2.2 with
      | none => simp [wantBuf, hio, h.out]
      | some m => simp [wantBuf, hio, hm io m rfl hio]
  · intro io m ha hio
    obtain ⟨mo, k1, k2, k3⟩ := h2 io m ha hio
    exact ⟨mo, by rw [hm io m ha hio]; exact k1, by rw [h.inp]; exact k2, by rw [h.out]; exact k3⟩

/-- All connections of one operation. -/
theorem assignInputs_spec (F : Nat → Nat) (inR modR : Nat × Nat) (ios : List (Nat × Nat × Option Nat)) :
    ∀ (p : NodeProg N V A), (∀ io ∈ ios, io.1 < p.out.length ∧ Within inR io.2.1 ∧
        ∀ m, io.2.2 = some m → Within modR m ∧ F m = io.2.1) →
      inR.2 ≤ p.inp.length → p.curInp.length = p.inp.length → modR.2 ≤ p.modops.length →
      ∃ q, ios.foldlM assignInput p = some q ∧ SameBut p q ∧
        (∀ g acc, (∀ io m, acc = some io → io.2.2 = some m → F m = g) → LinkedTo p g acc →
          LinkedTo q g (ios.foldl (fun acc io => if io.2.1 = g then some io else acc) acc)) ∧
        (∀ g, ¬ Within inR g → q.curInp[g]? = p.curInp[g]?) ∧
        (∀ m, ¬ Within modR m → q.modops[m]? = p.modops[m]?) := by
  induction ios with
  | nil => intro p _ _ _ _; exact ⟨p, rfl, SameBut.refl p, fun g acc _ h => h, fun _ _ => rfl, fun _ _ => rfl⟩
  | cons io ios ih =>
    intro p h hi hc hm
    obtain ⟨a1, a2, a3⟩ := h io (by simp)
    obtain ⟨q, hq, hs, hl, hcur, hmod⟩ := assignInput_spec (p := p) (io := io) a1
      (by have := a2.2; omega) hc (fun m hm' => by have := (a3 m hm').1.2; omega)
    obtain ⟨r, hr, hs2, hl2, hcur2, hmod2⟩ := ih q
      (fun io' h' => by rw [hs.out]; exact h io' (by simp [h']))
      (by rw [hs.inp]; exact hi) (by rw [hs.curLen, hs.inp]; exact hc) (by rw [hs.modLen]; exact hm)
    refine ⟨r, by rw [List.foldlM_cons, hq]; exact hr, hs.trans hs2, ?_, ?_, ?_⟩
    · intro g acc hF hlk
      rw [List.foldl_cons]
      by_cases hg : io.2.1 = g
      · rw [if_pos hg]
        apply hl2
        · intro io' m h1 h2
          cases h1
          rw [(a3 m h2).2, hg]
        · rw [← hg]; exact hl
      · rw [if_neg hg]
        apply hl2 g acc hF
        apply linkedTo_congr hs hlk (hcur g (fun h => hg h.symm))
        intro io' m h1 h2
        apply hmod
        intro hh
        have e1 := (a3 m hh).2
        have e2 := hF io' m h1 h2
        exact hg (by rw [← e1, e2])
    · intro g hg
      rw [hcur2 g hg, hcur g (fun h => hg (h ▸ a2))]
    · intro m hm'
      rw [hmod2 m hm', hmod m (fun h => hm' (a3 m h).1)]

theorem refreshInputs_spec {p : NodeProg N V A} {a b : Nat} (hab : a ≤ b) (hb : b ≤ p.inp.length)
    (hc : p.curInp.length = p.inp.length) :
    ∃ q, refreshInputs p a b = some q ∧ SameBut p q ∧ q.modops = p.modops ∧
      (∀ g, Within (a, b) g → q.curInp[g]? = some (p.inp[g]?)) ∧
      (∀ g, ¬ Within (a, b) g → q.curInp[g]? = p.curInp[g]?) := by
  unfold refreshInputs
  rw [if_pos ⟨hab, by omega, hb⟩]
  have hl1 : (p.curInp.take a).length = a := by simp; omega
  have hl2 : (((p.inp.take b).drop a).map some).length = b - a := by simp; omega
  have hidx : ∀ g, (p.curInp.take a ++ ((p.inp.take b).drop a).map some ++ p.curInp.drop b)[g]? =
      if g < a then p.curInp[g]? else if g < b then some (p.inp[g]?) else p.curInp[g]? := by
    intro g
    rw [List.append_assoc, List.getElem?_append, hl1]
    by_cases h1 : g < a
    · rw [if_pos h1, if_pos h1, List.getElem?_take, if_pos h1]
    · rw [if_neg h1, if_neg h1, List.getElem?_append, hl2]
      by_cases h2 : g < b
      · rw [if_pos (by omega), if_pos h2, List.getElem?_map, List.getElem?_drop,
          show a + (g - a) = g by omega, List.getElem?_take, if_pos h2,
          List.getElem?_eq_getElem (by omega)]
        rfl
      · rw [if_neg (by omega), if_neg h2, List.getElem?_drop]
        congr 1
        omega
  refine ⟨_, rfl, ⟨rfl, rfl, rfl, rfl, rfl, rfl, ?_, rfl, fun _ mo h => ⟨mo, h, rfl, rfl⟩⟩, rfl, ?_, ?_⟩
  · simp only [List.length_append, hl1, hl2, List.length_drop]; omega
  · intro g hg
    have h1 := hg.1; have h2 := hg.2
    simp only at h1 h2
    simp only [hidx]
    rw [if_neg (by omega), if_pos (by omega)]
  · intro g hg
    simp only [hidx]
    by_cases h1 : g < a
    · rw [if_pos h1]
    · rw [if_neg h1, if_neg (fun h2 => hg ⟨by simp only; omega, h2⟩)]

theorem assignOp_spec {p : NodeProg N V A} {op : NodeOp N} (hc : p.curInp.length = p.inp.length)
    (hi : op.inR.1 ≤ op.inR.2 ∧ op.inR.2 ≤ p.inp.length) (hm : op.modR.2 ≤ p.modops.length)
    (hio : ∀ io ∈ op.inputs, io.1 < p.out.length ∧ Within op.inR io.2.1 ∧
      ∀ m, io.2.2 = some m → Within op.modR m)
    (hinj : ∀ io ∈ op.inputs, ∀ io' ∈ op.inputs, ∀ m, io.2.2 = some m → io'.2.2 = some m →
      io.2.1 = io'.2.1) :
    ∃ q, assignOp p op = some q ∧ SameBut p q ∧
      (∀ g, Within op.inR g → LinkedTo q g (lastConn op.inputs g)) ∧
      (∀ g, ¬ Within op.inR g → q.curInp[g]? = p.curInp[g]?) ∧
      (∀ m, ¬ Within op.modR m → q.modops[m]? = p.modops[m]?) := by
  obtain ⟨F, hF⟩ : ∃ F : Nat → Nat, ∀ io ∈ op.inputs, ∀ m, io.2.2 = some m → F m = io.2.1 := by
    refine ⟨fun m => ((op.inputs.find? (fun io => io.2.2 == some m)).map (fun io => io.2.1)).getD 0, ?_⟩
    intro io hio m hm
    cases hf : op.inputs.find? (fun io => io.2.2 == some m) with
    | none => exact absurd hm (by simpa using List.find?_eq_none.1 hf io hio)
    | some io' =>
      have h1 := List.find?_some hf
      have h2 := List.mem_of_find?_eq_some hf
      simp only [hf, Option.map_some, Option.getD_some]
      exact hinj io' h2 io hio m (by simpa using h1) hm
  obtain ⟨q, hq, hs, hmods, hcur, hcur'⟩ := refreshInputs_spec hi.1 hi.2 hc
  obtain ⟨r, hr, hs2, hl, hc2, hm2⟩ := assignInputs_spec F op.inR op.modR op.inputs q
    (fun io h => by
      obtain ⟨b1, b2, b3⟩ := hio io h
      exact ⟨by rw [hs.out]; exact b1, b2, fun m hm => ⟨b3 m hm, hF io h m hm⟩⟩)
    (by rw [hs.inp]; exact hi.2) (by rw [hs.curLen, hs.inp]; exact hc) (by rw [hs.modLen]; exact hm)
  refine ⟨r, ?_, hs.trans hs2, ?_, ?_, ?_⟩
  · unfold assignOp; rw [hq]; exact hr
  · intro g hg
    apply hl g none (fun _ _ h => by cases h)
    constructor
    · rw [hcur g hg]
      simp [wantBuf, hs.inp]
    · intro io m h; cases h
  · intro g hg; rw [hc2 g hg, hcur' g hg]
  · intro m hm'; rw [hm2 m hm', hmods]

theorem lastConn_mem {ios : List (Nat × Nat × Option Nat)} {g : Nat} {io : Nat × Nat × Option Nat}
    (h : lastConn ios g = some io) : io ∈ ios ∧ io.2.1 = g := by
  have key : ∀ (l : List (Nat × Nat × Option Nat)) (acc : Option (Nat × Nat × Option Nat)),
      l.foldl (fun acc io => if io.2.1 = g then some io else acc) acc = some io →
      acc = some io ∨ (io ∈ l ∧ io.2.1 = g) := by
    intro l
    induction l with
    | nil => intro acc h; exact Or.inl h
    | cons a l ih =>
      intro acc h
      rw [List.foldl_cons] at h
      rcases ih _ h with h' | h'
      · by_cases ha : a.2.1 = g
        · rw [if_pos ha] at h'; cases h'; exact Or.inr ⟨by simp, ha⟩
        · rw [if_neg ha] at h'; exact Or.inl h'
      · exact Or.inr ⟨by simp [h'.1], h'.2⟩
  rcases key ios none h with h' | h'
  · cases h'
  · exact h'

theorem lastConn_none {ios : List (Nat × Nat × Option Nat)} {g : Nat} :
    lastConn ios g = none ↔ ∀ io ∈ ios, io.2.1 ≠ g := by
  have key : ∀ (l : List (Nat × Nat × Option Nat)) (acc : Option (Nat × Nat × Option Nat)),
      l.foldl (fun acc io => if io.2.1 = g then some io else acc) acc = none ↔
      acc = none ∧ ∀ io ∈ l, io.2.1 ≠ g := by
    intro l
    induction l with
    | nil => intro acc; simp
    | cons a l ih =>
      intro acc
      rw [List.foldl_cons, ih]
      by_cases ha : a.2.1 = g
      · simp [ha]
      · simp [ha]
  have := key ios none
  simp only [true_and] at this
  exact this

/-- The loop of `assign_outputs`. -/
theorem assignLoop_spec {nOut nIn nAt nMod : Nat} (ops : List (NodeOp N)) (hops : OpsOK nOut nIn nAt nMod ops) :
    ∀ (p : NodeProg N V A), p.out.length = nOut → p.inp.length = nIn → p.modops.length = nMod →
      p.curInp.length = p.inp.length →
      ∃ q, ops.foldlM assignOp p = some q ∧ SameBut p q ∧
        (∀ op ∈ ops, ∀ g, Within op.inR g → LinkedTo q g (lastConn op.inputs g)) ∧
        (∀ g, (∀ op ∈ ops, ¬ Within op.inR g) → q.curInp[g]? = p.curInp[g]?) ∧
        (∀ m, (∀ op ∈ ops, ¬ Within op.modR m) → q.modops[m]? = p.modops[m]?) := by
  induction ops with
  | nil =>
    intro p _ _ _ _
    exact ⟨p, rfl, SameBut.refl p, fun op h => by simp at h, fun _ _ => rfl, fun _ _ => rfl⟩
  | cons op ops ih =>
    intro p ho hi hm hc
    have hcons : OpsOK nOut nIn nAt nMod ops :=
      ⟨fun o h => hops.outB o (by simp [h]), fun o h => hops.inB o (by simp [h]),
       fun o h => hops.atB o (by simp [h]), fun o h => hops.modB o (by simp [h]),
       fun o h => hops.conn o (by simp [h]), fun o h => hops.modInj o (by simp [h]),
       (List.pairwise_cons.1 hops.disj).2, (List.pairwise_cons.1 hops.order).2,
       fun o h => hops.noSelf o (by simp [h])⟩
    obtain ⟨q, hq, hs, hl, hcur, hmod⟩ := assignOp_spec (p := p) (op := op) hc
      (by rw [hi]; exact hops.inB op (by simp)) (by rw [hm]; exact (hops.modB op (by simp)).2)
      (fun io hio => by rw [ho]; exact hops.conn op (by simp) io hio) (hops.modInj op (by simp))
    obtain ⟨r, hr, hs2, hl2, hcur2, hmod2⟩ := ih hcons q (by rw [hs.out]; exact ho)
      (by rw [hs.inp]; exact hi) (by rw [hs.modLen]; exact hm) (by rw [hs.curLen, hs.inp]; exact hc)
    refine ⟨r, by rw [List.foldlM_cons, hq]; exact hr, hs.trans hs2, ?_, ?_, ?_⟩
    · intro o ho' g hg
      rcases List.mem_cons.1 ho' with h | h
      · subst h
        have hd := (List.pairwise_cons.1 hops.disj).1
        apply linkedTo_congr hs2 (hl g hg)
        · exact hcur2 g (fun o' h' hw => (hd o' h' g).2.1 ⟨hg, hw⟩)
        · intro io m h1 h2
          apply hmod2
          intro o' h' hw
          have := (hops.conn o (by simp) io (lastConn_mem h1).1).2.2 m h2
          exact (hd o' h' m).2.2 ⟨this, hw⟩
      · exact hl2 o h g hg
    · intro g hg
      rw [hcur2 g (fun o h => hg o (by simp [h])), hcur g (hg op (by simp))]
    · intro m hm'
      rw [hmod2 m (fun o h => hm' o (by simp [h])), hmod m (hm' op (by simp))]

/-- `assign_outputs` on a well formed program succeeds and links every input. -/
theorem assignOutputs_spec {p : NodeProg N V A} (hp : ProgOK p) :
    ∃ q, p.assignOutputs = some q ∧ SameBut p q ∧ Linked q ∧ q.locked = true := by
  obtain ⟨q, hq, hs, hl, _, _⟩ := assignLoop_spec p.prog hp.ops p rfl rfl rfl hp.curLen
  refine ⟨{ q with locked := true }, ?_, ?_, ?_, rfl⟩
  · unfold NodeProg.assignOutputs; rw [hq]; rfl
  · exact ⟨hs.inp, hs.out, hs.params, hs.atoms, hs.prog, hs.outFb, hs.curLen, hs.modLen, hs.mods⟩
  · intro op hop g hg
    have : op ∈ p.prog := by rw [← hs.prog]; exact hop
    exact hl op this g hg

end HexoDSP.Engine
