import Verif.Lemmas.Status
/-! Programs whose indices are in range, after any history of calls. -/

set_option linter.unusedSectionVars false

namespace HexoDSP.Robust
open Engine EngineSpec Many

variable {N V A M σ : Type} [DecidableEq N]

/-- The indices of an operation are in range. -/
structure OpIn (nOut nIn nAt nMod : Nat) (op : NodeOp N) : Prop where
  out : op.outR.1 ≤ op.outR.2 ∧ op.outR.2 ≤ nOut
  inp : op.inR.1 ≤ op.inR.2 ∧ op.inR.2 ≤ nIn
  ats : op.atR.1 ≤ op.atR.2 ∧ op.atR.2 ≤ nAt
  mods : op.modR.1 ≤ op.modR.2 ∧ op.modR.2 ≤ nMod
  conn : ∀ io ∈ op.inputs, io.1 < nOut ∧ io.2.1 < nIn ∧ ∀ m, io.2.2 = some m → m < nMod

/-- The sizes of a program. -/
structure Same (p q : NodeProg N V A) : Prop where
  prog : q.prog = p.prog
  out : q.out.length = p.out.length
  inp : q.inp.length = p.inp.length
  cur : q.curInp.length = p.curInp.length
  ats : q.atoms.length = p.atoms.length
  mods : q.modops.length = p.modops.length

theorem Same.refl (p : NodeProg N V A) : Same p p := ⟨rfl, rfl, rfl, rfl, rfl, rfl⟩
theorem Same.trans {p q r : NodeProg N V A} (h : Same p q) (h' : Same q r) : Same p r :=
  ⟨h'.prog.trans h.prog, h'.out.trans h.out, h'.inp.trans h.inp, h'.cur.trans h.cur, h'.ats.trans h.ats, h'.mods.trans h.mods⟩

/-- All indices of the program are in range. -/
structure Sound (p : NodeProg N V A) : Prop where
  cur : p.curInp.length = p.inp.length
  ops : ∀ op ∈ p.prog, OpIn p.out.length p.inp.length p.atoms.length p.modops.length op

theorem Same.sound {p q : NodeProg N V A} (h : Same p q) (hp : Sound p) : Sound q :=
  ⟨by rw [h.cur, h.inp, hp.cur], fun op ho => by rw [h.out, h.inp, h.ats, h.mods]; exact hp.ops op (h.prog ▸ ho)⟩

/-- Input `g` is set. -/
def IsSet (p : NodeProg N V A) (g : Nat) : Prop := ∃ b, p.curInp[g]? = some (some b)

/-- The inputs of all operations are set. -/
def Ready (p : NodeProg N V A) : Prop := Sound p ∧ ∀ op ∈ p.prog, ∀ g, op.inR.1 ≤ g → g < op.inR.2 → IsSet p g

theorem ready_empty : Ready (NodeProg.empty : NodeProg N V A) :=
  ⟨⟨rfl, fun op h => by cases h⟩, fun op h => by cases h⟩

theorem isSet_set {l : List (Option BufId)} {i g : Nat} {b : BufId} (h : ∃ c, l[g]? = some (some c)) : ∃ c, (l.set i (some b))[g]? = some (some c) := by
  rw [List.getElem?_set]
  split
  · rename_i e
    subst e
    obtain ⟨c, hc⟩ := h
    rw [if_pos (List.getElem?_eq_some_iff.1 hc).1]
    exact ⟨b, rfl⟩
  · exact h

theorem assignInput_ok {p : NodeProg N V A} {io : Nat × Nat × Option Nat} (h : Sound p)
    (hio : io.1 < p.out.length ∧ io.2.1 < p.inp.length ∧ ∀ m, io.2.2 = some m → m < p.modops.length) :
    ∃ q, assignInput p io = some q ∧ Same p q ∧ ∀ g, IsSet p g → IsSet q g := by
  obtain ⟨h1, h2, h3⟩ := hio
  unfold assignInput
  rw [List.getElem?_eq_getElem h1]
  simp only
  rw [if_pos (by rw [h.cur]; exact h2)]
  cases hm : io.2.2 with
  | none => exact ⟨_, rfl, ⟨rfl, rfl, rfl, by simp, rfl, rfl⟩, fun g hg => isSet_set hg⟩
  | some m =>
    simp only
    rw [List.getElem?_eq_getElem (h3 m hm), List.getElem?_eq_getElem h2]
    exact ⟨_, rfl, ⟨rfl, rfl, rfl, by simp, rfl, by simp⟩, fun g hg => isSet_set hg⟩

theorem assignInputs_ok (l : List (Nat × Nat × Option Nat)) : ∀ {p : NodeProg N V A}, Sound p →
    (∀ io ∈ l, io.1 < p.out.length ∧ io.2.1 < p.inp.length ∧ ∀ m, io.2.2 = some m → m < p.modops.length) →
    ∃ q, l.foldlM assignInput p = some q ∧ Same p q ∧ ∀ g, IsSet p g → IsSet q g := by
  induction l with
  | nil => intro p _ _; exact ⟨p, rfl, Same.refl p, fun _ h => h⟩
  | cons io l ih =>
    intro p h hl
    obtain ⟨q, h1, h2, h3⟩ := assignInput_ok h (hl io (by simp))
    obtain ⟨r, h4, h5, h6⟩ := ih (h2.sound h) (fun x hx => by rw [h2.out, h2.inp, h2.mods]; exact hl x (by simp [hx]))
    exact ⟨r, by rw [List.foldlM_cons, h1]; exact h4, h2.trans h5, fun g hg => h6 g (h3 g hg)⟩

theorem refreshInputs_ok {p : NodeProg N V A} {a b : Nat} (h : Sound p) (hab : a ≤ b) (hb : b ≤ p.inp.length) :
    ∃ q, refreshInputs p a b = some q ∧ Same p q ∧ (∀ g, IsSet p g → IsSet q g) ∧ ∀ g, a ≤ g → g < b → IsSet q g := by
  have hc := h.cur
  unfold refreshInputs
  rw [if_pos ⟨hab, by omega, hb⟩]
  have hlen : (p.curInp.take a).length = a := by simp; omega
  have hmid : (((p.inp.take b).drop a).map some).length = b - a := by simp; omega
  have hin : ∀ g, a ≤ g → g < b →
      ∃ c, (p.curInp.take a ++ (((p.inp.take b).drop a).map some) ++ p.curInp.drop b)[g]? = some (some c) := by
    intro g h1 h2
    rw [List.append_assoc, List.getElem?_append_right (by omega), List.getElem?_append_left (by omega), hlen]
    rw [List.getElem?_map, List.getElem?_drop, List.getElem?_take, if_pos (by omega), List.getElem?_eq_getElem (by omega)]
    exact ⟨_, rfl⟩
  refine ⟨_, rfl, ⟨rfl, rfl, rfl, ?_, rfl, rfl⟩, fun g hg => ?_, fun g h1 h2 => hin g h1 h2⟩
  · simp only [List.length_append, hlen, hmid, List.length_drop]; omega
  · by_cases h1 : a ≤ g
    · by_cases h2 : g < b
      · exact hin g h1 h2
      · unfold IsSet
        rw [List.getElem?_append_right (by simp only [List.length_append, hlen, hmid]; omega), List.getElem?_drop]
        simp only [List.length_append, hlen, hmid]
        rw [show b + (g - (a + (b - a))) = g by omega]
        exact hg
    · unfold IsSet
      rw [List.append_assoc, List.getElem?_append_left (by omega), List.getElem?_take, if_pos (by omega)]
      exact hg

theorem assignOp_ok {p : NodeProg N V A} {op : NodeOp N} (h : Sound p) (ho : OpIn p.out.length p.inp.length p.atoms.length p.modops.length op) :
    ∃ q, assignOp p op = some q ∧ Same p q ∧ (∀ g, IsSet p g → IsSet q g) ∧ ∀ g, op.inR.1 ≤ g → g < op.inR.2 → IsSet q g := by
  obtain ⟨q, h1, h2, h3, h4⟩ := refreshInputs_ok h ho.inp.1 ho.inp.2
  obtain ⟨r, h5, h6, h7⟩ := assignInputs_ok op.inputs (h2.sound h) (fun x hx => by rw [h2.out, h2.inp, h2.mods]; exact ho.conn x hx)
  refine ⟨r, ?_, h2.trans h6, fun g hg => h7 g (h3 g hg), fun g a b => h7 g (h4 g a b)⟩
  unfold assignOp
  rw [h1]
  exact h5

theorem assignOps_ok (l : List (NodeOp N)) : ∀ {p : NodeProg N V A}, Sound p →
    (∀ op ∈ l, OpIn p.out.length p.inp.length p.atoms.length p.modops.length op) →
    ∃ q, l.foldlM assignOp p = some q ∧ Same p q ∧ (∀ g, IsSet p g → IsSet q g) ∧
      ∀ op ∈ l, ∀ g, op.inR.1 ≤ g → g < op.inR.2 → IsSet q g := by
  induction l with
  | nil => intro p _ _; exact ⟨p, rfl, Same.refl p, fun _ h => h, fun op h => by cases h⟩
  | cons op l ih =>
    intro p h hl
    obtain ⟨q, h1, h2, h3, h4⟩ := assignOp_ok h (hl op (by simp))
    obtain ⟨r, h5, h6, h7, h8⟩ := ih (h2.sound h) (fun x hx => by rw [h2.out, h2.inp, h2.ats, h2.mods]; exact hl x (by simp [hx]))
    refine ⟨r, by rw [List.foldlM_cons, h1]; exact h5, h2.trans h6, fun g hg => h7 g (h3 g hg), fun o ho g a b => ?_⟩
    rcases List.mem_cons.1 ho with e | e
    · subst e; exact h7 g (h4 g a b)
    · exact h8 o e g a b

theorem assignOutputs_ok {p : NodeProg N V A} (h : Sound p) : ∃ q, p.assignOutputs = some q ∧ Same p q ∧ Ready q := by
  obtain ⟨q, h1, h2, -, h4⟩ := assignOps_ok p.prog h h.ops
  have hs : Same p { q with locked := true } := ⟨h2.prog, h2.out, h2.inp, h2.cur, h2.ats, h2.mods⟩
  refine ⟨{ q with locked := true }, ?_, hs, hs.sound h, fun op ho g a b => h4 op (h2.prog ▸ ho) g a b⟩
  unfold NodeProg.assignOutputs
  rw [h1]; rfl

theorem swapZip_length {α : Type} : ∀ (a b : List α), (swapZip a b).1.length = a.length ∧ (swapZip a b).2.length = b.length
  | [], b => by simp [swapZip]
  | a :: as, [] => by simp [swapZip]
  | a :: as, b :: bs => by
    have := swapZip_length as bs
    simp [swapZip, this.1, this.2]

theorem swapPrevious_same (p prev : NodeProg N V A) : Same p (p.swapPrevious prev).1 := by
  unfold NodeProg.swapPrevious
  have hu : Same p (if p.locked then p.unlock else p) := by
    split
    · exact ⟨rfl, rfl, rfl, by simp [NodeProg.unlock], rfl, by simp [NodeProg.unlock]⟩
    · exact Same.refl p
  simp only
  generalize (if p.locked then p.unlock else p) = p' at *
  refine hu.trans ⟨rfl, rfl, ?_, rfl, rfl, rfl⟩
  exact (swapZip_length _ _).2

theorem Same.ready {p q : NodeProg N V A} (h : Same p q) (hc : q.curInp = p.curInp) (hp : Ready p) : Ready q :=
  ⟨h.sound hp.1, fun op ho g a b => by unfold IsSet; rw [hc]; exact hp.2 op (h.prog ▸ ho) g a b⟩

/-! ### Taking messages -/

section
variable [Sub V] [Div V] [NatCast V]

/-- What one message needs to be taken without a panic. -/
def MsgOK (nAt : Nat) : Msg N V A M → Prop
  | .clear p => Ready p
  | .newProg p _ => Sound p
  | .atomUpdate i _ => i < nAt
  | _ => True

/-- The number of atoms after a message. -/
def atAfter (nAt : Nat) : Msg N V A M → Nat
  | .clear p => p.atoms.length
  | .newProg p _ => p.atoms.length
  | _ => nAt

theorem apply_ok {e : Exec N V A M} {s : Shared N V A} {m : Msg N V A M} (h : Ready e.prog) (hm : MsgOK e.prog.atoms.length m) :
    ∃ e1 s1, e.apply s m = some (e1, s1) ∧ Ready e1.prog ∧ e1.prog.atoms.length = atAfter e.prog.atoms.length m := by
  cases m with
  | clear p => exact ⟨_, _, rfl, hm, rfl⟩
  | newProg p b =>
    simp only [Exec.apply]
    cases b with
    | false =>
      obtain ⟨q, h1, h2, h3⟩ := assignOutputs_ok (p := p) hm
      simp only [Bool.false_eq_true, if_false, h1]
      exact ⟨_, _, rfl, h3, h2.ats⟩
    | true =>
      have hs := swapPrevious_same p e.prog
      obtain ⟨q, h1, h2, h3⟩ := assignOutputs_ok (hs.sound hm)
      simp only [if_true, h1]
      exact ⟨_, _, rfl, h3, h2.ats.trans hs.ats⟩
  | atomUpdate i a =>
    have hm' : i < e.prog.atoms.length := hm
    simp only [Exec.apply]
    rw [if_pos hm']
    refine ⟨_, _, rfl, Same.ready (p := e.prog) ⟨rfl, rfl, rfl, rfl, by simp, rfl⟩ rfl h, by simp [atAfter]⟩
  | paramUpdate i v =>
    refine ⟨_, _, rfl, ?_, ?_⟩
    · rw [prog_setParam]; exact h
    · rw [prog_setParam]; rfl
  | modamtUpdate i v =>
    exact ⟨_, _, rfl, Same.ready (p := e.prog) ⟨rfl, rfl, rfl, rfl, rfl, by simp [Exec.setModamt]⟩ rfl h, rfl⟩
  | setMonitor b => exact ⟨_, _, rfl, h, rfl⟩
  | injectMidi ev =>
    refine ⟨_, _, rfl, ?_, ?_⟩
    · split <;> exact h
    · split <;> rfl

/-- The messages can be taken one after the other, and leave `m` atoms. -/
inductive QueueOK : Nat → List (Msg N V A M) → Nat → Prop
  | nil (n : Nat) : QueueOK n [] n
  | cons {n k : Nat} {m : Msg N V A M} {ms : List (Msg N V A M)} : MsgOK n m → QueueOK (atAfter n m) ms k → QueueOK n (m :: ms) k

theorem QueueOK.snoc {n k : Nat} {ms : List (Msg N V A M)} (h : QueueOK n ms k) {m : Msg N V A M} (hm : MsgOK k m) :
    QueueOK n (ms ++ [m]) (atAfter k m) := by
  induction h with
  | nil n => exact .cons hm (.nil _)
  | cons h1 _ ih => exact .cons h1 (ih hm)

theorem applyAll_ok {ms : List (Msg N V A M)} {n k : Nat} (h : QueueOK n ms k) : ∀ {e : Exec N V A M} {s : Shared N V A}, e.prog.atoms.length = n →
    Ready e.prog → ∃ e1 s1, e.applyAll s ms = some (e1, s1) ∧ Ready e1.prog ∧ e1.prog.atoms.length = k := by
  induction h with
  | nil n => intro e s hn hr; exact ⟨e, s, rfl, hr, hn⟩
  | cons hm _ ih =>
    intro e s hn hr
    subst hn
    obtain ⟨e1, s1, h1, h2, h3⟩ := apply_ok (s := s) hr hm
    obtain ⟨e2, s2, h4, h5, h6⟩ := ih h3 h2 (s := s1)
    exact ⟨e2, s2, by unfold Exec.applyAll; rw [h1]; exact h4, h5, h6⟩
end

/-! ### Building programs -/

section
variable [OfNat V 0]

/-- The operation is in range for the nodes of the configurator. -/
def InConf (T : NodeTable N V A) (c : Conf N V A) (op : NodeOp N) : Prop :=
  OpIn (tot T.outCount c.ids) (tot T.inCount c.ids) (tot T.atCount c.ids) (tot (modTot T c.paramModamt) c.ids) op

theorem inConf_asOp {T : NodeTable N V A} {c : Conf N V A} {n : N} (hn : n ∈ c.ids) (u : Bool) :
    InConf T c ({ instOf T c.paramModamt c.ids n with inUse := u } : NodeInstance N).asOp := by
  have h1 := base_lt T.outCount hn
  have h2 := base_lt T.inCount hn
  have h3 := base_lt T.atCount hn
  have h4 := base_lt (modTot T c.paramModamt) hn
  unfold base at h1 h2 h3 h4
  exact ⟨⟨by simp [NodeInstance.asOp, instOf, instAt], h1⟩, ⟨by simp [NodeInstance.asOp, instOf, instAt], h2⟩,
    ⟨by simp [NodeInstance.asOp, instOf, instAt], h3⟩, ⟨by simp [NodeInstance.asOp, instOf, instAt], h4⟩, fun io h => by cases h⟩

/-- Only the operations differ, and all are in range. -/
def Built (T : NodeTable N V A) (c : Conf N V A) (p0 p : NodeProg N V A) : Prop :=
  p = { p0 with prog := p.prog } ∧ ∀ op ∈ p.prog, InConf T c op

theorem built_addNode {T : NodeTable N V A} {c0 c : Conf N V A} {p0 p : NodeProg N V A} (hc : Rebuilt T c0 c) (h : Built T c0 p0 p) (n : N) :
    Rebuilt T c0 (c.addProgNode p n).1 ∧ Built T c0 p0 (c.addProgNode p n).2 := by
  by_cases hn : n ∈ c0.ids
  · obtain ⟨u, hu⟩ := instanceOf_eq hc hn
    have hstep : c.addProgNode p n = (c.markUsed n, p.appendOp ({ instOf T c0.paramModamt c0.ids n with inUse := u } : NodeInstance N).asOp) := by
      unfold Conf.addProgNode; rw [hu]
    rw [hstep]
    refine ⟨rebuilt_markUsed hc n, ?_⟩
    simp only
    unfold NodeProg.appendOp
    split
    · exact h
    · refine ⟨?_, fun op ho => ?_⟩
      · have := h.1
        simp only
        rw [this]
      · rcases List.mem_append.1 ho with h1 | h1
        · exact h.2 op h1
        · rw [List.mem_singleton.1 h1]
          have := inConf_asOp (T := T) hn u
          exact ⟨this.out, this.inp, this.ats, this.mods, this.conn⟩
  · have hstep : c.addProgNode p n = (c, p) := by
      unfold Conf.addProgNode
      cases hi : c.instanceOf n with
      | none => rfl
      | some ni => exact absurd (hc.ids ▸ instanceOf_isSome_mem hc.wf hi) hn
    rw [hstep]
    exact ⟨hc, h⟩

theorem built_addNodes {T : NodeTable N V A} {c0 : Conf N V A} {p0 : NodeProg N V A} (order : List N) : ∀ {c : Conf N V A} {p : NodeProg N V A},
    Rebuilt T c0 c → Built T c0 p0 p →
    Rebuilt T c0 (order.foldl (fun (s : Conf N V A × NodeProg N V A) n => s.1.addProgNode s.2 n) (c, p)).1 ∧
      Built T c0 p0 (order.foldl (fun (s : Conf N V A × NodeProg N V A) n => s.1.addProgNode s.2 n) (c, p)).2 := by
  induction order with
  | nil => intro c p h1 h2; exact ⟨h1, h2⟩
  | cons n order ih =>
    intro c p h1 h2
    rw [List.foldl_cons]
    obtain ⟨h3, h4⟩ := built_addNode h1 h2 n
    exact ih h3 h4

theorem setInFlag_inConf {T : NodeTable N V A} {c : Conf N V A} {op : NodeOp N} (h : InConf T c op) (g : Nat) : InConf T c (op.setInFlag g) := by
  unfold NodeOp.setInFlag
  split
  · exact ⟨h.out, h.inp, h.ats, h.mods, h.conn⟩
  · exact h

theorem setOutFlag_inConf {T : NodeTable N V A} {c : Conf N V A} {op : NodeOp N} (h : InConf T c op) (g : Nat) : InConf T c (op.setOutFlag g) := by
  unfold NodeOp.setOutFlag
  split
  · exact ⟨h.out, h.inp, h.ats, h.mods, h.conn⟩
  · exact h

theorem addInput_inConf {T : NodeTable N V A} {c : Conf N V A} {idx g o : Nat} {md : Option Nat} (hg : g < tot T.inCount c.ids)
    (ho : o < tot T.outCount c.ids) (hm : ∀ m, md = some m → m < tot (modTot T c.paramModamt) c.ids) (ops : List (NodeOp N))
    (h : ∀ op ∈ ops, InConf T c op) : ∀ op ∈ addInput idx g o md ops, InConf T c op := by
  induction ops with
  | nil => intro op hop; cases hop
  | cons x ops ih =>
    intro op hop
    unfold addInput at hop
    split at hop
    · rcases List.mem_cons.1 hop with e | e
      · rw [e]
        have hx := setInFlag_inConf (h x (by simp)) g
        refine ⟨hx.out, hx.inp, hx.ats, hx.mods, fun io hio => ?_⟩
        rcases List.mem_append.1 hio with h1 | h1
        · exact (h x (by simp)).conn io h1
        · rw [List.mem_singleton.1 h1]; exact ⟨ho, hg, hm⟩
      · exact h op (by simp [e])
    · rcases List.mem_cons.1 hop with e | e
      · rw [e]; exact h x (by simp)
      · exact ih (fun y hy => h y (by simp [hy])) op e

theorem built_connect {T : NodeTable N V A} {c0 c c' : Conf N V A} {p0 p p' : NodeProg N V A} {e : Conn N} (hc : Rebuilt T c0 c) (h : Built T c0 p0 p)
    (hx : c.connect p e = some (c', p')) : Built T c0 p0 p' := by
  unfold Conf.connect at hx
  cases hs : c.instanceOf e.src with
  | none => rw [hs] at hx; cases hx; exact h
  | some si =>
    rw [hs] at hx
    cases hd : c.instanceOf e.dst with
    | none => rw [hd] at hx; cases hx; exact h
    | some di =>
      rw [hd] at hx
      simp only at hx
      have hsm : e.src ∈ c0.ids := hc.ids ▸ instanceOf_isSome_mem hc.wf hs
      have hdm : e.dst ∈ c0.ids := hc.ids ▸ instanceOf_isSome_mem hc.wf hd
      obtain ⟨u, hu⟩ := instanceOf_eq hc hsm
      obtain ⟨u', hu'⟩ := instanceOf_eq hc hdm
      rw [hs] at hu
      rw [hd] at hu'
      simp only [Option.some.injEq] at hu hu'
      cases hm : di.modLocal2Global e.dstIn with
      | none => rw [hm] at hx; cases hx
      | some md =>
        rw [hm] at hx
        simp only [Option.map_some, Option.some.injEq, Prod.mk.injEq] at hx
        rw [← hx.2]
        split
        · rename_i g o hg ho
          have hdi := inConf_asOp (T := T) hdm u'
          have hsi := inConf_asOp (T := T) hsm u
          rw [← hu'] at hdi
          rw [← hu] at hsi
          have hg' : g < tot T.inCount c0.ids := by
            unfold NodeInstance.inLocal2Global at hg
            split at hg
            · rename_i hlt
              cases hg
              exact Nat.lt_of_lt_of_le hlt hdi.inp.2
            · cases hg
          have ho' : o < tot T.outCount c0.ids := by
            unfold NodeInstance.outLocal2Global at ho
            split at ho
            · rename_i hlt
              cases ho
              exact Nat.lt_of_lt_of_le hlt hsi.out.2
            · cases ho
          have hm' : ∀ m, md = some m → m < tot (modTot T c0.paramModamt) c0.ids := by
            intro m hmd
            subst hmd
            unfold NodeInstance.modLocal2Global at hm
            split at hm
            · cases hm
            · rw [hu'] at hm
              simp only [instOf, instAt, in2modOf, List.getElem?_map] at hm
              cases hr : (List.range 32)[e.dstIn]? with
              | none => rw [hr] at hm; cases hm
              | some j =>
                rw [hr] at hm
                simp only [Option.map_some, Option.some.injEq] at hm
                split at hm
                · rename_i hj
                  have h1 := modCnt_lt c0.paramModamt e.dst hj.1 hj.2
                  have h2 := base_lt (modTot T c0.paramModamt) hdm
                  unfold base at h2
                  simp only [Option.some.injEq] at hm
                  have h3 : modTot T c0.paramModamt e.dst = modCnt c0.paramModamt e.dst (T.inCount e.dst) := rfl
                  omega
                · cases hm
          refine ⟨?_, addInput_inConf hg' ho' hm' _ (fun op hop => ?_)⟩
          · have := h.1
            simp only [NodeProg.appendEdge]
            rw [this]
          · obtain ⟨x, hx1, rfl⟩ := List.mem_map.1 hop
            exact setOutFlag_inConf (h.2 x hx1) o
        · exact h

theorem built_connects {T : NodeTable N V A} {c0 : Conf N V A} {p0 : NodeProg N V A} (es : List (Conn N)) : ∀ {s r : Conf N V A × NodeProg N V A},
    Rebuilt T c0 s.1 → Built T c0 p0 s.2 → es.foldlM (fun (s : Conf N V A × NodeProg N V A) e => s.1.connect s.2 e) s = some r →
    Built T c0 p0 r.2 := by
  induction es with
  | nil => intro s r _ h hf; simp at hf; subst hf; exact h
  | cons e es ih =>
    intro s r hc h hf
    rw [List.foldlM_cons] at hf
    cases hx : s.1.connect s.2 e with
    | none => simp [hx] at hf
    | some t =>
      simp only [hx, Option.bind_eq_bind, Option.bind_some] at hf
      exact ih (rebuilt_connect (c' := t.1) (p' := t.2) hc hx) (built_connect (c' := t.1) hc h hx) hf

/-- Whatever order and connections are asked for, the program is sound, and the indices of the atoms are in range. -/
theorem buildProg_sound {T : NodeTable N V A} {a0 : A} {c c' : Conf N V A} {h h' : Heap V} {order : List N} {es : List (Conn N)} {p : NodeProg N V A}
    (hw : ConfWF c) (hb : c.buildProg T a0 h order es = some (c', p, h')) :
    Sound (c'.fillProg p) ∧ (c'.fillProg p).atoms.length = tot T.atCount c.ids ∧ ∀ k na, c'.atoms.lookup k = some na → na.atIdx < tot T.atCount c.ids := by
  obtain ⟨h1, -⟩ := buildProg_split hb
  have hr := rebuilt_rebuildPorts T a0 c h hw
  have hs := rebuildLoop_spec T c hw.nodup
  have h0 : Built T c (freshProg T a0 c h) (c.rebuildPorts T a0 h).2.1 := ⟨rfl, fun op ho => by cases ho⟩
  obtain ⟨h2, h3⟩ := built_addNodes order hr h0
  have hbt : Built T c (freshProg T a0 c h) p := built_connects es (r := (c', p)) h2 h3 h1
  have hst : SameTables (c.rebuildPorts T a0 h).1 c' :=
    (sameTables_addProgNodes order _ _).trans (sameTables_connects es _ _ h1)
  have hat : c'.atoms = (c.rebuildLoop T).atoms := hst.atoms
  have e1 : p.out.length = tot T.outCount c.ids := by
    rw [hbt.1]; simp [freshProg, Conf.rebuildPorts, NodeProg.new, Heap.alloc, hs.out]
  have e2 : p.inp.length = tot T.inCount c.ids := by
    rw [hbt.1]; simp [freshProg, Conf.rebuildPorts, NodeProg.new, Heap.alloc, hs.inp]
  have e3 : p.curInp.length = tot T.inCount c.ids := by
    rw [hbt.1]; simp [freshProg, Conf.rebuildPorts, NodeProg.new, Heap.alloc, hs.inp]
  have e4 : p.atoms.length = tot T.atCount c.ids := by
    rw [hbt.1]; simp [freshProg, Conf.rebuildPorts, NodeProg.new, Heap.alloc, hs.at_]
  have e5 : p.modops.length = tot (modTot T c.paramModamt) c.ids := by
    rw [hbt.1]; simp [freshProg, Conf.rebuildPorts, NodeProg.new, Heap.alloc, hs.mod]
  have hsame : Same p (c'.fillProg p) := by
    rw [fillProg_eq]
    exact ⟨rfl, rfl, rfl, rfl, foldl_set_length _ _ _ _, storeMod_length _ _⟩
  have hp : Sound p := ⟨by rw [e2, e3], fun op ho => by rw [e1, e2, e4, e5]; exact hbt.2 op ho⟩
  refine ⟨hsame.sound hp, by rw [hsame.ats, e4], fun k na hk => ?_⟩
  rw [hat] at hk
  obtain ⟨n, i⟩ := k
  obtain ⟨h5, h6⟩ := hs.atNone n i (by rw [hk]; simp)
  have := hs.ats _ n (idxOf_get h5) i h6
  rw [hk] at this
  simp only [Option.some.injEq] at this
  rw [this]
  have hlt := base_lt T.atCount h5
  unfold base at hlt
  simp only
  omega
end

end HexoDSP.Robust
