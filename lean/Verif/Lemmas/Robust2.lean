import Verif.Lemmas.Robust
import Verif.Lemmas.ExecRun
import Verif.Spec.Robust
/-! The audio thread after any history of calls. -/

set_option linter.unusedSectionVars false

namespace HexoDSP.Robust
open Engine EngineSpec Many RobustSpec

variable {N V A M σ : Type} [DecidableEq N]

/-! ### Blocks -/

section
variable [Add V] [Mul V] [OfNat V 0]

theorem refreshTargets_none (inp : List BufId) (l : List (Nat × V)) : ∀ (h : Heap V), refreshTargets inp h l = none ↔ ∃ x ∈ l, inp.length ≤ x.1 := by
  induction l with
  | nil => intro h; simp [refreshTargets]
  | cons x l ih =>
    intro h
    obtain ⟨i, v⟩ := x
    unfold refreshTargets
    cases hi : inp[i]? with
    | none => simp only [true_iff]; exact ⟨(i, v), by simp, List.getElem?_eq_none_iff.1 hi⟩
    | some b =>
      simp only [ih]
      have hlt := (List.getElem?_eq_some_iff.1 hi).1
      constructor
      · rintro ⟨x, hx, hle⟩; exact ⟨x, by simp [hx], hle⟩
      · rintro ⟨x, hx, hle⟩
        rcases List.mem_cons.1 hx with e | e
        · subst e; simp only at hle; omega
        · exact ⟨x, e, hle⟩

theorem runSmoothers_none (inp : List BufId) (nf : Nat) (l : List (Nat × Smoother V)) : ∀ (a : SmoothAcc V),
    runSmoothers inp nf a l = none ↔ ∃ x ∈ l, x.2.done = false ∧ inp.length ≤ x.1 := by
  induction l with
  | nil => intro a; simp [runSmoothers]
  | cons x l ih =>
    intro a
    obtain ⟨i, s⟩ := x
    unfold runSmoothers
    cases hd : s.done with
    | true =>
      simp only [if_true, Option.map_eq_none_iff, ih]
      constructor
      · rintro ⟨x, hx, hle⟩; exact ⟨x, by simp [hx], hle⟩
      · rintro ⟨x, hx, hle⟩
        rcases List.mem_cons.1 hx with e | e
        · subst e; rw [hd] at hle; cases hle.1
        · exact ⟨x, e, hle⟩
    | false =>
      simp only [Bool.false_eq_true, if_false]
      cases hi : inp[i]? with
      | none => simp only [true_iff]; exact ⟨(i, s), by simp, hd, List.getElem?_eq_none_iff.1 hi⟩
      | some b =>
        simp only [Option.map_eq_none_iff, ih]
        have hlt := (List.getElem?_eq_some_iff.1 hi).1
        constructor
        · rintro ⟨x, hx, hle⟩; exact ⟨x, by simp [hx], hle⟩
        · rintro ⟨x, hx, hle⟩
          rcases List.mem_cons.1 hx with e | e
          · subst e; simp only at hle; omega
          · exact ⟨x, e, hle⟩

theorem feedMonitors_none (p : NodeProg N V A) (h : Heap V) (l : List Nat) : ∀ (i : Nat),
    feedMonitors p h i l = none ↔ ∃ k idx, l[k]? = some idx ∧ idx ≠ 99999 ∧ monitored p (i + k) idx = none := by
  induction l with
  | nil => intro i; simp [feedMonitors]
  | cons x l ih =>
    intro i
    have hmon : (if i > 2 then p.out[x]? else (p.curInp[x]?).join) = monitored p i x := by
      unfold monitored
      by_cases h3 : i < 3
      · rw [if_pos h3, if_neg (by omega)]
      · rw [if_neg h3, if_pos (by omega)]
    have hsplit : (∃ k idx, (x :: l)[k]? = some idx ∧ idx ≠ 99999 ∧ monitored p (i + k) idx = none) ↔
        (x ≠ 99999 ∧ monitored p i x = none) ∨ ∃ k idx, l[k]? = some idx ∧ idx ≠ 99999 ∧ monitored p (i + 1 + k) idx = none := by
      constructor
      · rintro ⟨k, idx, h1, h2, h3⟩
        cases k with
        | zero => simp only [List.getElem?_cons_zero, Option.some.injEq] at h1; subst h1; exact .inl ⟨h2, h3⟩
        | succ k =>
          rw [List.getElem?_cons_succ] at h1
          exact .inr ⟨k, idx, h1, h2, by rw [show i + 1 + k = i + (k + 1) by omega]; exact h3⟩
      · rintro (⟨h1, h2⟩ | ⟨k, idx, h1, h2, h3⟩)
        · exact ⟨0, x, rfl, h1, h2⟩
        · exact ⟨k + 1, idx, h1, h2, by rw [show i + (k + 1) = i + 1 + k by omega]; exact h3⟩
    rw [hsplit]
    unfold feedMonitors
    rw [hmon]
    by_cases hx : x = 99999
    · rw [if_pos hx, ih]
      simp [hx]
    · rw [if_neg hx]
      cases hm : monitored p i x with
      | none => simp [hx]
      | some b => simp only [Option.map_eq_none_iff, ih]; simp

theorem runOp_ok {run : σ → CallIn N V A → σ × (Nat → Block V)} {nf : Nat} {p : NodeProg N V A} {op : NodeOp N} (h : Ready p) (ho : op ∈ p.prog)
    (a : RunAcc N V A σ) : ∃ b, runOp run nf p a op = some b := by
  have hi := h.1.ops op ho
  obtain ⟨s1, e1, -, -⟩ := slice_spec (l := p.modops) hi.mods
  obtain ⟨s2, e2, -, -⟩ := slice_spec (l := p.inp) hi.inp
  obtain ⟨s3, e3, -, -⟩ := slice_spec (l := p.atoms) hi.ats
  obtain ⟨s5, e5, -, -⟩ := slice_spec (l := p.out) hi.out
  obtain ⟨s4, e4, l4, g4⟩ := slice_spec (l := p.curInp) (r := op.inR) ⟨hi.inp.1, by rw [h.1.cur]; exact hi.inp.2⟩
  have hset : ∀ k, k < s4.length → s4[k]? = some (some ((p.curInp[op.inR.1 + k]?).join.getD 0)) := by
    intro k hk
    rw [l4] at hk
    obtain ⟨b, hb⟩ := h.2 op ho (op.inR.1 + k) (by omega) (by omega)
    rw [g4, if_pos (by omega), hb]
    rfl
  obtain ⟨s6, e6, -, -⟩ := mapM_id_spec s4 _ hset
  unfold runOp
  rw [e1, e2, e3, e4, e5]
  simp only [Option.bind_some, e6]
  exact ⟨_, rfl⟩

theorem runOps_ok {run : σ → CallIn N V A → σ × (Nat → Block V)} {nf : Nat} {p : NodeProg N V A} (h : Ready p) (l : List (NodeOp N)) :
    ∀ (_ : ∀ op ∈ l, op ∈ p.prog) (a : RunAcc N V A σ), ∃ b, l.foldlM (runOp run nf p) a = some b := by
  induction l with
  | nil => intro _ a; exact ⟨a, rfl⟩
  | cons op l ih =>
    intro hl a
    obtain ⟨b, hb⟩ := runOp_ok (run := run) (nf := nf) h (hl op (by simp)) a
    rw [List.foldlM_cons, hb]
    exact ih (fun o ho => hl o (by simp [ho])) b

/-- Why a block can panic. -/
def Doomed (e : Exec N V A M) (nf : Nat) : Prop :=
  nf = 0 ∨ 128 < nf ∨ (∃ x ∈ e.targetRefresh, e.prog.inp.length ≤ x.1) ∨
    (∃ x ∈ e.smoothers, x.2.done = false ∧ e.prog.inp.length ≤ x.1) ∨
    ∃ k idx, e.monitorIdx[k]? = some idx ∧ idx ≠ 99999 ∧ monitored e.prog k idx = none

theorem process_none {run : σ → CallIn N V A → σ × (Nat → Block V)} {e : Exec N V A M} {h : Heap V} {st : σ} {nf : Nat} (hr : Ready e.prog) :
    e.process run h st nf = none ↔ Doomed e nf := by
  unfold Exec.process Doomed
  by_cases hnf : nf = 0 ∨ 128 < nf
  · rw [if_pos hnf]; simp only [true_iff]
    rcases hnf with h1 | h1
    · exact .inl h1
    · exact .inr (.inl h1)
  · rw [if_neg hnf]
    unfold Exec.processSmoothers
    cases h1 : refreshTargets e.prog.inp h e.targetRefresh.reverse with
    | none =>
      obtain ⟨x, hx, hle⟩ := (refreshTargets_none _ _ _).1 h1
      simp only [true_iff]
      exact .inr (.inr (.inl ⟨x, List.mem_reverse.1 hx, hle⟩))
    | some h' =>
      have n1 : ¬ ∃ x ∈ e.targetRefresh, e.prog.inp.length ≤ x.1 := by
        rintro ⟨x, hx, hle⟩
        have := (refreshTargets_none e.prog.inp e.targetRefresh.reverse h).2 ⟨x, List.mem_reverse.2 hx, hle⟩
        rw [h1] at this; cases this
      simp only
      cases h2 : runSmoothers e.prog.inp nf { heap := h', params := e.prog.params, refresh := [] } e.smoothers with
      | none =>
        simp only [true_iff]
        exact .inr (.inr (.inr (.inl ((runSmoothers_none _ _ _ _).1 h2))))
      | some r =>
        obtain ⟨ss, a⟩ := r
        have n2 : ¬ ∃ x ∈ e.smoothers, x.2.done = false ∧ e.prog.inp.length ≤ x.1 := by
          intro hh
          have := (runSmoothers_none e.prog.inp nf e.smoothers { heap := h', params := e.prog.params, refresh := [] }).2 hh
          rw [h2] at this; cases this
        simp only
        have hr' : Ready { e.prog with params := a.params } := Same.ready (p := e.prog) ⟨rfl, rfl, rfl, rfl, rfl, rfl⟩ rfl hr
        obtain ⟨b, hb⟩ := runOps_ok (run := run) (nf := nf) hr' e.prog.prog (fun _ h => h) { heap := a.heap, st := st, calls := [], outFb := e.prog.outFb }
        rw [hb]
        simp only
        have hfm := feedMonitors_none { e.prog with params := a.params } b.heap e.monitorIdx 0
        simp only [Nat.zero_add] at hfm
        have hmo : ∀ k idx, monitored { e.prog with params := a.params } k idx = monitored e.prog k idx := fun _ _ => rfl
        simp only [hmo] at hfm
        cases h3 : feedMonitors { e.prog with params := a.params } b.heap 0 e.monitorIdx with
        | none =>
          simp only [true_iff]
          exact .inr (.inr (.inr (.inr (hfm.1 h3))))
        | some mon =>
          simp only [reduceCtorEq, false_iff]
          rintro (h4 | h4 | h4 | h4 | h4)
          · exact hnf (.inl h4)
          · exact hnf (.inr h4)
          · exact n1 h4
          · exact n2 h4
          · rw [hfm.2 h4] at h3; cases h3

theorem process_same {run : σ → CallIn N V A → σ × (Nat → Block V)} {e e' : Exec N V A M} {h h' : Heap V} {st st' : σ} {nf : Nat} {out : BlockResult N V A}
    (hp : e.process run h st nf = some (e', h', st', out)) :
    Same e.prog e'.prog ∧ e'.prog.curInp = e.prog.curInp ∧ e'.monitorIdx = e.monitorIdx ∧
      ((∀ x ∈ e.smoothers, x.2.done = true) → e'.smoothers = e.smoothers ∧ e'.targetRefresh = []) := by
  unfold Exec.process at hp
  split at hp
  · cases hp
  · unfold Exec.processSmoothers at hp
    cases h1 : refreshTargets e.prog.inp h e.targetRefresh.reverse with
    | none => rw [h1] at hp; cases hp
    | some h1' =>
      rw [h1] at hp
      simp only at hp
      cases h2 : runSmoothers e.prog.inp nf { heap := h1', params := e.prog.params, refresh := [] } e.smoothers with
      | none => rw [h2] at hp; cases hp
      | some r =>
        rw [h2] at hp
        obtain ⟨ss, a⟩ := r
        simp only at hp
        split at hp
        · cases hp
        · split at hp
          · cases hp
          · simp only [Option.some.injEq, Prod.mk.injEq] at hp
            rw [← hp.1]
            refine ⟨⟨rfl, rfl, rfl, rfl, rfl, rfl⟩, rfl, rfl, fun hd => ?_⟩
            have idle : ∀ (l : List (Nat × Smoother V)) (a : SmoothAcc V), (∀ x ∈ l, x.2.done = true) → runSmoothers e.prog.inp nf a l = some (l, a) := by
              intro l
              induction l with
              | nil => intro a _; rfl
              | cons x l ih =>
                intro a hx
                obtain ⟨i, s⟩ := x
                unfold runSmoothers
                rw [if_pos (hx (i, s) (by simp)), ih a (fun y hy => hx y (by simp [hy]))]
                rfl
            rw [idle _ _ hd] at h2
            simp only [Option.some.injEq, Prod.mk.injEq] at h2
            exact ⟨h2.1.symm, by rw [← h2.2]⟩
end

/-! ### Histories -/

section
variable [Add V] [Mul V] [Sub V] [Div V] [NatCast V] [OfNat V 0]

/-- What holds of a message whatever the state of the audio thread. -/
def ProgOK : Msg N V A M → Prop
  | .clear p => Ready p
  | .newProg p _ => Sound p
  | _ => True

structure Whole (w : World N V A M σ) : Prop where
  wf : ConfWF w.conf
  ready : Ready w.exec.prog
  queue : ∀ m ∈ w.queue, ProgOK m

theorem mem_send {w : World N V A M σ} {m x : Msg N V A M} (h : x ∈ (w.send m).queue) : x ∈ w.queue ∨ x = m := by
  unfold World.send at h
  split at h
  · rcases List.mem_append.1 h with h1 | h1
    · exact .inl h1
    · exact .inr (List.mem_singleton.1 h1)
  · exact .inl h

theorem exec_send (w : World N V A M σ) (m : Msg N V A M) : (w.send m).exec = w.exec := by
  unfold World.send; split <;> rfl

/-- The indices of the atoms are below `m`. -/
def Bound (c : Conf N V A) (m : Nat) : Prop := ∀ k na, c.atoms.lookup k = some na → na.atIdx < m

/-- The message moves no parameter and monitors nothing. -/
def Calm : Msg N V A M → Prop
  | .paramUpdate _ _ => False
  | .setMonitor _ => False
  | _ => True

/-- A call of the user's thread that leaves `c` and sends `ms`. -/
inductive Sent (w : World N V A M σ) (op : EOp N V A M) (c : Conf N V A) : List (Msg N V A M) → Prop
  | none : (∀ k, Bound w.conf k → Bound c k) → Sent w op c []
  | one {m : Msg N V A M} : ProgOK m → (∀ k, Bound w.conf k → MsgOK k m ∧ Bound c (atAfter k m)) → (Still w op → Calm m) →
      ((∀ k, Bound w.conf k → Bound c k) ∨ ∃ a b d, op = .sync a b d) → Sent w op c [m]

theorem bound_setAtom {c : Conf N V A} {k : N × Nat} {na : NodeInputAtom A} (h : c.atoms.lookup k = some na) (v : A) (m : Nat) (hb : Bound c m) :
    ∀ k' na', (Map.insert c.atoms k { na with value := v }).lookup k' = some na' → na'.atIdx < m := by
  intro k' na' hl
  rw [lookup_insert] at hl
  split at hl
  · cases hl; exact hb k na h
  · exact hb k' na' hl

theorem sent_setInput (w : World N V A M σ) (n : N) (i : Nat) (v : V) :
    Sent w (.setInput n i v) (w.conf.setInput (M := M) n i v).1 (w.conf.setInput n i v).2 := by
  unfold Conf.setInput
  simp only
  cases hl : w.conf.params.lookup (n, i) with
  | none => exact .none (fun _ h => h)
  | some np => exact .one trivial (fun _ h => ⟨trivial, h⟩) (fun h => h) (.inl fun _ h => h)

theorem sent_setAtom (w : World N V A M σ) (n : N) (i : Nat) (v : A) :
    Sent w (.setAtom n i v) (w.conf.setAtom (M := M) n i v).1 (w.conf.setAtom n i v).2 := by
  unfold Conf.setAtom
  simp only
  cases hl : w.conf.atoms.lookup (n, i) with
  | none => exact .none (fun _ h => h)
  | some na =>
    exact .one trivial (fun k h => ⟨h _ _ hl, bound_setAtom hl v k h⟩) (fun _ => trivial) (.inl fun k h => bound_setAtom hl v k h)

theorem sent_setModamt (w : World N V A M σ) (p : ParamId N) (v : Option V) :
    Sent w (.setModamt p v) (w.conf.setModamt (M := M) p v).1 (w.conf.setModamt p v).2.1 := by
  unfold Conf.setModamt
  cases p with
  | atom n i => exact .none (fun _ h => h)
  | input n i =>
    simp only
    split
    · exact .none (fun _ h => h)
    · simp only
      cases hm : ((w.conf.params.lookup (n, i)).bind (fun np => np.modamt)).map (fun m => m.1) with
      | some mi => exact .one trivial (fun _ h => ⟨trivial, h⟩) (fun _ => trivial) (.inl fun _ h => h)
      | none => exact .none (fun _ h => h)
    · exact .none (fun _ h => h)

theorem sent_monitor (w : World N V A M σ) (n : N) (i o : List (Option Nat)) : Sent w (.monitor n i o) w.conf (w.conf.monitor n i o) := by
  unfold Conf.monitor
  cases hl : w.conf.instanceOf n with
  | none => exact .none (fun _ h => h)
  | some ni => exact .one trivial (fun _ h => ⟨trivial, h⟩) (fun h => h) (.inl fun _ h => h)

theorem step_sent {T : NodeTable N V A} {a0 : A} {run : σ → CallIn N V A → σ × (Nat → Block V)} {w w1 : World N V A M σ} {op : EOp N V A M}
    {out : Option (BlockResult N V A)} (hw : ConfWF w.conf) (h : w.step T a0 run op = some (w1, out)) :
    (op = .poll ∨ ∃ nf, op = .process nf) ∨ (∃ n, op = .setSlope n) ∨
      ∃ c ms s, Sent w op c ms ∧ w1 = ({ w with conf := c, shared := s } : World N V A M σ).sendAll ms := by
  cases op with
  | createNode n => cases h; exact .inr (.inr ⟨w.conf.createNode n, [], w.shared, .none (fun _ h => h), rfl⟩)
  | deleteNodes =>
    simp only [World.step, Conf.deleteNodes, Option.some.injEq, Prod.mk.injEq] at h
    exact .inr (.inr ⟨_, _, w.shared, .one (m := .clear NodeProg.empty) ready_empty (fun _ _ => ⟨ready_empty, fun k na h => by cases h⟩) (fun _ => trivial)
      (.inl fun _ _ k na h => by cases h), h.1.symm⟩)
  | setInput n i v =>
    simp only [World.step, Option.some.injEq, Prod.mk.injEq] at h
    exact .inr (.inr ⟨_, _, w.shared, sent_setInput w n i v, h.1.symm⟩)
  | setAtom n i v =>
    simp only [World.step, Option.some.injEq, Prod.mk.injEq] at h
    exact .inr (.inr ⟨_, _, w.shared, sent_setAtom w n i v, h.1.symm⟩)
  | setModamt p v =>
    simp only [World.step, Option.some.injEq, Prod.mk.injEq] at h
    exact .inr (.inr ⟨_, _, w.shared, sent_setModamt w p v, h.1.symm⟩)
  | sync order es copyOld =>
    simp only [World.step] at h
    cases hb : w.conf.buildProg T a0 w.shared.heap order es with
    | none => simp [hb] at h
    | some r =>
      obtain ⟨c', p, h'⟩ := r
      simp only [hb, Option.map_some, Option.some.injEq, Prod.mk.injEq] at h
      obtain ⟨s1, s2, s3⟩ := buildProg_sound hw hb
      rw [← h.1]
      refine .inr (.inr ⟨c', [_], { w.shared with heap := h' }, .one (m := .newProg (c'.fillProg p) copyOld) s1 (fun k _ => ⟨s1, fun k na hk => ?_⟩)
        (fun _ => trivial) (.inr ⟨_, _, _, rfl⟩), rfl⟩)
      simp only [atAfter]
      rw [s2]
      exact s3 k na hk
  | monitor n ins outs =>
    simp only [World.step, Option.some.injEq, Prod.mk.injEq] at h
    exact .inr (.inr ⟨w.conf, _, w.shared, sent_monitor w n ins outs, h.1.symm⟩)
  | injectMidi ev =>
    cases h
    exact .inr (.inr ⟨w.conf, [_], w.shared, .one (m := .injectMidi ev) trivial (fun _ h => ⟨trivial, h⟩) (fun _ => trivial) (.inl fun _ h => h), rfl⟩)
  | poll => exact .inl (.inl rfl)
  | process nf => exact .inl (.inr ⟨_, rfl⟩)
  | dropOne =>
    simp only [World.step] at h
    split at h
    · cases h; exact .inr (.inr ⟨w.conf, [], w.shared, .none (fun _ h => h), rfl⟩)
    · simp only [Option.some.injEq, Prod.mk.injEq] at h
      exact .inr (.inr ⟨w.conf, [], _, .none (fun _ h => h), h.1.symm⟩)
  | setSlope n => exact .inr (.inl ⟨n, rfl⟩)

/-- What holds of every message still holds after a call that sends. -/
theorem queue_sent {w : World N V A M σ} {op : EOp N V A M} {c : Conf N V A} {ms : List (Msg N V A M)} (s : Shared N V A) (h : Sent w op c ms)
    {P : Msg N V A M → Prop} (hq : ∀ m ∈ w.queue, P m) (hP : ∀ m, ProgOK m → (Still w op → Calm m) → P m) :
    ∀ m ∈ (({ w with conf := c, shared := s } : World N V A M σ).sendAll ms).queue, P m := by
  cases h with
  | none _ => exact hq
  | one h1 _ h3 _ =>
    intro m hm
    rcases mem_send hm with h | h
    · exact hq m h
    · exact h ▸ hP _ h1 h3

theorem exec_sent {w : World N V A M σ} {op : EOp N V A M} {c : Conf N V A} {ms : List (Msg N V A M)} (s : Shared N V A) (h : Sent w op c ms) :
    (({ w with conf := c, shared := s } : World N V A M σ).sendAll ms).exec = w.exec := by
  cases h with
  | none _ => rfl
  | one _ _ _ _ => exact exec_send _ _

theorem apply_ready {e e1 : Exec N V A M} {s s1 : Shared N V A} {m : Msg N V A M} (h : Ready e.prog) (hm : ProgOK m) (ha : e.apply s m = some (e1, s1)) :
    Ready e1.prog := by
  by_cases hk : MsgOK e.prog.atoms.length m
  · obtain ⟨e2, s2, h1, h2, -⟩ := apply_ok (s := s) h hk
    rw [ha] at h1; cases h1; exact h2
  · cases m with
    | atomUpdate i a =>
      simp only [Exec.apply] at ha
      rw [if_neg (show ¬ i < e.prog.atoms.length from hk)] at ha
      cases ha
    | clear p => exact absurd hm hk
    | newProg p b => exact absurd hm hk
    | paramUpdate i v => exact absurd trivial hk
    | modamtUpdate i v => exact absurd trivial hk
    | setMonitor i => exact absurd trivial hk
    | injectMidi i => exact absurd trivial hk

theorem applyAll_keeps {P : Exec N V A M → Prop} {Q : Msg N V A M → Prop}
    (hstep : ∀ e e1 s s1 m, P e → Q m → e.apply s m = some (e1, s1) → P e1) (ms : List (Msg N V A M)) : ∀ {e e1 : Exec N V A M} {s s1 : Shared N V A},
    P e → (∀ m ∈ ms, Q m) → e.applyAll s ms = some (e1, s1) → P e1 := by
  induction ms with
  | nil => intro e e1 s s1 h _ ha; cases ha; exact h
  | cons m ms ih =>
    intro e e1 s s1 h hq ha
    unfold Exec.applyAll at ha
    cases hx : e.apply s m with
    | none => rw [hx] at ha; cases ha
    | some r =>
      rw [hx] at ha
      obtain ⟨e2, s2⟩ := r
      exact ih (hstep _ _ _ _ _ h (hq m (by simp)) hx) (fun m hm => hq m (by simp [hm])) ha

theorem whole_new (st : σ) : Whole (World.new st : World N V A M σ) := ⟨confWF_new, ready_empty, fun m h => by cases h⟩

theorem whole_step {T : NodeTable N V A} {a0 : A} {run : σ → CallIn N V A → σ × (Nat → Block V)} {w w1 : World N V A M σ} {op : EOp N V A M}
    {out : Option (BlockResult N V A)} (hw : Whole w) (hp : Polite w op) (h : w.step T a0 run op = some (w1, out)) : Whole w1 := by
  refine ⟨wf_step hw.wf hp h, ?_, ?_⟩
  all_goals rcases step_sent hw.wf h with (rfl | ⟨nf, rfl⟩) | ⟨n, rfl⟩ | ⟨c, ms, s, h1, h2⟩
  · simp only [World.step] at h
    cases hb : w.exec.applyAll w.shared w.queue with
    | none => simp [hb] at h
    | some r =>
      simp only [hb, Option.map_some, Option.some.injEq, Prod.mk.injEq] at h
      rw [← h.1]
      exact applyAll_keeps (P := fun e => Ready e.prog) (Q := ProgOK) (fun _ _ _ _ _ => apply_ready) _ (s1 := r.2) hw.ready hw.queue hb
  · simp only [World.step] at h
    cases hb : w.exec.process run w.shared.heap w.st nf with
    | none => simp [hb] at h
    | some r =>
      simp only [hb, Option.map_some, Option.some.injEq, Prod.mk.injEq] at h
      rw [← h.1]
      obtain ⟨h1, h2, -⟩ := process_same (e' := r.1) (h' := r.2.1) (st' := r.2.2.1) (out := r.2.2.2) hb
      exact h1.ready h2 hw.ready
  · cases h; exact hw.ready
  · rw [h2, exec_sent s h1]; exact hw.ready
  · simp only [World.step] at h
    cases hb : w.exec.applyAll w.shared w.queue with
    | none => simp [hb] at h
    | some r =>
      simp only [hb, Option.map_some, Option.some.injEq, Prod.mk.injEq] at h
      rw [← h.1]
      intro m hm; cases hm
  · simp only [World.step] at h
    cases hb : w.exec.process run w.shared.heap w.st nf with
    | none => simp [hb] at h
    | some r =>
      simp only [hb, Option.map_some, Option.some.injEq, Prod.mk.injEq] at h
      rw [← h.1]
      exact hw.queue
  · cases h; exact hw.queue
  · rw [h2]
    exact queue_sent s h1 hw.queue (fun m h _ => h)

theorem whole_keeping {T : NodeTable N V A} {a0 : A} {run : σ → CallIn N V A → σ × (Nat → Block V)} {P : World N V A M σ → EOp N V A M → Prop}
    {w : World N V A M σ} (h : Keeping T a0 run P w) : Whole w := by
  induction h with
  | new st => exact whole_new st
  | call _ hp _ hs ih => exact whole_step ih hp hs
  | outside st _ ih => exact ⟨ih.wf, ih.ready, ih.queue⟩

/-! ### No program refused -/

structure Fits (w : World N V A M σ) : Prop where
  queue : ∃ m, QueueOK w.exec.prog.atoms.length w.queue m ∧ Bound w.conf m

theorem fits_step {T : NodeTable N V A} {a0 : A} {run : σ → CallIn N V A → σ × (Nat → Block V)} {w w1 : World N V A M σ} {op : EOp N V A M}
    {out : Option (BlockResult N V A)} (hw : Whole w) (hf : Fits w) (hr : Room w op) (h : w.step T a0 run op = some (w1, out)) : Fits w1 := by
  obtain ⟨k, h1, h2⟩ := hf.queue
  rcases step_sent hw.wf h with (rfl | ⟨nf, rfl⟩) | ⟨n, rfl⟩ | ⟨c, ms, s, hs, e⟩
  · obtain ⟨e1, s1, h3, -, h5⟩ := applyAll_ok h1 (s := w.shared) rfl hw.ready
    simp only [World.step, h3, Option.map_some, Option.some.injEq, Prod.mk.injEq] at h
    rw [← h.1]
    exact ⟨k, by simp only [h5]; exact .nil k, h2⟩
  · simp only [World.step] at h
    cases hb : w.exec.process run w.shared.heap w.st nf with
    | none => simp [hb] at h
    | some r =>
      simp only [hb, Option.map_some, Option.some.injEq, Prod.mk.injEq] at h
      rw [← h.1]
      obtain ⟨h3, -, -⟩ := process_same (e' := r.1) (h' := r.2.1) (st' := r.2.2.1) (out := r.2.2.2) hb
      exact ⟨k, by simp only [h3.ats]; exact h1, h2⟩
  · cases h; exact ⟨k, h1, h2⟩
  · rw [e]
    cases hs with
    | none hb => exact ⟨k, h1, hb k h2⟩
    | one h3 h4 h5 h6 =>
      simp only [World.sendAll, List.foldl_cons, List.foldl_nil]
      unfold World.send
      by_cases hlt : w.queue.length < queueCapacity
      · rw [if_pos hlt]
        exact ⟨_, h1.snoc (h4 k h2).1, (h4 k h2).2⟩
      · rw [if_neg hlt]
        rcases h6 with h6 | ⟨a, b, d, rfl⟩
        · exact ⟨k, h1, h6 k h2⟩
        · exact absurd hr hlt

theorem fits_keeping {T : NodeTable N V A} {a0 : A} {run : σ → CallIn N V A → σ × (Nat → Block V)} {w : World N V A M σ} (h : Keeping T a0 run Room w) :
    Fits w := by
  induction h with
  | new st => exact ⟨0, .nil 0, fun k na h => by cases h⟩
  | call hk _ hr hs ih => exact fits_step (whole_keeping hk) ih hr hs
  | outside st _ ih => exact ⟨ih.queue⟩

/-! ### Nothing moves -/

structure Idle (w : World N V A M σ) : Prop where
  smoothers : ∀ x ∈ w.exec.smoothers, x.2.done = true
  refresh : w.exec.targetRefresh = []
  monitor : ∀ idx ∈ w.exec.monitorIdx, idx = 99999
  queue : ∀ m ∈ w.queue, Calm m

/-- The executor with nothing moving and nothing monitored. -/
def IdleE (e : Exec N V A M) : Prop :=
  (∀ x ∈ e.smoothers, x.2.done = true) ∧ e.targetRefresh = [] ∧ ∀ idx ∈ e.monitorIdx, idx = 99999

theorem apply_idle {e e1 : Exec N V A M} {s s1 : Shared N V A} {m : Msg N V A M} (h : IdleE e) (hm : Calm m) (ha : e.apply s m = some (e1, s1)) : IdleE e1 := by
  have hrep : ∀ idx ∈ List.replicate 6 99999, idx = 99999 := fun idx hi => (List.mem_replicate.1 hi).2
  cases m with
  | clear p => simp only [Exec.apply, Option.some.injEq, Prod.mk.injEq] at ha; rw [← ha.1]; exact ⟨h.1, h.2.1, hrep⟩
  | newProg p b =>
    simp only [Exec.apply] at ha
    split at ha
    · cases ha
    · simp only [Option.some.injEq, Prod.mk.injEq] at ha; rw [← ha.1]; exact ⟨h.1, h.2.1, hrep⟩
  | atomUpdate i a =>
    simp only [Exec.apply] at ha
    split at ha
    · simp only [Option.some.injEq, Prod.mk.injEq] at ha; rw [← ha.1]; exact h
    · cases ha
  | paramUpdate i v => exact absurd hm id
  | modamtUpdate i v => simp only [Exec.apply, Option.some.injEq, Prod.mk.injEq] at ha; rw [← ha.1]; exact h
  | setMonitor b => exact absurd hm id
  | injectMidi ev =>
    simp only [Exec.apply, Option.some.injEq, Prod.mk.injEq] at ha
    rw [← ha.1]
    split <;> exact h

theorem idle_keeping {T : NodeTable N V A} {a0 : A} {run : σ → CallIn N V A → σ × (Nat → Block V)} {w : World N V A M σ} (h : Keeping T a0 run Still w) :
    IdleE w.exec ∧ ∀ m ∈ w.queue, Calm m := by
  induction h with
  | new st =>
    refine ⟨⟨fun x hx => ?_, rfl, fun idx hi => (List.mem_replicate.1 hi).2⟩, fun m hm => by cases hm⟩
    rw [(List.mem_replicate.1 hx).2]; rfl
  | outside st _ ih => exact ih
  | @call w w1 op out hk hp hr h ih =>
    have hw := whole_keeping hk
    rcases step_sent hw.wf h with (rfl | ⟨nf, rfl⟩) | ⟨n, rfl⟩ | ⟨c, ms, s, h1, h2⟩
    · simp only [World.step] at h
      cases hb : w.exec.applyAll w.shared w.queue with
      | none => simp [hb] at h
      | some r =>
        simp only [hb, Option.map_some, Option.some.injEq, Prod.mk.injEq] at h
        rw [← h.1]
        exact ⟨applyAll_keeps (P := IdleE) (Q := Calm) (fun _ _ _ _ _ => apply_idle) _ (s1 := r.2) ih.1 ih.2 hb, fun m hm => by cases hm⟩
    · simp only [World.step] at h
      cases hb : w.exec.process run w.shared.heap w.st nf with
      | none => simp [hb] at h
      | some r =>
        simp only [hb, Option.map_some, Option.some.injEq, Prod.mk.injEq] at h
        rw [← h.1]
        obtain ⟨-, -, h3, h4⟩ := process_same (e' := r.1) (h' := r.2.1) (st' := r.2.2.1) (out := r.2.2.2) hb
        obtain ⟨h5, h6⟩ := h4 ih.1.1
        exact ⟨⟨by simp only [h5]; exact ih.1.1, h6, by simp only [h3]; exact ih.1.2.2⟩, ih.2⟩
    · cases h
      refine ⟨⟨fun x hx => ?_, ih.1.2.1, ih.1.2.2⟩, ih.2⟩
      obtain ⟨y, hy, rfl⟩ := List.mem_map.1 hx
      exact ih.1.1 y hy
    · rw [h2]
      refine ⟨by rw [exec_sent s h1]; exact ih.1, ?_⟩
      exact queue_sent s h1 ih.2 (fun m _ h => h hr)
end

end HexoDSP.Robust
