import Mathlib.Data.List.Perm.Subperm
import Verif.Lemmas.Reach
import Verif.Spec.Many
/-! Which operations a program has, when there are more nodes than the index of an operation can tell apart. -/

set_option linter.unusedSectionVars false

namespace HexoDSP.Many
open Engine EngineSpec

variable {N V A M σ : Type} [DecidableEq N]

/-- Index and node of each operation. -/
def opKeys (p : NodeProg N V A) : List (Nat × N) := p.prog.map (fun o => (o.idx, o.node))

/-- The operations have different indices, each of which is a byte. -/
def Few (p : NodeProg N V A) : Prop := (∀ k ∈ opKeys p, k.1 < 256) ∧ ((opKeys p).map Prod.fst).Nodup

theorem Few.of_keys {p q : NodeProg N V A} (h : Few p) (he : opKeys q = opKeys p) : Few q := by
  unfold Few; rw [he]; exact h

theorem few_empty : Few (NodeProg.empty : NodeProg N V A) := ⟨by simp [opKeys, NodeProg.empty], by simp [opKeys, NodeProg.empty]⟩

theorem Few.length {p : NodeProg N V A} (h : Few p) : p.prog.length ≤ 256 := by
  have h1 : ((opKeys p).map Prod.fst).length = p.prog.length := by simp [opKeys]
  have h2 : ((opKeys p).map Prod.fst) ⊆ List.range 256 := by
    intro k hk
    obtain ⟨x, hx, rfl⟩ := List.mem_map.1 hk
    exact List.mem_range.2 (h.1 x hx)
  have := (List.subperm_of_subset h.2 h2).length_le
  rw [h1] at this
  simpa using this

theorem opKeys_appendOp (p : NodeProg N V A) (op : NodeOp N) : opKeys (p.appendOp op) =
    if op.idx ∈ (opKeys p).map Prod.fst then opKeys p else opKeys p ++ [(op.idx, op.node)] := by
  have hiff : p.prog.any (fun o => o.idx == op.idx) = true ↔ op.idx ∈ (opKeys p).map Prod.fst := by
    simp [opKeys]
  unfold NodeProg.appendOp
  by_cases h : op.idx ∈ (opKeys p).map Prod.fst
  · rw [if_pos (hiff.2 h), if_pos h]
  · rw [if_neg (fun x => h (hiff.1 x)), if_neg h]
    simp [opKeys]

theorem few_appendOp {p : NodeProg N V A} (h : Few p) {op : NodeOp N} (ho : op.idx < 256) : Few (p.appendOp op) := by
  unfold Few
  rw [opKeys_appendOp]
  by_cases hm : op.idx ∈ (opKeys p).map Prod.fst
  · rw [if_pos hm]; exact h
  · rw [if_neg hm]
    refine ⟨?_, ?_⟩
    · intro k hk
      rcases List.mem_append.1 hk with h1 | h1
      · exact h.1 k h1
      · rw [List.mem_singleton.1 h1]; exact ho
    · rw [List.map_append, List.nodup_append]
      refine ⟨h.2, by simp, ?_⟩
      intro a ha b hb
      rw [List.map_singleton, List.mem_singleton] at hb
      intro hab
      rw [hab, hb] at ha
      exact hm ha

theorem setInFlag_keys (o : NodeOp N) (g : Nat) : (o.setInFlag g).idx = o.idx ∧ (o.setInFlag g).node = o.node := by
  unfold NodeOp.setInFlag; split <;> exact ⟨rfl, rfl⟩

theorem setOutFlag_keys (o : NodeOp N) (g : Nat) : (o.setOutFlag g).idx = o.idx ∧ (o.setOutFlag g).node = o.node := by
  unfold NodeOp.setOutFlag; split <;> exact ⟨rfl, rfl⟩

theorem addInput_keys (idx i o : Nat) (md : Option Nat) (l : List (NodeOp N)) :
    (addInput idx i o md l).map (fun o => (o.idx, o.node)) = l.map (fun o => (o.idx, o.node)) := by
  induction l with
  | nil => rfl
  | cons x l ih =>
    unfold addInput
    split
    · simp [setInFlag_keys]
    · simp [ih]

theorem opKeys_appendEdge (p : NodeProg N V A) (op : NodeOp N) (i o : Nat) (md : Option Nat) :
    opKeys (p.appendEdge op i o md) = opKeys p := by
  unfold opKeys NodeProg.appendEdge
  simp only
  rw [addInput_keys, List.map_map]
  apply List.map_congr_left
  intro x _
  simp [setOutFlag_keys]

theorem opKeys_connect {c c' : Conf N V A} {p p' : NodeProg N V A} {e : Conn N}
    (h : c.connect p e = some (c', p')) : opKeys p' = opKeys p := by
  unfold Conf.connect at h
  split at h
  · cases h; rfl
  · split at h
    · cases h; rfl
    · rename_i di _
      cases hm : di.modLocal2Global e.dstIn with
      | none => simp [hm] at h
      | some md =>
        simp only [hm, Option.map_some, Option.some.injEq, Prod.mk.injEq] at h
        rw [← h.2]
        split
        · exact opKeys_appendEdge _ _ _ _ _
        · rfl

theorem opKeys_connects (es : List (Conn N)) : ∀ (s r : Conf N V A × NodeProg N V A),
    es.foldlM (fun (s : Conf N V A × NodeProg N V A) e => s.1.connect s.2 e) s = some r → opKeys r.2 = opKeys s.2 := by
  induction es with
  | nil => intro s r h; simp at h; subst h; rfl
  | cons e es ih =>
    intro s r hf
    rw [List.foldlM_cons] at hf
    cases hc : s.1.connect s.2 e with
    | none => simp [hc] at hf
    | some s' =>
      simp only [hc, Option.bind_eq_bind, Option.bind_some] at hf
      rw [ih s' r hf]
      exact opKeys_connect (c' := s'.1) (p' := s'.2) hc

theorem few_addNodes (order : List N) : ∀ (c : Conf N V A) (p : NodeProg N V A), Few p →
    Few (order.foldl (fun (s : Conf N V A × NodeProg N V A) n => s.1.addProgNode s.2 n) (c, p)).2 := by
  induction order with
  | nil => intro c p h; exact h
  | cons n order ih =>
    intro c p h
    rw [List.foldl_cons]
    unfold Conf.addProgNode
    cases c.instanceOf n with
    | none => exact ih c p h
    | some ni => exact ih _ _ (few_appendOp h (Nat.mod_lt _ (by decide)))

/-! ### Everything else leaves the operations alone -/

theorem opKeys_assignInput {p q : NodeProg N V A} {io : Nat × Nat × Option Nat} (h : assignInput p io = some q) :
    q.prog = p.prog := by
  unfold assignInput at h
  split at h
  · cases h
  · split at h
    · split at h
      · cases h; rfl
      · split at h
        · cases h; rfl
        · cases h
    · cases h

theorem prog_assignInputs (l : List (Nat × Nat × Option Nat)) : ∀ {p q : NodeProg N V A},
    l.foldlM assignInput p = some q → q.prog = p.prog := by
  induction l with
  | nil => intro p q h; simp at h; rw [h]
  | cons x l ih =>
    intro p q h
    rw [List.foldlM_cons] at h
    cases hx : assignInput p x with
    | none => simp [hx] at h
    | some p1 =>
      simp only [hx, Option.bind_eq_bind, Option.bind_some] at h
      rw [ih h, opKeys_assignInput hx]

theorem prog_assignOp {p q : NodeProg N V A} {op : NodeOp N} (h : assignOp p op = some q) : q.prog = p.prog := by
  unfold assignOp at h
  cases hr : refreshInputs p op.inR.1 op.inR.2 with
  | none => simp [hr] at h
  | some p1 =>
    simp only [hr, Option.bind_some] at h
    rw [prog_assignInputs _ h]
    unfold refreshInputs at hr
    split at hr
    · cases hr; rfl
    · cases hr

theorem prog_assignOps (l : List (NodeOp N)) : ∀ {p q : NodeProg N V A}, l.foldlM assignOp p = some q → q.prog = p.prog := by
  induction l with
  | nil => intro p q h; simp at h; rw [h]
  | cons x l ih =>
    intro p q h
    rw [List.foldlM_cons] at h
    cases hx : assignOp p x with
    | none => simp [hx] at h
    | some p1 =>
      simp only [hx, Option.bind_eq_bind, Option.bind_some] at h
      rw [ih h, prog_assignOp hx]

theorem prog_assignOutputs {p q : NodeProg N V A} (h : p.assignOutputs = some q) : q.prog = p.prog := by
  unfold NodeProg.assignOutputs at h
  cases hx : p.prog.foldlM assignOp p with
  | none => simp [hx] at h
  | some r =>
    simp only [hx, Option.map_some, Option.some.injEq] at h
    rw [← h]
    exact (prog_assignOps p.prog hx : r.prog = p.prog)

theorem prog_swap (p prev : NodeProg N V A) : (p.swapPrevious prev).1.prog = p.prog := by
  unfold NodeProg.swapPrevious
  simp only
  split <;> rfl

theorem prog_fillProg [OfNat V 0] (c : Conf N V A) (p : NodeProg N V A) : (c.fillProg p).prog = p.prog := by
  rw [fillProg_eq]

section
variable [Sub V] [Div V] [NatCast V]

theorem prog_setParam (e : Exec N V A M) (i : Nat) (v : V) : (e.setParam i v).prog = e.prog := by
  unfold Exec.setParam
  split
  · rfl
  · split <;> rfl

/-- The program a message carries. -/
def msgProg : Msg N V A M → Option (NodeProg N V A)
  | .clear p => some p
  | .newProg p _ => some p
  | _ => none

/-- After a message the executor runs the operations of the program it carries, if it carries one. -/
theorem prog_apply {e e1 : Exec N V A M} {s s1 : Shared N V A} {m : Msg N V A M} (h : e.apply s m = some (e1, s1)) :
    e1.prog.prog = ((msgProg m).getD e.prog).prog := by
  cases m with
  | clear p =>
    simp only [Exec.apply, Option.some.injEq, Prod.mk.injEq] at h
    rw [← h.1]; rfl
  | newProg p copy =>
    cases copy with
    | false =>
      simp only [Exec.apply, Bool.false_eq_true, if_false] at h
      cases hx : p.assignOutputs with
      | none => rw [hx] at h; cases h
      | some q =>
        rw [hx] at h
        simp only [Option.some.injEq, Prod.mk.injEq] at h
        rw [← h.1]
        exact prog_assignOutputs hx
    | true =>
      simp only [Exec.apply, if_true] at h
      cases hx : (p.swapPrevious e.prog).1.assignOutputs with
      | none => rw [hx] at h; cases h
      | some q =>
        rw [hx] at h
        simp only [Option.some.injEq, Prod.mk.injEq] at h
        rw [← h.1]
        exact (prog_assignOutputs hx).trans (prog_swap p e.prog)
  | atomUpdate i a =>
    simp only [Exec.apply] at h
    split at h
    · simp only [Option.some.injEq, Prod.mk.injEq] at h
      rw [← h.1]; rfl
    · cases h
  | paramUpdate i x =>
    simp only [Exec.apply, Option.some.injEq, Prod.mk.injEq] at h
    rw [← h.1, prog_setParam]; rfl
  | modamtUpdate i x =>
    simp only [Exec.apply, Option.some.injEq, Prod.mk.injEq] at h
    rw [← h.1]; rfl
  | setMonitor b =>
    simp only [Exec.apply, Option.some.injEq, Prod.mk.injEq] at h
    rw [← h.1]; rfl
  | injectMidi ev =>
    simp only [Exec.apply, Option.some.injEq, Prod.mk.injEq] at h
    rw [← h.1]
    split <;> rfl

theorem few_applyAll (ms : List (Msg N V A M)) : ∀ {e e1 : Exec N V A M} {s s1 : Shared N V A},
    e.applyAll s ms = some (e1, s1) → Few e.prog → (∀ m ∈ ms, ∀ p, msgProg m = some p → Few p) → Few e1.prog := by
  induction ms with
  | nil => intro e e1 s s1 h he _; simp only [Exec.applyAll, Option.some.injEq, Prod.mk.injEq] at h; rw [← h.1]; exact he
  | cons m ms ih =>
    intro e e1 s s1 h he hm
    unfold Exec.applyAll at h
    cases hx : e.apply s m with
    | none => rw [hx] at h; cases h
    | some r =>
      rw [hx] at h
      refine ih h ?_ (fun m' h' => hm m' (by simp [h']))
      have hk := prog_apply (e1 := r.1) (s1 := r.2) hx
      cases hp : msgProg m with
      | none => rw [hp] at hk; exact he.of_keys (by unfold opKeys; rw [hk]; rfl)
      | some q => rw [hp] at hk; exact (hm m (by simp) q hp).of_keys (by unfold opKeys; rw [hk]; rfl)

/-- After the queue is emptied the executor runs the last program that was in it. -/
theorem prog_applyAll_last (ms : List (Msg N V A M)) (q : NodeProg N V A) (b : Bool) : ∀ {e e1 : Exec N V A M} {s s1 : Shared N V A},
    e.applyAll s (ms ++ [.newProg q b]) = some (e1, s1) → e1.prog.prog = q.prog := by
  induction ms with
  | nil =>
    intro e e1 s s1 h
    simp only [List.nil_append, Exec.applyAll] at h
    cases hx : e.apply s (.newProg q b) with
    | none => rw [hx] at h; cases h
    | some r =>
      rw [hx] at h
      simp only [Option.some.injEq, Prod.mk.injEq] at h
      rw [← h.1]
      exact prog_apply (e1 := r.1) (s1 := r.2) hx
  | cons m ms ih =>
    intro e e1 s s1 h
    simp only [List.cons_append, Exec.applyAll] at h
    cases hx : e.apply s m with
    | none => rw [hx] at h; cases h
    | some r =>
      rw [hx] at h
      exact ih h
end

section
variable [Add V] [Mul V] [OfNat V 0]

theorem few_new {p : NodeProg N V A} (h : opKeys p = []) : Few p := by
  unfold Few; rw [h]; exact ⟨fun k hk => absurd hk (by simp), List.nodup_nil⟩

theorem few_buildProg {T : NodeTable N V A} {a0 : A} {c c' : Conf N V A} {h h' : Heap V} {order : List N}
    {es : List (Conn N)} {p : NodeProg N V A} (hb : c.buildProg T a0 h order es = some (c', p, h')) : Few p := by
  obtain ⟨h1, _⟩ := buildProg_split hb
  exact (few_addNodes order _ _ (few_new rfl)).of_keys (opKeys_connects es _ _ h1)

theorem calls_runOps (run : σ → CallIn N V A → σ × (Nat → Block V)) (nf : Nat) (p : NodeProg N V A) (ops : List (NodeOp N)) :
    ∀ {a b : RunAcc N V A σ}, ops.foldlM (runOp run nf p) a = some b →
      b.calls.map (fun c => c.node) = a.calls.map (fun c => c.node) ++ ops.map (fun o => o.node) := by
  induction ops with
  | nil => intro a b h; simp at h; subst h; simp
  | cons o ops ih =>
    intro a b h
    rw [List.foldlM_cons] at h
    cases hx : runOp run nf p a o with
    | none => simp [hx] at h
    | some a1 =>
      simp only [hx, Option.bind_eq_bind, Option.bind_some] at h
      rw [ih h]
      unfold runOp at hx
      split at hx
      · simp only [Option.some.injEq] at hx
        rw [← hx]
        simp
      · cases hx

/-- Each operation of the program is one call of a node; the operations stay. -/
theorem calls_process {run : σ → CallIn N V A → σ × (Nat → Block V)} {e e1 : Exec N V A M} {h h1 : Heap V} {st st1 : σ} {nf : Nat}
    {r : BlockResult N V A} (hp : e.process run h st nf = some (e1, h1, st1, r)) :
    r.calls.map (fun c => c.node) = e.prog.prog.map (fun o => o.node) ∧ e1.prog.prog = e.prog.prog := by
  unfold Exec.process at hp
  split at hp
  · cases hp
  · split at hp
    · cases hp
    · rename_i e2 h2 hs
      have he : e2.prog.prog = e.prog.prog := by
        unfold Exec.processSmoothers at hs
        split at hs
        · cases hs
        · split at hs
          · cases hs
          · simp only [Option.some.injEq, Prod.mk.injEq] at hs
            rw [← hs.1]
      split at hp
      · cases hp
      · rename_i a ha
        split at hp
        · cases hp
        · simp only [Option.some.injEq, Prod.mk.injEq] at hp
          obtain ⟨rfl, -, -, rfl⟩ := hp
          refine ⟨?_, he⟩
          have := calls_runOps run nf e2.prog _ ha
          simpa [he] using this
end

/-! ### Histories -/

structure FewWorld (w : World N V A M σ) : Prop where
  exec : Few w.exec.prog
  queue : ∀ m ∈ w.queue, ∀ p, msgProg m = some p → Few p

theorem FewWorld.send {w : World N V A M σ} (h : FewWorld w) {m : Msg N V A M} (hm : ∀ p, msgProg m = some p → Few p) :
    FewWorld (w.send m) := by
  unfold World.send
  split
  · refine ⟨h.exec, fun m' h' => ?_⟩
    rcases List.mem_append.1 h' with h1 | h1
    · exact h.queue m' h1
    · rw [List.mem_singleton.1 h1]; exact hm
  · exact ⟨h.exec, h.queue⟩

theorem FewWorld.sendAll {ms : List (Msg N V A M)} : ∀ {w : World N V A M σ}, FewWorld w →
    (∀ m ∈ ms, ∀ p, msgProg m = some p → Few p) → FewWorld (w.sendAll ms) := by
  unfold World.sendAll
  induction ms with
  | nil => intro w h _; exact h
  | cons m ms ih =>
    intro w h hm
    rw [List.foldl_cons]
    exact ih (h.send (hm m (by simp))) (fun m' h' => hm m' (by simp [h']))

variable [OfNat V 0] [Add V] [Mul V] [Sub V] [Div V] [NatCast V]

theorem few_step {T : NodeTable N V A} {a0 : A} {run : σ → CallIn N V A → σ × (Nat → Block V)}
    {w w1 : World N V A M σ} {op : EOp N V A M} {out : Option (BlockResult N V A)} (hw : FewWorld w)
    (h : w.step T a0 run op = some (w1, out)) : FewWorld w1 := by
  cases op with
  | createNode n =>
    simp only [World.step, Option.some.injEq, Prod.mk.injEq] at h
    rw [← h.1]; exact ⟨hw.exec, hw.queue⟩
  | deleteNodes =>
    simp only [World.step, Conf.deleteNodes, Option.some.injEq, Prod.mk.injEq] at h
    rw [← h.1]
    refine FewWorld.sendAll ⟨hw.exec, hw.queue⟩ ?_
    intro m hm p hp
    rw [List.mem_singleton.1 hm] at hp
    simp only [msgProg, Option.some.injEq] at hp
    rw [← hp]; exact few_empty
  | setInput n i v =>
    simp only [World.step, Option.some.injEq, Prod.mk.injEq] at h
    rw [← h.1]
    refine FewWorld.sendAll ⟨hw.exec, hw.queue⟩ ?_
    intro m hm p hp
    unfold Conf.setInput at hm
    simp only at hm
    split at hm
    · cases hm
    · rw [List.mem_singleton.1 hm] at hp; cases hp
  | setAtom n i v =>
    simp only [World.step, Option.some.injEq, Prod.mk.injEq] at h
    rw [← h.1]
    refine FewWorld.sendAll ⟨hw.exec, hw.queue⟩ ?_
    intro m hm p hp
    unfold Conf.setAtom at hm
    simp only at hm
    split at hm
    · cases hm
    · rw [List.mem_singleton.1 hm] at hp; cases hp
  | setModamt p v =>
    simp only [World.step, Option.some.injEq, Prod.mk.injEq] at h
    rw [← h.1]
    refine FewWorld.sendAll ⟨hw.exec, hw.queue⟩ ?_
    intro m hm q hq
    cases p with
    | atom n i => simp only [Conf.setModamt] at hm; cases hm
    | input n i =>
      simp only [Conf.setModamt] at hm
      split at hm
      · cases hm
      · simp only at hm
        split at hm
        · rw [List.mem_singleton.1 hm] at hq; cases hq
        · cases hm
      · cases hm
  | sync order es copyOld =>
    simp only [World.step] at h
    cases hb : w.conf.buildProg T a0 w.shared.heap order es with
    | none => simp [hb] at h
    | some r =>
      simp only [hb, Option.map_some, Option.some.injEq, Prod.mk.injEq] at h
      rw [← h.1]
      apply FewWorld.send
      · exact ⟨hw.exec, hw.queue⟩
      intro p hp
      simp only [msgProg, Option.some.injEq] at hp
      rw [← hp]
      exact (few_buildProg (c' := r.1) (p := r.2.1) (h' := r.2.2) hb).of_keys (by unfold opKeys; rw [prog_fillProg])
  | monitor n ins outs =>
    simp only [World.step, Option.some.injEq, Prod.mk.injEq] at h
    rw [← h.1]
    refine FewWorld.sendAll ⟨hw.exec, hw.queue⟩ ?_
    intro m hm p hp
    unfold Conf.monitor at hm
    split at hm
    · cases hm
    · rw [List.mem_singleton.1 hm] at hp; cases hp
  | injectMidi ev =>
    simp only [World.step, Option.some.injEq, Prod.mk.injEq] at h
    rw [← h.1]
    exact FewWorld.send hw (fun p hp => by cases hp)
  | poll =>
    simp only [World.step] at h
    cases hb : w.exec.applyAll w.shared w.queue with
    | none => simp [hb] at h
    | some r =>
      simp only [hb, Option.map_some, Option.some.injEq, Prod.mk.injEq] at h
      rw [← h.1]
      exact ⟨few_applyAll _ (e1 := r.1) (s1 := r.2) hb hw.exec hw.queue, fun m hm => by cases hm⟩
  | process nf =>
    simp only [World.step] at h
    cases hb : w.exec.process run w.shared.heap w.st nf with
    | none => simp [hb] at h
    | some r =>
      simp only [hb, Option.map_some, Option.some.injEq, Prod.mk.injEq] at h
      rw [← h.1]
      exact ⟨hw.exec.of_keys (by unfold opKeys; rw [(calls_process (r := r.2.2.2) hb).2]), hw.queue⟩
  | dropOne =>
    simp only [World.step] at h
    split at h
    · simp only [Option.some.injEq, Prod.mk.injEq] at h; rw [← h.1]; exact hw
    · simp only [Option.some.injEq, Prod.mk.injEq] at h; rw [← h.1]; exact ⟨hw.exec, hw.queue⟩
  | setSlope n =>
    simp only [World.step, Option.some.injEq, Prod.mk.injEq] at h
    rw [← h.1]; exact ⟨hw.exec, hw.queue⟩

theorem fewWorld_new (st : σ) : FewWorld (World.new st : World N V A M σ) :=
  ⟨few_empty, fun m hm => by cases hm⟩

theorem few_runOps {T : NodeTable N V A} {a0 : A} {run : σ → CallIn N V A → σ × (Nat → Block V)} (ops : List (EOp N V A M)) :
    ∀ {w w1 : World N V A M σ}, FewWorld w → w.runOps T a0 run ops = some w1 → FewWorld w1 := by
  induction ops with
  | nil => intro w w1 hw h; simp [World.runOps] at h; rw [← h]; exact hw
  | cons op ops ih =>
    intro w w1 hw h
    unfold World.runOps at h
    rw [List.foldlM_cons] at h
    cases hs : w.step T a0 run op with
    | none => simp [hs] at h
    | some r =>
      simp only [hs, Option.map_some, Option.bind_eq_bind, Option.bind_some] at h
      exact ih (few_step (w1 := r.1) (out := r.2) hw hs) h

/-! ### Which nodes are in the program -/

/-- The operations are, in this order, those of the nodes whose index no earlier node of the order has. -/
theorem keys_addNodes {T : NodeTable N V A} {c0 : Conf N V A} (order : List N) : ∀ (c : Conf N V A) (p : NodeProg N V A),
    Rebuilt T c0 c → (∀ n ∈ order, n ∈ c0.ids) →
      Rebuilt T c0 (order.foldl (fun (s : Conf N V A × NodeProg N V A) n => s.1.addProgNode s.2 n) (c, p)).1 ∧
      opKeys (order.foldl (fun (s : Conf N V A × NodeProg N V A) n => s.1.addProgNode s.2 n) (c, p)).2 =
        order.foldl (fun ks n => if c0.ids.idxOf n % 256 ∈ ks.map Prod.fst then ks else ks ++ [(c0.ids.idxOf n % 256, n)]) (opKeys p) := by
  induction order with
  | nil => intro c p h _; exact ⟨h, rfl⟩
  | cons n order ih =>
    intro c p h hmem
    have hn : n ∈ c0.ids := hmem n (by simp)
    obtain ⟨u, hu⟩ := instanceOf_eq h hn
    rw [List.foldl_cons, List.foldl_cons]
    have hstep : c.addProgNode p n = (c.markUsed n, p.appendOp ({ instOf T c0.paramModamt c0.ids n with inUse := u } : NodeInstance N).asOp) := by
      unfold Conf.addProgNode; rw [hu]
    rw [hstep]
    obtain ⟨h1, h2⟩ := ih (c.markUsed n) (p.appendOp ({ instOf T c0.paramModamt c0.ids n with inUse := u } : NodeInstance N).asOp)
      (rebuilt_markUsed h n) (fun m hm => hmem m (by simp [hm]))
    refine ⟨h1, ?_⟩
    rw [h2, opKeys_appendOp]
    have hlt := List.idxOf_lt_length_iff.2 hn
    have hidx : ({ instOf T c0.paramModamt c0.ids n with inUse := u } : NodeInstance N).asOp.idx = c0.ids.idxOf n % 256 := by
      simp only [NodeInstance.asOp, instOf, instAt, List.length_take]
      rw [Nat.min_eq_left (by omega)]
    rw [hidx]
    rfl

theorem mem_firsts (f : N → Nat) (l : List N) : ∀ (ks : List (Nat × N)),
    (∀ k ∈ ks, k.1 = f k.2) → (∀ x : Nat × N, (x.1 = f x.2) → (x ∈ ks → x ∈ l.foldl (fun ks n => if f n ∈ ks.map Prod.fst then ks else ks ++ [(f n, n)]) ks)) ∧
      ∀ n, n ∉ l → ((f n, n) ∈ l.foldl (fun ks n => if f n ∈ ks.map Prod.fst then ks else ks ++ [(f n, n)]) ks → (f n, n) ∈ ks) := by
  induction l with
  | nil => intro ks _; exact ⟨fun x _ h => h, fun n _ h => h⟩
  | cons a l ih =>
    intro ks hks
    rw [List.foldl_cons]
    by_cases ha : f a ∈ ks.map Prod.fst
    · rw [if_pos ha]
      obtain ⟨h1, h2⟩ := ih ks hks
      exact ⟨h1, fun n hn h => h2 n (fun x => hn (by simp [x])) h⟩
    · rw [if_neg ha]
      obtain ⟨h1, h2⟩ := ih (ks ++ [(f a, a)]) (fun k hk => by
        rcases List.mem_append.1 hk with h | h
        · exact hks k h
        · rw [List.mem_singleton.1 h])
      refine ⟨fun x hx h => h1 x hx (by simp [h]), fun n hn h => ?_⟩
      rcases List.mem_append.1 (h2 n (fun x => hn (by simp [x])) h) with h | h
      · exact h
      · have := List.mem_singleton.1 h
        simp only [Prod.mk.injEq] at this
        exact absurd (by simp [this.2]) hn

theorem fst_firsts (f : N → Nat) (l : List N) : ∀ (ks : List (Nat × N)) (k : Nat),
    k ∈ (l.foldl (fun ks n => if f n ∈ ks.map Prod.fst then ks else ks ++ [(f n, n)]) ks).map Prod.fst ↔ k ∈ ks.map Prod.fst ∨ ∃ n ∈ l, f n = k := by
  induction l with
  | nil => intro ks k; simp
  | cons a l ih =>
    intro ks k
    rw [List.foldl_cons, ih]
    by_cases ha : f a ∈ ks.map Prod.fst
    · rw [if_pos ha]
      constructor
      · rintro (h | ⟨n, hn, h⟩)
        · exact .inl h
        · exact .inr ⟨n, by simp [hn], h⟩
      · rintro (h | ⟨n, hn, h⟩)
        · exact .inl h
        · rcases List.mem_cons.1 hn with e | e
          · rw [e] at h; rw [h] at ha; exact .inl ha
          · exact .inr ⟨n, e, h⟩
    · rw [if_neg ha, List.map_append, List.mem_append]
      constructor
      · rintro ((h | h) | ⟨n, hn, h⟩)
        · exact .inl h
        · exact .inr ⟨a, by simp, by have := List.mem_singleton.1 h; exact this.symm⟩
        · exact .inr ⟨n, by simp [hn], h⟩
      · rintro (h | ⟨n, hn, h⟩)
        · exact .inl (.inl h)
        · rcases List.mem_cons.1 hn with e | e
          · rw [e] at h; exact .inl (.inr (by simp [h]))
          · exact .inr ⟨n, e, h⟩

theorem firsts_key (f : N → Nat) (l : List N) : ∀ (ks : List (Nat × N)), (∀ k ∈ ks, k.1 = f k.2) →
    ∀ k ∈ l.foldl (fun ks n => if f n ∈ ks.map Prod.fst then ks else ks ++ [(f n, n)]) ks, k.1 = f k.2 := by
  induction l with
  | nil => intro ks h; exact h
  | cons a l ih =>
    intro ks h
    rw [List.foldl_cons]
    apply ih
    split
    · exact h
    · intro k hk
      rcases List.mem_append.1 hk with h1 | h1
      · exact h k h1
      · rw [List.mem_singleton.1 h1]

/-- A node is among the operations if and only if no node before it in the order has the same index. -/
theorem firsts_iff (f : N → Nat) (a b : List N) (n : N) (hnd : (a ++ n :: b).Nodup) :
    n ∈ ((a ++ n :: b).foldl (fun ks n => if f n ∈ ks.map Prod.fst then ks else ks ++ [(f n, n)]) ([] : List (Nat × N))).map Prod.snd ↔
      ∀ m ∈ a, f m ≠ f n := by
  rw [List.nodup_append] at hnd
  obtain ⟨_, hnb, hab⟩ := hnd
  have hna : n ∉ a := fun h => hab n h n (by simp) rfl
  have hnb' : n ∉ b := (List.nodup_cons.1 hnb).1
  have hk1 := firsts_key f a [] (by simp)
  rw [List.foldl_append, List.foldl_cons]
  by_cases hx : ∃ m ∈ a, f m = f n
  · have hin : f n ∈ (a.foldl (fun ks n => if f n ∈ ks.map Prod.fst then ks else ks ++ [(f n, n)]) ([] : List (Nat × N))).map Prod.fst :=
      (fst_firsts f a [] (f n)).2 (.inr hx)
    rw [if_pos hin]
    constructor
    · intro h
      obtain ⟨k, hk, rfl⟩ := List.mem_map.1 h
      have hkk := firsts_key f b _ hk1 k hk
      have h2 := (mem_firsts f b _ hk1).2 k.2 hnb' (by rw [← hkk]; exact hk)
      exact absurd ((mem_firsts f a [] (by simp)).2 k.2 hna h2) (by simp)
    · intro h
      obtain ⟨m, hm, he⟩ := hx
      exact absurd he (h m hm)
  · have hin : f n ∉ (a.foldl (fun ks n => if f n ∈ ks.map Prod.fst then ks else ks ++ [(f n, n)]) ([] : List (Nat × N))).map Prod.fst := by
      intro h
      rcases (fst_firsts f a [] (f n)).1 h with h | h
      · simp at h
      · exact hx h
    rw [if_neg hin]
    constructor
    · intro _ m hm he; exact hx ⟨m, hm, he⟩
    · intro _
      refine List.mem_map.2 ⟨(f n, n), ?_, rfl⟩
      refine (mem_firsts f b _ ?_).1 (f n, n) rfl (by simp)
      intro k hk
      rcases List.mem_append.1 hk with h | h
      · exact hk1 k h
      · rw [List.mem_singleton.1 h]

theorem buildProg_runs {T : NodeTable N V A} {a0 : A} {c c' : Conf N V A} {h h' : Heap V} {a b : List N} {n : N}
    {es : List (Conn N)} {p : NodeProg N V A} (hw : ConfWF c) (hnd : (a ++ n :: b).Nodup) (hmem : ∀ m ∈ a ++ n :: b, m ∈ c.ids)
    (hb : c.buildProg T a0 h (a ++ n :: b) es = some (c', p, h')) :
    n ∈ p.prog.map (fun o => o.node) ↔ ∀ m ∈ a, c.ids.idxOf m % 256 ≠ c.ids.idxOf n % 256 := by
  obtain ⟨h1, _⟩ := buildProg_split hb
  have hk := opKeys_connects es _ _ h1
  have h2 := (keys_addNodes (a ++ n :: b) (c.rebuildPorts T a0 h).1 (c.rebuildPorts T a0 h).2.1
    (rebuilt_rebuildPorts T a0 c h hw) hmem).2
  have hp0 : opKeys (c.rebuildPorts T a0 h).2.1 = [] := rfl
  rw [h2, hp0] at hk
  have hpn : p.prog.map (fun o => o.node) = (opKeys p).map Prod.snd := by simp [opKeys]
  rw [hpn]
  have hk' : opKeys p = _ := hk
  rw [hk']
  exact firsts_iff (fun m => c.ids.idxOf m % 256) a b n hnd

theorem ids_step {T : NodeTable N V A} {a0 : A} {run : σ → CallIn N V A → σ × (Nat → Block V)}
    {w w1 : World N V A M σ} {op : EOp N V A M} {out : Option (BlockResult N V A)} (hw : ConfWF w.conf)
    (h : w.step T a0 run op = some (w1, out)) : w1.conf.ids = createdFrom w.conf.ids [op] := by
  cases op with
  | createNode n =>
    simp only [World.step, Option.some.injEq, Prod.mk.injEq] at h
    rw [← h.1]; simp [Conf.createNode, Conf.ids, createdFrom]
  | deleteNodes =>
    simp only [World.step, Conf.deleteNodes, Option.some.injEq, Prod.mk.injEq] at h
    rw [← h.1, conf_sendAll]; rfl
  | setInput n i v =>
    simp only [World.step, Option.some.injEq, Prod.mk.injEq] at h
    rw [← h.1, conf_sendAll]
    show (w.conf.setInput n i v (M := M)).1.nodes.map _ = _
    unfold Conf.setInput; simp only; split <;> rfl
  | setAtom n i v =>
    simp only [World.step, Option.some.injEq, Prod.mk.injEq] at h
    rw [← h.1, conf_sendAll]
    show (w.conf.setAtom n i v (M := M)).1.nodes.map _ = _
    unfold Conf.setAtom; simp only; split <;> rfl
  | setModamt p v =>
    simp only [World.step, Option.some.injEq, Prod.mk.injEq] at h
    rw [← h.1, conf_sendAll]
    show (w.conf.setModamt p v (M := M)).1.nodes.map _ = _
    cases p with
    | atom n i => rfl
    | input n i => simp only [Conf.setModamt]; split <;> rfl
  | sync order es copyOld =>
    simp only [World.step] at h
    cases hb : w.conf.buildProg T a0 w.shared.heap order es with
    | none => simp [hb] at h
    | some r =>
      simp only [hb, Option.map_some, Option.some.injEq, Prod.mk.injEq] at h
      rw [← h.1, conf_send]
      exact ids_buildProg (p := r.2.1) (h' := r.2.2) hw hb
  | monitor n ins outs =>
    simp only [World.step, Option.some.injEq, Prod.mk.injEq] at h
    rw [← h.1, conf_sendAll]; rfl
  | injectMidi ev =>
    simp only [World.step, Option.some.injEq, Prod.mk.injEq] at h
    rw [← h.1, conf_send]; rfl
  | poll =>
    simp only [World.step] at h
    cases hb : w.exec.applyAll w.shared w.queue with
    | none => simp [hb] at h
    | some r =>
      simp only [hb, Option.map_some, Option.some.injEq, Prod.mk.injEq] at h
      rw [← h.1]; rfl
  | process nf =>
    simp only [World.step] at h
    cases hb : w.exec.process run w.shared.heap w.st nf with
    | none => simp [hb] at h
    | some r =>
      simp only [hb, Option.map_some, Option.some.injEq, Prod.mk.injEq] at h
      rw [← h.1]; rfl
  | dropOne =>
    simp only [World.step] at h
    split at h
    · simp only [Option.some.injEq, Prod.mk.injEq] at h; rw [← h.1]; rfl
    · simp only [Option.some.injEq, Prod.mk.injEq] at h; rw [← h.1]; rfl
  | setSlope n =>
    simp only [World.step, Option.some.injEq, Prod.mk.injEq] at h
    rw [← h.1]; rfl

theorem createdFrom_cons (op : EOp N V A M) (ops : List (EOp N V A M)) (l : List N) :
    createdFrom l (op :: ops) = createdFrom (createdFrom l [op]) ops := by
  cases op <;> rfl

/-- The configurator knows the nodes in the order of their creation. -/
theorem ids_ran {T : NodeTable N V A} {a0 : A} {run : σ → CallIn N V A → σ × (Nat → Block V)}
    {w w1 : World N V A M σ} {ops : List (EOp N V A M)} (hr : Ran T a0 run w ops w1) (hw : ConfWF w.conf) :
    w1.conf.ids = createdFrom w.conf.ids ops := by
  induction hr with
  | nil => rfl
  | cons hp hs _ ih => rw [ih (wf_step hw hp hs), ids_step hw hs, ← createdFrom_cons]
  | outside st _ ih => exact ih hw

end HexoDSP.Many
