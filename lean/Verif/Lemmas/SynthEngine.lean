import Verif.Lemmas.SynthConstructor
import Verif.Lemmas.Play
/-! The calls of the engine made for a constructed network. -/

set_option linter.unusedSectionVars false

namespace HexoDSP.Synth
open HexoDSP.Table HexoDSP.TableProps
open HexoDSP.EngineSpec HexoDSP.NodeConfProps HexoDSP.Play
open HexoDSP.Engine (World EOp Conf Conn NodeTable Value CallIn Block ConfWF conf_send conf_sendAll)
open HexoDSP.GraphOrdering (Ordering Graph)

variable {V A M σ : Type}
variable [Add V] [Mul V] [Sub V] [Div V] [NatCast V] [OfNat V 0] [DecidableEq V] [DecidableEq A]
variable {T : NodeTable NodeId V A} {a0 : A} {run : σ → CallIn NodeId V A → σ × (Nat → Block V)} {E : Env V A}

/-- Calls of the engine and nothing else happened. -/
structure Moves (T : NodeTable NodeId V A) (a0 : A) (run : σ → CallIn NodeId V A → σ × (Nat → Block V)) (Q : EOp NodeId V A M → Prop)
    (s s' : SC V A M σ) : Prop where
  nodes : s'.nodes = s.nodes
  ordering : s'.ordering = s.ordering
  calls : ∃ cs, s'.calls = s.calls ++ cs ∧ Ran T a0 run s.world cs s'.world ∧ ∀ op ∈ cs, Q op

theorem Moves.refl (Q : EOp NodeId V A M → Prop) (s : SC V A M σ) : Moves T a0 run Q s s :=
  ⟨rfl, rfl, [], by simp, .nil _, by simp⟩

theorem Moves.trans {Q : EOp NodeId V A M → Prop} {s s1 s2 : SC V A M σ} (h : Moves T a0 run Q s s1) (h' : Moves T a0 run Q s1 s2) :
    Moves T a0 run Q s s2 := by
  obtain ⟨a1, a2, cs, a3, a4, a5⟩ := h
  obtain ⟨b1, b2, ds, b3, b4, b5⟩ := h'
  refine ⟨b1.trans a1, b2.trans a2, cs ++ ds, by rw [b3, a3, List.append_assoc], ran_append a4 b4, ?_⟩
  intro op ho
  rcases List.mem_append.1 ho with h | h
  · exact a5 op h
  · exact b5 op h

theorem Moves.weaken {Q Q' : EOp NodeId V A M → Prop} (hq : ∀ op, Q op → Q' op) {s s1 : SC V A M σ} (h : Moves T a0 run Q s s1) :
    Moves T a0 run Q' s s1 := by
  obtain ⟨a1, a2, cs, a3, a4, a5⟩ := h
  exact ⟨a1, a2, cs, a3, a4, fun op ho => hq op (a5 op ho)⟩

/-- A call of the engine that does not panic. -/
theorem call_moves {Q : EOp NodeId V A M → Prop} {s : SC V A M σ} {op : EOp NodeId V A M} {w : World NodeId V A M σ}
    {out : Option (Engine.BlockResult NodeId V A)} (hq : Q op) (hp : Polite s.world op) (h : s.world.step T a0 run op = some (w, out)) :
    s.call T a0 run op = some { s with world := w, calls := s.calls ++ [op] } ∧
    Moves T a0 run Q s { s with world := w, calls := s.calls ++ [op] } := by
  refine ⟨by simp [SC.call, h], rfl, rfl, [op], rfl, .cons hp h (.nil _), ?_⟩
  intro o ho
  rw [List.mem_singleton.1 ho]
  exact hq

/-- The calls make no amount appear or disappear. -/
def Calm (T : NodeTable NodeId V A) (a0 : A) (run : σ → CallIn NodeId V A → σ × (Nat → Block V)) (s s' : SC V A M σ) : Prop :=
  ∃ cs, s'.calls = s.calls ++ cs ∧ Steady T a0 run s.world cs s'.world

theorem Calm.refl (s : SC V A M σ) : Calm T a0 run s s := ⟨[], by simp, .nil _⟩

theorem Calm.trans {s s1 s2 : SC V A M σ} (h : Calm T a0 run s s1) (h' : Calm T a0 run s1 s2) : Calm T a0 run s s2 := by
  obtain ⟨cs, a3, a4⟩ := h
  obtain ⟨ds, b3, b4⟩ := h'
  exact ⟨cs ++ ds, by rw [b3, a3, List.append_assoc], steady_append a4 b4⟩

theorem call_calm {s : SC V A M σ} {op : EOp NodeId V A M} {w : World NodeId V A M σ} {out : Option (Engine.BlockResult NodeId V A)}
    (hq : IsSet op) (hn : NoToggle s.world.conf op) (h : s.world.step T a0 run op = some (w, out)) :
    Calm T a0 run s { s with world := w, calls := s.calls ++ [op] } := ⟨[op], rfl, .cons hq hn h (.nil _)⟩

theorem engineParam_kind (pid : Table.ParamId) :
    (pid.isAtom = false → ∃ n i, engineParam pid = .input n i) ∧ (pid.isAtom = true → ∃ n i, engineParam pid = .atom n i) := by
  constructor
  · intro h; exact ⟨_, _, by simp [engineParam, h]; exact ⟨rfl, rfl⟩⟩
  · intro h; exact ⟨_, _, by simp [engineParam, h]; exact ⟨rfl, rfl⟩⟩

/-- The engine has the value and the modulation amount of a parameter. -/
def Holds (E : Env V A) (c : Conf NodeId V A) (pid : Table.ParamId) (a : A) (ma : Option V) : Prop :=
  getAtom E c pid = some a ∧ (pid.isAtom = false → c.getModamt (engineParam pid) = ma)

/-- The values and amounts are the same. -/
def SameAt (c c' : Conf NodeId V A) (q : Engine.ParamId NodeId) : Prop := c'.getParam q = c.getParam q ∧ c'.getModamt q = c.getModamt q

theorem SameAt.refl (c : Conf NodeId V A) (q : Engine.ParamId NodeId) : SameAt c c q := ⟨rfl, rfl⟩

theorem SameAt.trans {c c1 c2 : Conf NodeId V A} {q : Engine.ParamId NodeId} (h : SameAt c c1 q) (h' : SameAt c1 c2 q) : SameAt c c2 q :=
  ⟨h'.1.trans h.1, h'.2.trans h.2⟩

theorem Holds.same {c c' : Conf NodeId V A} {pid : Table.ParamId} {a : A} {ma : Option V} (h : Holds E c pid a ma)
    (hs : SameAt c c' (engineParam pid)) : Holds E c' pid a ma := by
  refine ⟨?_, fun hp => by rw [hs.2]; exact h.2 hp⟩
  have := h.1
  unfold getAtom at this ⊢
  rw [hs.1]
  exact this

/-- The call `set_param`. -/
theorem setCall_spec (hf : ∀ v, E.f (E.param v) = v) (s : SC V A M σ) (pid : Table.ParamId) (a : A)
    (hv : pid.isAtom = false → ∃ v, a = E.param v) :
    ∃ s1, s.call T a0 run (setCall E pid a) = some s1 ∧ Moves T a0 run IsSet s s1 ∧ getAtom E s1.world.conf pid = some a ∧
      (∀ q, q ≠ engineParam pid → SameAt s.world.conf s1.world.conf q) ∧
      (∀ q, s1.world.conf.getModamt q = s.world.conf.getModamt q) ∧ Calm T a0 run s s1 := by
  cases ha : pid.isAtom with
  | false =>
    obtain ⟨n, i, he⟩ := (engineParam_kind pid).1 ha
    obtain ⟨v, rfl⟩ := hv ha
    have hc : setCall (M := M) E pid (E.param v) = .setInput n i v := by simp [setCall, he, hf]
    rw [hc]
    obtain ⟨w', hs, hcf⟩ := step_setInput (T := T) (a0 := a0) (run := run) s.world n i v
    obtain ⟨h1, h2⟩ := call_moves (Q := IsSet) (show IsSet (EOp.setInput n i v : EOp NodeId V A M) from trivial) trivial hs
    refine ⟨_, h1, h2, ?_, ?_, ?_, call_calm trivial trivial hs⟩
    · simp only [hcf, getAtom, he, getParam_setInput]; simp
    · intro q hq
      rw [he] at hq
      exact ⟨by simp only [hcf]; rw [getParam_setInput, if_neg hq], by simp only [hcf]; rw [getModamt_setInput]⟩
    · intro q; simp only [hcf]; rw [getModamt_setInput]
  | true =>
    obtain ⟨n, i, he⟩ := (engineParam_kind pid).2 ha
    have hc : setCall (M := M) E pid a = .setAtom n i a := by simp [setCall, he]
    rw [hc]
    obtain ⟨w', hs, hcf⟩ := step_setAtom (T := T) (a0 := a0) (run := run) s.world n i a
    obtain ⟨h1, h2⟩ := call_moves (Q := IsSet) (show IsSet (EOp.setAtom n i a : EOp NodeId V A M) from trivial) trivial hs
    refine ⟨_, h1, h2, ?_, ?_, ?_, call_calm trivial trivial hs⟩
    · simp only [hcf, getAtom, he, getParam_setAtom]; simp
    · intro q hq
      rw [he] at hq
      exact ⟨by simp only [hcf]; rw [getParam_setAtom, if_neg hq], by simp only [hcf]; rw [getModamt_setAtom]⟩
    · intro q; simp only [hcf]; rw [getModamt_setAtom]

/-- `set_param_modamt`: the result tells whether an amount was there before or is not there now. -/
theorem setModamt_need (c : Conf NodeId V A) (n : NodeId) (i : Nat) (v : Option V) :
    (c.setModamt (M := M) (.input n i) v).2.2 = !((c.getModamt (.input n i)).isSome && v.isSome) := by
  unfold Conf.setModamt Conf.getModamt
  simp only
  cases (c.paramModamt.lookup (n, i)).join <;> cases v <;> rfl

theorem modCall_spec (s : SC V A M σ) (n : NodeId) (i : Nat) (v : Option V) :
    ∃ s1, s.call T a0 run (.setModamt (.input n i) v) = some s1 ∧ Moves T a0 run IsSet s s1 ∧
      s1.world.conf.getModamt (.input n i) = v ∧ (∀ q, s1.world.conf.getParam q = s.world.conf.getParam q) ∧
      (∀ q, q ≠ .input n i → SameAt s.world.conf s1.world.conf q) ∧
      ((s.world.conf.getModamt (.input n i)).isSome = v.isSome → Calm T a0 run s s1) := by
  obtain ⟨w', hs, hcf⟩ := step_setModamt (T := T) (a0 := a0) (run := run) s.world (.input n i) v
  obtain ⟨h1, h2⟩ := call_moves (Q := IsSet) (show IsSet (EOp.setModamt (.input n i) v : EOp NodeId V A M) from trivial) trivial hs
  refine ⟨_, h1, h2, ?_, ?_, ?_, fun hn => call_calm trivial hn hs⟩
  · simp only [hcf]; rw [getModamt_setModamt, if_pos rfl]
  · intro q; simp only [hcf]; rw [getParam_setModamt]
  · intro q hq
    exact ⟨by simp only [hcf]; rw [getParam_setModamt], by simp only [hcf]; rw [getModamt_setModamt, if_neg hq]⟩

/-- One parameter is brought up to date. The result: an amount appeared or disappeared. -/
theorem updateParam_spec (hf : ∀ v, E.f (E.param v) = v) (s : SC V A M σ) (id : NodeId) (name : String) (pid : Table.ParamId) (a : A)
    (ma : Option V) (hp : id.inpParam name = some pid) (hv : pid.isAtom = false → ∃ v, a = E.param v) :
    ∃ s', updateParam T a0 run E s id name a ma =
        some (s', .ok (!pid.isAtom && ((s.world.conf.getModamt (engineParam pid)).isSome != ma.isSome))) ∧
      Moves T a0 run IsSet s s' ∧ Holds E s'.world.conf pid a ma ∧ (∀ q, q ≠ engineParam pid → SameAt s.world.conf s'.world.conf q) ∧
      ((!pid.isAtom && ((s.world.conf.getModamt (engineParam pid)).isSome != ma.isSome)) = false → Calm T a0 run s s') := by
  unfold updateParam
  simp only [hp]
  cases ha : pid.isAtom with
  | true =>
    simp only [Bool.not_true, Bool.false_and, Bool.or_false, bne_iff_ne, ne_eq]
    by_cases hg : getAtom E s.world.conf pid = some a
    · rw [if_neg (not_not.2 hg)]
      exact ⟨s, rfl, .refl _ _, ⟨hg, fun h => by simp [ha] at h⟩, fun q _ => .refl _ _, fun _ => .refl _⟩
    · rw [if_pos hg]
      obtain ⟨s1, h1, h2, h3, h4, h5, h6⟩ := setCall_spec (T := T) (a0 := a0) (run := run) hf s pid a hv
      rw [h1]
      exact ⟨s1, rfl, h2, ⟨h3, fun h => by simp [ha] at h⟩, h4, fun _ => h6⟩
  | false =>
    obtain ⟨n, i, he⟩ := (engineParam_kind pid).1 ha
    simp only [Bool.not_false, Bool.true_and]
    by_cases hm : s.world.conf.getModamt (engineParam pid) = ma
    · have hmb : (s.world.conf.getModamt (engineParam pid) != ma) = false := by simpa using hm
      simp only [hmb, Bool.or_false, bne_iff_ne, ne_eq, Bool.false_eq_true, if_false]
      rw [hm]
      by_cases hg : getAtom E s.world.conf pid = some a
      · rw [if_neg (not_not.2 hg)]
        exact ⟨s, by simp, .refl _ _, ⟨hg, fun _ => hm⟩, fun q _ => .refl _ _, fun _ => .refl _⟩
      · rw [if_pos hg]
        obtain ⟨s1, h1, h2, h3, h4, h5, h6⟩ := setCall_spec (T := T) (a0 := a0) (run := run) hf s pid a hv
        rw [h1]
        exact ⟨s1, by simp, h2, ⟨h3, fun _ => by rw [h5, hm]⟩, h4, fun _ => h6⟩
    · have hmb : (s.world.conf.getModamt (engineParam pid) != ma) = true := by simpa using hm
      simp only [hmb, Bool.or_true, if_true]
      obtain ⟨s1, h1, h2, h3, h4, h5, h6⟩ := setCall_spec (T := T) (a0 := a0) (run := run) hf s pid a hv
      rw [h1]
      simp only [he]
      obtain ⟨s2, k1, k2, k3, k4, k5, k6⟩ := modCall_spec (T := T) (a0 := a0) (run := run) s1 n i ma
      rw [k1]
      refine ⟨s2, ?_, h2.trans k2, ⟨?_, fun _ => by rw [he]; exact k3⟩, ?_, ?_⟩
      · simp only [Option.map_some, setModamt_need]
        rw [h5]
        rw [he] at hm
        cases hx : s.world.conf.getModamt (.input n i) <;> cases ma <;> simp_all
      · unfold getAtom at h3 ⊢
        rw [k4]; exact h3
      · intro q hq
        exact (h4 q (by rw [he]; exact hq)).trans (k5 q hq)
      · intro hb
        refine h6.trans (k6 ?_)
        rw [h5]
        simpa using hb

/-- Parameters of one node are brought up to date. -/
theorem updateParams_spec (hf : ∀ v, E.f (E.param v) = v) (id : NodeId) : ∀ (ps : List (String × (A × Option V))) (s : SC V A M σ) (b : Bool),
    (ps.map (·.1)).Nodup →
    (∀ e ∈ ps, ∃ pid, id.inpParam e.1 = some pid ∧ (pid.isAtom = false → ∃ v, e.2.1 = E.param v)) →
    ∃ s' b', updateParams T a0 run E id ps s b = some (s', .ok (b || b')) ∧ Moves T a0 run IsSet s s' ∧
      (∀ e ∈ ps, ∀ pid, id.inpParam e.1 = some pid → Holds E s'.world.conf pid e.2.1 e.2.2) ∧
      (∀ q, (∀ e ∈ ps, ∀ pid, id.inpParam e.1 = some pid → q ≠ engineParam pid) → SameAt s.world.conf s'.world.conf q) ∧
      (b' = true ↔ ∃ e ∈ ps, ∃ pid, id.inpParam e.1 = some pid ∧ pid.isAtom = false ∧
        (s.world.conf.getModamt (engineParam pid)).isSome ≠ e.2.2.isSome) ∧ (b' = false → Calm T a0 run s s') := by
  intro ps
  induction ps with
  | nil => intro s b _ _; exact ⟨s, false, by simp [updateParams], .refl _ _, by simp, fun q _ => .refl _ _, by simp, fun _ => .refl _⟩
  | cons e ps ih =>
    intro s b hn hk
    obtain ⟨name, a, ma⟩ := e
    rw [List.map_cons, List.nodup_cons] at hn
    obtain ⟨pid, hp, hv⟩ := hk _ List.mem_cons_self
    obtain ⟨s1, h1, h2, h3, h4, h6⟩ := updateParam_spec (T := T) (a0 := a0) (run := run) hf s id name pid a ma hp hv
    obtain ⟨s2, b2, k1, k2, k3, k4, k5, k6⟩ := ih s1 (b || (!pid.isAtom && ((s.world.conf.getModamt (engineParam pid)).isSome != ma.isSome))) hn.2
      (fun e he => hk e (List.mem_cons_of_mem _ he))
    have hother : ∀ e ∈ ps, ∀ pid', id.inpParam e.1 = some pid' → engineParam pid' ≠ engineParam pid := by
      intro e he pid' hp' hc
      have := (engineParam_inj hp' hp hc).2
      exact hn.1 (List.mem_map.2 ⟨e, he, this⟩)
    refine ⟨s2, (!pid.isAtom && ((s.world.conf.getModamt (engineParam pid)).isSome != ma.isSome)) || b2, ?_, h2.trans k2, ?_, ?_, ?_, ?_⟩
    · simp only [updateParams]
      rw [h1]
      simp only
      rw [k1, Bool.or_assoc]
    · intro e he pid' hp'
      rcases List.mem_cons.1 he with rfl | he
      · have : pid' = pid := by rw [hp] at hp'; exact (Option.some.inj hp').symm
        subst this
        exact h3.same (k4 _ (fun e he q hq hc => hother e he q hq hc.symm))
      · exact k3 e he pid' hp'
    · intro q hq
      exact (h4 q (hq _ List.mem_cons_self pid hp)).trans (k4 q (fun e he => hq e (List.mem_cons_of_mem _ he)))
    · rw [Bool.or_eq_true, k5]
      constructor
      · rintro (h | ⟨e, he, pid', hp', ha, hne⟩)
        · simp only [Bool.and_eq_true, Bool.not_eq_true', bne_iff_ne, ne_eq] at h
          exact ⟨_, List.mem_cons_self, pid, hp, h.1, h.2⟩
        · refine ⟨e, List.mem_cons_of_mem _ he, pid', hp', ha, ?_⟩
          rw [(h4 _ (hother e he pid' hp')).2] at hne
          exact hne
      · rintro ⟨e, he, pid', hp', ha, hne⟩
        rcases List.mem_cons.1 he with rfl | he
        · have : pid' = pid := by rw [hp] at hp'; exact (Option.some.inj hp').symm
          subst this
          left
          simp only [Bool.and_eq_true, Bool.not_eq_true', bne_iff_ne, ne_eq]
          exact ⟨ha, hne⟩
        · right
          refine ⟨e, he, pid', hp', ha, ?_⟩
          rw [(h4 _ (hother e he pid' hp')).2]
          exact hne
    · intro hb
      rw [Bool.or_eq_false_iff] at hb
      exact (h6 hb.1).trans (k6 hb.2)

end HexoDSP.Synth
