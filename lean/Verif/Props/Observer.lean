import Verif.Lemmas.Observer
import Verif.Props.Patch
/-!
# An observer that reads again what it is told of shows what is there (C117)

`T`, `a0`, `run` (what the nodes compute), the conversion of parameters, the pattern data and block functions, and the order of iteration over hash maps
are arbitrary.
-/

set_option linter.unusedSectionVars false

namespace HexoDSP.ObserverProps
open HexoDSP.Patch HexoDSP.Observer HexoDSP.EngineSpec
open HexoDSP.Matrix (Matrix Cell Edge MatrixError)
open HexoDSP.Engine
open HexoDSP.PatchProps (exT exE exRun ExS ExOp okOp okOp_ok cell block)

variable {K V A M σ P PR B BR : Type} [DecidableEq K]
variable [Add V] [Mul V] [Sub V] [Div V] [NatCast V] [OfNat V 0]
variable {T : NodeTable (NodeId K) V A} {a0 : A} {run : σ → CallIn (NodeId K) V A → σ × (Nat → Block V)} {E : Env K V A P PR B BR}
variable {ok : FM K V A M σ P B → FOp K V A P PR B BR → Option (MatrixError (NodeId K)) → Prop}
variable {s s' : FM K V A M σ P B} {v : View K V A} {d : Bool}

theorem shows_inv (h : Shows T a0 run E ok s v d) : Inv T a0 run s := by
  induction h with
  | set hr => exact reach_inv hr
  | call _ ht hs _ ih => exact inv_step ih ht (stepN_step hs)
  | outside st _ ih => exact inv_outside ih st

/-- **C117** The calls with notes are the calls of the matrix, and an observer hears of each of them: every call that works has its notes. -/
theorem notes_of_every_call (op : FOp K V A P PR B BR) (err : Option (MatrixError (NodeId K))) :
    s.step T a0 run E op = some (s', err) ↔ ∃ ns, stepN T a0 run E s op = some (s', err, ns) := by
  refine ⟨fun h => ?_, fun ⟨ns, h⟩ => stepN_step h⟩
  cases hn : stepN T a0 run E s op with
  | some r =>
    obtain ⟨a, b, ns⟩ := r
    have := stepN_step hn
    rw [h] at this
    simp only [Option.some.injEq, Prod.mk.injEq] at this
    obtain ⟨rfl, rfl⟩ := this
    exact ⟨ns, rfl⟩
  | none =>
    exfalso
    cases op <;> simp only [stepN, Option.map_eq_none_iff] at hn
    case sync =>
      simp only [syncN, Option.map_eq_none_iff] at hn
      simp [FM.step, hn] at h
    case clear =>
      simp only [FM.step, FM.clear] at h
      obtain ⟨s3, h3, -⟩ := Option.map_eq_some_iff.1 h
      obtain ⟨s1, h1, h2⟩ := Option.bind_eq_some_iff.1 h3
      obtain ⟨q, h4, -⟩ := Option.map_eq_some_iff.1 h2
      simp [clearN, h1, syncN, h4] at hn
    case fromRepr rp =>
      simp only [FM.step] at h
      obtain ⟨⟨s3, r3⟩, h3, -⟩ := Option.map_eq_some_iff.1 h
      obtain ⟨s1, s2, h4, h5, h6⟩ := fromRepr_stages h3
      unfold FM.clear at h4
      obtain ⟨s5, h7, h8⟩ := Option.bind_eq_some_iff.1 h4
      obtain ⟨q, h9, rfl⟩ := Option.map_eq_some_iff.1 h8
      simp [fromReprN, clearN, h7, syncN, h9, h5, h6] at hn
    case setModamt p w =>
      simp only [FM.step, FM.setModamt] at h
      obtain ⟨s3, h3, -⟩ := Option.map_eq_some_iff.1 h
      obtain ⟨s1, h1, h2⟩ := Option.bind_eq_some_iff.1 h3
      unfold setModamtN at hn
      rw [h1, Option.bind_some] at hn
      split at hn
      · rename_i hf
        rw [if_pos hf] at h2
        simp [h2] at hn
      · cases hn
    all_goals
      rw [hn] at h; cases h

/-- **C117** After any calls, the properties shown are those of the matrix, and if no cell was put on the grid after it was last published by `sync`, `clear`
or loading a patch, so are the cells. -/
theorem properties_and_cells_shown (h : Shows T a0 run E ok s v d) : v.prop = s.getProp ∧ (d = false → v.cell = s.grid.get) := by
  induction h with
  | set _ => exact ⟨rfl, fun _ => rfl⟩
  | call h0 ht hs _ ih =>
    have ht := told_step (shows_inv h0) hs
    exact ⟨(ht _).prop ih.1, (ht _).cell _ ih.2⟩
  | outside st _ ih => exact ih

/-- **C117** If no amount that is there is changed to another one, the amounts shown are those of the matrix. Missing from the full statement ("after any
calls"): see `amount_change_untold`. -/
theorem amounts_shown_partial (h : Shows T a0 run E ok s v d) (hok : ∀ s op err, ok s op err → ¬ FOp.Retunes s op) :
    v.amount = s.world.conf.getModamt := by
  induction h with
  | set _ => rfl
  | call h0 _ hs hc ih => exact (told_step (shows_inv h0) hs _).amount ih (hok _ _ _ hc)
  | outside st _ ih => exact ih

/-- **C117** If inputs are not given amounts (and amounts are not taken away), the values of parameters and the monitored cell shown are those of the matrix.
Missing from the full statement ("after any calls"): see `value_untold` and `monitored_untold`. -/
theorem values_and_monitor_shown_partial (h : Shows T a0 run E ok s v d) (hok : ∀ s op err, ok s op err → ¬ FOp.Remodulates s err op) :
    v.value = s.world.conf.getParam ∧ v.monitored = s.monitored := by
  induction h with
  | set _ => exact ⟨rfl, rfl⟩
  | call h0 _ hs hc ih =>
    have ht := told_step (shows_inv h0) hs
    exact ⟨(ht _).value ih.1 (hok _ _ _ hc), (ht _).monitored ih.2 (hok _ _ _ hc)⟩
  | outside st _ ih => exact ih

/-- **C117** The generation never goes back. If a call leaves it as it was, then the properties, values, amounts and cells are as they were too, unless
the call puts cells on the grid (`sync` must follow), or is `set_param_modamt` with an error. Missing from the full statement: see
`generation_misses_amount`. -/
theorem generation_tells_partial {Q : FM K V A M σ P B → Prop} (hs : Reach T a0 run E Q s) {op : FOp K V A P PR B BR} (ht : op.Typed)
    {err : Option (MatrixError (NodeId K))} (h : s.step T a0 run E op = some (s', err)) :
    s.grid.genCounter ≤ s'.grid.genCounter ∧
      (s'.grid.genCounter = s.grid.genCounter → FOp.PutsCells op = false → (∀ p v, op = .setModamt p v → err = none) →
        s'.getProp = s.getProp ∧ s'.world.conf.getParam = s.world.conf.getParam ∧ s'.world.conf.getModamt = s.world.conf.getModamt ∧
        s'.grid.get = s.grid.get) := by
  have hg := gen_step (reach_inv hs) ht h
  refine ⟨hg.le, fun h1 h2 h3 => ?_⟩
  have := hg.same h1 (by rw [h2]; simp) h3
  exact ⟨congrArg View.prop this, congrArg View.value this, congrArg View.amount this, congrArg View.cell this⟩

/-! ## Examples and what is not told -/

/-- One call heard by an observer. -/
def lisStep (q : ExS × View Bool Int Nat × Bool) (op : ExOp) : Option (ExS × View Bool Int Nat × Bool) :=
  if okOp op then (stepN exT 0 exRun exE q.1 op).map (fun r => (r.1, r.2.2.foldl (hear r.1) q.2.1, fresh q.2.2 r.2.1 op)) else none

/-- The observer is set on a new matrix of 2 times 3 cells. -/
def lisRun (ops : List ExOp) : Option (ExS × View Bool Int Nat × Bool) :=
  ops.foldlM lisStep ((FM.new 2 3 (), now (FM.new 2 3 () : ExS), false) : ExS × View Bool Int Nat × Bool)

def Anything (_ : ExS) (_ : ExOp) (_ : Option (MatrixError (NodeId Bool))) : Prop := True

/-- No amounts are set. -/
def NoAmounts (_ : ExS) (op : ExOp) (_ : Option (MatrixError (NodeId Bool))) : Prop := ∀ p v, op ≠ .setModamt p v

theorem shows_fold (okq : ExS → ExOp → Option (MatrixError (NodeId Bool)) → Prop) (ops : List ExOp) (hok : ∀ op ∈ ops, ∀ s e, okq s op e) :
    ∀ {q q' : ExS × View Bool Int Nat × Bool}, Shows exT 0 exRun exE okq q.1 q.2.1 q.2.2 → ops.foldlM lisStep q = some q' →
      Shows exT 0 exRun exE okq q'.1 q'.2.1 q'.2.2 := by
  induction ops with
  | nil => intro q q' h hs; cases hs; exact h
  | cons op ops ih =>
    intro q q' h hs
    rw [List.foldlM_cons] at hs
    obtain ⟨q1, h1, h2⟩ := Option.bind_eq_some_iff.1 hs
    unfold lisStep at h1
    split at h1
    · rename_i hop
      obtain ⟨⟨s2, err, ns⟩, h3, rfl⟩ := Option.map_eq_some_iff.1 h1
      exact ih (fun o ho => hok o (List.mem_cons_of_mem _ ho)) (.call h (okOp_ok hop) h3 (hok op List.mem_cons_self _ _)) h2
    · cases h1

theorem shows_run (okq : ExS → ExOp → Option (MatrixError (NodeId Bool)) → Prop) (ops : List ExOp) (hok : ∀ op ∈ ops, ∀ s e, okq s op e)
    (f : ExS × View Bool Int Nat × Bool → Bool) (h : (lisRun ops).map f = some true) :
    ∃ s v d, Shows exT 0 exRun exE okq s v d ∧ f (s, v, d) = true := by
  obtain ⟨q, h1, h2⟩ := Option.map_eq_some_iff.1 h
  exact ⟨q.1, q.2.1, q.2.2, shows_fold okq ops hok (.set (.new 2 3 ())) h1, h2⟩

/-- **C117** An amount that changes to another one is not told. -/
theorem amount_change_untold : ∃ s v d, Shows exT 0 exRun exE Anything s v d ∧
    v.amount (.input ⟨true, 2⟩ 1) = some 1 ∧ s.world.conf.getModamt (.input ⟨true, 2⟩ 1) = some 2 := by
  obtain ⟨s, v, d, h1, h2⟩ := shows_run Anything [.setModamt (.input ⟨true, 2⟩ 1) (some 1), .setModamt (.input ⟨true, 2⟩ 1) (some 2)] (fun _ _ _ _ => trivial)
    (fun q => decide (q.2.1.amount (.input ⟨true, 2⟩ 1) = some 1) && decide (q.1.world.conf.getModamt (.input ⟨true, 2⟩ 1) = some 2)) (by decide +kernel)
  simp only [Bool.and_eq_true, decide_eq_true_eq] at h2
  exact ⟨s, v, d, h1, h2⟩

def cellA : Cell (NodeId Bool) := cell ⟨true, 0⟩ none none (some 0) none none none
def cellB : Cell (NodeId Bool) := cell ⟨true, 2⟩ none none none (some 1) none none

/-- The monitored cell is replaced, and an input gets an amount. -/
def monOps : List ExOp := [.place 0 0 cellA, .sync, .monitor cellA, .place 0 0 cellB, .setModamt (.input ⟨true, 2⟩ 1) (some 1)]

/-- **C117** Giving an input an amount can change the monitored cell, which is not told: the program is made from the cells on the grid, also those that were
not published. -/
theorem monitored_untold : ∃ s v d, Shows exT 0 exRun exE Anything s v d ∧
    v.monitored.nodeId = some ⟨true, 0⟩ ∧ s.monitored.nodeId = some ⟨true, 2⟩ := by
  obtain ⟨s, v, d, h1, h2⟩ := shows_run Anything monOps (fun _ _ _ _ => trivial)
    (fun q => decide (q.2.1.monitored.nodeId = some ⟨true, 0⟩) && decide (q.1.monitored.nodeId = some ⟨true, 2⟩)) (by decide +kernel)
  simp only [Bool.and_eq_true, decide_eq_true_eq] at h2
  exact ⟨s, v, d, h1, h2⟩

/-- **C117** It can give other parameters a value, and plays cells that the observer does not know of; neither is told. -/
theorem value_untold : ∃ s v d, Shows exT 0 exRun exE Anything s v d ∧
    v.value (.input ⟨true, 2⟩ 0) = none ∧ s.world.conf.getParam (.input ⟨true, 2⟩ 0) = some (.num 100) ∧
    (v.cell 0 0).bind (·.nodeId) = some ⟨true, 0⟩ ∧ (block s).map (fun cs => cs.map (·.node)) = some [⟨true, 2⟩] := by
  obtain ⟨s, v, d, h1, h2⟩ := shows_run Anything monOps (fun _ _ _ _ => trivial)
    (fun q => (decide (q.2.1.value (.input ⟨true, 2⟩ 0) = none) && decide (q.1.world.conf.getParam (.input ⟨true, 2⟩ 0) = some (.num 100))) &&
      (decide ((q.2.1.cell 0 0).bind (·.nodeId) = some ⟨true, 0⟩) && decide ((block q.1).map (fun cs => cs.map (·.node)) = some [⟨true, 2⟩])))
    (by decide +kernel)
  simp only [Bool.and_eq_true, decide_eq_true_eq] at h2
  exact ⟨s, v, d, h1, h2.1.1, h2.1.2, h2.2.1, h2.2.2⟩

/-- A loop: node 0 leads to node 1, which leads to node 0. -/
def loopOps : List ExOp :=
  [.place 0 0 (cell ⟨true, 0⟩ none none (some 0) none none none), .place 0 1 (cell ⟨true, 1⟩ none none (some 0) (some 0) none none),
   .place 0 2 (cell ⟨true, 0⟩ none none none (some 0) none none)]

/-- **C117** With a loop on the grid, giving an input an amount reports the error and leaves the generation as it was, but the amount is there. -/
theorem generation_misses_amount : ∃ s s' : ExS, Reach exT 0 exRun exE (fun _ => True) s ∧
    s.step exT 0 exRun exE (.setModamt (.input ⟨true, 1⟩ 0) (some 1)) = some (s', some .cycleDetected) ∧ s'.grid.genCounter = s.grid.genCounter ∧
    s.world.conf.getModamt (.input ⟨true, 1⟩ 0) = none ∧ s'.world.conf.getModamt (.input ⟨true, 1⟩ 0) = some 1 := by
  have h : ((lisRun loopOps).bind (fun q => (q.1.step exT 0 exRun exE (.setModamt (.input ⟨true, 1⟩ 0) (some 1))).map (fun r =>
      (decide (r.2 = some .cycleDetected) && decide (r.1.grid.genCounter = q.1.grid.genCounter)) &&
      (decide (q.1.world.conf.getModamt (.input ⟨true, 1⟩ 0) = none) && decide (r.1.world.conf.getModamt (.input ⟨true, 1⟩ 0) = some 1))))) = some true := by
    decide +kernel
  obtain ⟨q, h1, h2⟩ := Option.bind_eq_some_iff.1 h
  obtain ⟨⟨s', e⟩, h3, h4⟩ := Option.map_eq_some_iff.1 h2
  simp only [Bool.and_eq_true, decide_eq_true_eq] at h4
  obtain ⟨⟨rfl, h5⟩, h6, h7⟩ := h4
  refine ⟨q.1, s', ?_, h3, h5, h6, h7⟩
  have hreach : ∀ (s : ExS) v d, Shows exT 0 exRun exE Anything s v d → Reach exT 0 exRun exE (fun _ => True) s := by
    intro s v d hs
    induction hs with
    | set hr => exact hr
    | call _ ht hs _ ih => exact .step ih ht (stepN_step hs) trivial
    | outside st _ ih => exact .outside st ih trivial
  exact hreach _ _ _ (shows_fold Anything loopOps (fun _ _ _ _ => trivial) (.set (.new 2 3 ())) h1)

/-- The hypotheses are met: cells, values, a property, a monitored cell; everything is shown. -/
example : ∃ s v d, Shows exT 0 exRun exE NoAmounts s v d ∧
    ((d = false ∧ v.value (.input ⟨true, 0⟩ 0) = some (.num 7)) ∧ v.prop "title" = some 4 ∧ v.monitored.nodeId = some ⟨true, 2⟩ ∧
      (v.cell 0 0).bind (·.nodeId) = some ⟨true, 2⟩) := by
  obtain ⟨s, v, d, h1, h2⟩ := shows_run NoAmounts
    [.place 0 0 cellA, .setInput ⟨true, 0⟩ 0 7, .sync, .setProp "title" 4, .monitor cellA, .place 0 0 cellB, .sync, .poll, .process 4]
    (by intro op ho s e p v; simp only [List.mem_cons, List.not_mem_nil, or_false] at ho; rcases ho with rfl | rfl | rfl | rfl | rfl | rfl | rfl | rfl | rfl <;> simp)
    (fun q => (decide (q.2.2 = false) && decide (q.2.1.value (.input ⟨true, 0⟩ 0) = some (.num 7))) && (decide (q.2.1.prop "title" = some 4) &&
      (decide (q.2.1.monitored.nodeId = some ⟨true, 2⟩) && decide ((q.2.1.cell 0 0).bind (·.nodeId) = some ⟨true, 2⟩)))) (by decide +kernel)
  simp only [Bool.and_eq_true, decide_eq_true_eq] at h2
  exact ⟨s, v, d, h1, h2⟩

example : (∀ s op err, NoAmounts s op err → ¬ FOp.Retunes s op) ∧ ∀ s op err, NoAmounts s op err → ¬ FOp.Remodulates s err op := by
  refine ⟨fun s op err h => ?_, fun s op err h => ?_⟩ <;> cases op <;> first | exact fun hh => hh | exact absurd rfl (h _ _)

end HexoDSP.ObserverProps
