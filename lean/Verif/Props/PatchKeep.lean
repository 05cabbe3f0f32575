import Verif.Spec.PatchKeep
import Verif.Props.Patch
/-!
# C141: the properties, patterns and block diagrams of a patch

The vocabulary (`propAfter`, `patAfter`, `funAfter`) is in `Verif/Spec/PatchKeep.lean`.
-/

set_option linter.unusedSectionVars false

namespace HexoDSP.PatchKeepProps
open HexoDSP.Patch HexoDSP.EngineSpec HexoDSP.Play
open HexoDSP.Matrix (Matrix Cell Edge MatrixError)
open HexoDSP.Engine
open HexoDSP.PatchProps (exT exE exRun ExS ExOp exS exD exS_reach exD_reach exRunOps reach_ops)

variable {K V A M σ P PR B BR : Type} [DecidableEq K]
variable [Add V] [Mul V] [Sub V] [Div V] [NatCast V] [OfNat V 0]
variable {T : NodeTable (NodeId K) V A} {a0 : A} {run : σ → CallIn (NodeId K) V A → σ × (Nat → Block V)} {E : Env K V A P PR B BR}
variable {s s' : FM K V A M σ P B}

/-- The properties, patterns and diagrams are the same, and no engine is gone. -/
structure Same (E : Env K V A P PR B BR) (s s' : FM K V A M σ P B) : Prop where
  props : ∀ k, s'.getProp k = s.getProp k
  pats : ∀ i, s'.patOf E i = s.patOf E i
  funs : ∀ i, s'.funOf E i = s.funOf E i
  engines : ∀ i ∈ s.engines, i ∈ s'.engines

theorem same_refl (s : FM K V A M σ P B) : Same E s s := ⟨fun _ => rfl, fun _ => rfl, fun _ => rfl, fun _ h => h⟩

theorem call_same {op : EOp (NodeId K) V A M} (h : s.call T a0 run op = some s') : Same E s s' := by
  unfold FM.call at h
  obtain ⟨r, -, rfl⟩ := Option.map_eq_some_iff.1 h
  exact ⟨fun _ => rfl, fun _ => rfl, fun _ => rfl, fun _ h => h⟩

theorem alloc_mem (es : List Nat) (j : Nat) : j ∈ allocEngine es j ∧ ∀ i ∈ es, i ∈ allocEngine es j := by
  unfold allocEngine
  split
  · exact ⟨by assumption, fun _ h => h⟩
  · exact ⟨List.mem_cons_self .., fun _ h => List.mem_cons_of_mem _ h⟩

theorem allocs_mem {α : Type} (f : α → Nat) (l : List α) : ∀ es : List Nat,
    (∀ i ∈ es, i ∈ l.foldl (fun es n => allocEngine es (f n)) es) ∧
    (∀ n ∈ l, f n ∈ l.foldl (fun es n => allocEngine es (f n)) es) := by
  induction l with
  | nil => intro es; exact ⟨fun _ h => h, fun _ h => absurd h (by simp)⟩
  | cons a l ih =>
    intro es
    obtain ⟨h1, h2⟩ := ih (allocEngine es (f a))
    refine ⟨fun i hi => h1 i ((alloc_mem es (f a)).2 i hi), fun n hn => ?_⟩
    rcases List.mem_cons.1 hn with rfl | hn
    · exact h1 _ (alloc_mem es _).1
    · exact h2 n hn

theorem create_same (s : FM K V A M σ P B) : Same E s (s.createNodes E) :=
  ⟨fun _ => rfl, createNodes_pats s, fun _ => rfl, (allocs_mem (fun n : NodeId K => n.inst) _ s.engines).1⟩

theorem sync_engines {r : Except (MatrixError (NodeId K)) Unit} (h : s.sync T a0 run E = some (s', r)) :
    s'.engines = (s.createNodes E).engines := by
  unfold FM.sync at h
  simp only at h
  split at h
  · cases h
  · cases h; rfl
  · obtain ⟨s1, h1, h2⟩ := Option.map_eq_some_iff.1 h
    cases h2
    rw [(remonitor_world (T := T) (a0 := a0) (run := run) s1).2.2.2.2.2]
    unfold FM.call at h1
    obtain ⟨q, -, rfl⟩ := Option.map_eq_some_iff.1 h1
    rfl

theorem sync_same (hg : GridOk s.grid) {r : Except (MatrixError (NodeId K)) Unit} (h : s.sync T a0 run E = some (s', r)) : Same E s s' := by
  have hS := sync_stage hg h
  refine ⟨fun k => ?_, hS.pats, fun i => ?_, fun i hi => ?_⟩
  · unfold FM.getProp; rw [hS.props]
  · unfold FM.funOf; rw [hS.funs]
  · rw [sync_engines h]; exact (create_same s).engines i hi

theorem clear_engines (h : s.clear T a0 run E = some s') : ∀ i ∈ s.engines, i ∈ s'.engines := by
  unfold FM.clear at h
  obtain ⟨s1, h1, h2⟩ := Option.bind_eq_some_iff.1 h
  obtain ⟨⟨s2, r⟩, h3, h4⟩ := Option.map_eq_some_iff.1 h2
  cases h4
  intro i hi
  rw [sync_engines h3]
  apply (create_same _).engines
  unfold FM.call at h1
  obtain ⟨q, -, rfl⟩ := Option.map_eq_some_iff.1 h1
  exact hi

theorem pats_engines (l : List (Option PR × Nat)) : ∀ {s s' : FM K V A M σ P B}, l.foldlM (loadPat E) s = some s' → s'.engines = s.engines := by
  induction l with
  | nil => intro s s' h; cases h; rfl
  | cons e l ih =>
    intro s s' h
    rw [List.foldlM_cons] at h
    obtain ⟨s1, h1, h2⟩ := Option.bind_eq_some_iff.1 h
    rw [ih h2]
    unfold loadPat at h1
    split at h1
    · cases h1; rfl
    · obtain ⟨p, -, rfl⟩ := Option.map_eq_some_iff.1 h1; rfl

theorem funs_engines (l : List (Option BR × Nat)) : ∀ {s s' : FM K V A M σ P B}, l.foldlM (loadFun E) s = some s' →
    (∀ i ∈ s.engines, i ∈ s'.engines) ∧ ∀ r i, (some r, i) ∈ l → i ∈ s'.engines := by
  induction l with
  | nil => intro s s' h; cases h; exact ⟨fun _ h => h, fun _ _ h => absurd h (by simp)⟩
  | cons e l ih =>
    intro s s' h
    rw [List.foldlM_cons] at h
    obtain ⟨s1, h1, h2⟩ := Option.bind_eq_some_iff.1 h
    obtain ⟨i1, i2⟩ := ih h2
    unfold loadFun at h1
    split at h1
    · rename_i he
      cases h1
      refine ⟨i1, fun r i hm => ?_⟩
      rcases List.mem_cons.1 hm with rfl | hm
      · cases he
      · exact i2 r i hm
    · obtain ⟨p, -, rfl⟩ := Option.map_eq_some_iff.1 h1
      refine ⟨fun i hi => i1 i ((alloc_mem _ _).2 i hi), fun r i hm => ?_⟩
      rcases List.mem_cons.1 hm with rfl | hm
      · exact i1 _ (alloc_mem _ _).1
      · exact i2 r i hm

theorem load_engines {r : PatchRepr K V A PR BR} (h : s.load T a0 run E r = some s') :
    (∀ i ∈ s.engines, i ∈ s'.engines) ∧ ∀ i b, r.blockFuns[i]? = some (some b) → i ∈ s'.engines := by
  obtain ⟨s1, e1, o1, -⟩ := loadParams_spec (T := T) (a0 := a0) (run := run) (E := E) base_any.toSets True (decide (r.version > 1)) r.params s
  obtain ⟨s2, e2, o2, -⟩ := loadAtoms_spec (T := T) (a0 := a0) (run := run) base_any.toSets True r.atoms s1
  unfold FM.load at h
  rw [e1] at h
  simp only [Option.bind_some] at h
  rw [e2] at h
  simp only [Option.bind_some] at h
  obtain ⟨s3, h3, h4⟩ := Option.bind_eq_some_iff.1 h
  obtain ⟨j1, j2⟩ := funs_engines _ h4
  have h5 := pats_engines _ h3
  simp only at h5
  refine ⟨fun i hi => j1 i ?_, fun i b hb => j2 b i ?_⟩
  · rw [h5, o2.engines, o1.engines]; exact hi
  · rw [List.mem_zipIdx_iff_getElem?]; exact hb

theorem lookup_inserts (l : List (String × A)) : ∀ (m : List (String × A)) (k : String),
    (l.foldl (fun ps e => Map.insert ps e.1 e.2) m).lookup k = (l.reverse.lookup k).or (m.lookup k) := by
  induction l with
  | nil => intro m k; rfl
  | cons e l ih =>
    intro m k
    rw [List.foldl_cons, ih, lookup_insert, List.reverse_cons, List.lookup_append, List.lookup_cons, List.lookup_nil]
    cases l.reverse.lookup k with
    | some v => rfl
    | none =>
      cases h : k == e.1 with
      | true => simp [eq_of_beq h]
      | false => simp

/-- What a call leaves. -/
structure After (E : Env K V A P PR B BR) (s s' : FM K V A M σ P B) (op : FOp K V A P PR B BR) : Prop where
  props : ∀ k, s'.getProp k = op.propAfter k (s.getProp k)
  pats : ∀ i, op.patAfter E i (s.patOf E i) = some (s'.patOf E i)
  funs : ∀ i, op.funAfter E i (s.funOf E i) = some (s'.funOf E i)
  engines : ∀ i ∈ s.engines, i ∈ s'.engines

theorem after_step (hi : Inv T a0 run s) {op : FOp K V A P PR B BR} {err : Option (MatrixError (NodeId K))}
    (ht : op.Typed) (h : s.step T a0 run E op = some (s', err)) : After E s s' op := by
  have plain : ∀ {op : FOp K V A P PR B BR}, Same E s s' → (∀ k old, op.propAfter k old = old) → (∀ i old, op.patAfter E i old = some old) →
      (∀ i old, op.funAfter E i old = some old) → After E s s' op := fun hs h1 h2 h3 =>
    ⟨fun k => by rw [h1, hs.props], fun i => by rw [h2, hs.pats], fun i => by rw [h3, hs.funs], hs.engines⟩
  have calls : ∀ {op' : EOp (NodeId K) V A M}, (s.call T a0 run op').map (fun s => (s, none)) = some (s', err) → Same E s s' := by
    intro op' h
    obtain ⟨s1, h1, h2⟩ := Option.map_eq_some_iff.1 h
    cases h2; exact call_same h1
  have params : ∀ {op' : EOp (NodeId K) V A M}, (s.setParam T a0 run op').map (fun s => (s, none)) = some (s', err) → Same E s s' := by
    intro op' h
    obtain ⟨s1, h1, h2⟩ := Option.map_eq_some_iff.1 h
    cases h2
    unfold FM.setParam at h1
    obtain ⟨s2, h3, rfl⟩ := Option.map_eq_some_iff.1 h1
    have := call_same (E := E) h3
    exact ⟨this.props, this.pats, this.funs, this.engines⟩
  cases op with
  | place x y c => simp only [FM.step, Option.some.injEq, Prod.mk.injEq] at h; obtain ⟨rfl, -⟩ := h; exact plain ⟨fun _ => rfl, fun _ => rfl, fun _ => rfl, fun _ h => h⟩ (fun _ _ => rfl) (fun _ _ => rfl) (fun _ _ => rfl)
  | placeCell c => simp only [FM.step, Option.some.injEq, Prod.mk.injEq] at h; obtain ⟨rfl, -⟩ := h; exact plain ⟨fun _ => rfl, fun _ => rfl, fun _ => rfl, fun _ h => h⟩ (fun _ _ => rfl) (fun _ _ => rfl) (fun _ _ => rfl)
  | placeMultiple cs =>
    obtain ⟨r, -, h2⟩ := Option.map_eq_some_iff.1 h
    cases h2
    exact plain ⟨fun _ => rfl, fun _ => rfl, fun _ => rfl, fun _ h => h⟩ (fun _ _ => rfl) (fun _ _ => rfl) (fun _ _ => rfl)
  | check =>
    obtain ⟨r, -, h2⟩ := Option.map_eq_some_iff.1 h
    cases h2
    exact plain ⟨fun _ => rfl, fun _ => rfl, fun _ => rfl, fun _ h => h⟩ (fun _ _ => rfl) (fun _ _ => rfl) (fun _ _ => rfl)
  | save => simp only [FM.step, Option.some.injEq, Prod.mk.injEq] at h; obtain ⟨rfl, -⟩ := h; exact plain ⟨fun _ => rfl, fun _ => rfl, fun _ => rfl, fun _ h => h⟩ (fun _ _ => rfl) (fun _ _ => rfl) (fun _ _ => rfl)
  | restore => simp only [FM.step, Option.some.injEq, Prod.mk.injEq] at h; obtain ⟨rfl, -⟩ := h; exact plain ⟨fun _ => rfl, fun _ => rfl, fun _ => rfl, fun _ h => h⟩ (fun _ _ => rfl) (fun _ _ => rfl) (fun _ _ => rfl)
  | sync =>
    obtain ⟨⟨s1, r⟩, h1, h2⟩ := Option.map_eq_some_iff.1 h
    cases h2
    exact plain (sync_same hi.grid h1) (fun _ _ => rfl) (fun _ _ => rfl) (fun _ _ => rfl)
  | clear =>
    obtain ⟨s1, h1, h2⟩ := Option.map_eq_some_iff.1 h
    cases h2
    have hC := clear_stage hi.grid hi.reached h1
    refine ⟨fun k => ?_, fun i => ?_, fun i => ?_, clear_engines h1⟩
    · unfold FM.getProp; rw [hC.props]; rfl
    · rw [hC.pats]; rfl
    · unfold FM.funOf; rw [hC.funs]; rfl
  | setInput n i v => exact plain (params (op' := .setInput n i v) h) (fun _ _ => rfl) (fun _ _ => rfl) (fun _ _ => rfl)
  | setAtom n i a => exact plain (params (op' := .setAtom n i a) h) (fun _ _ => rfl) (fun _ _ => rfl) (fun _ _ => rfl)
  | setModamt p v =>
    refine plain ?_ (fun _ _ => rfl) (fun _ _ => rfl) (fun _ _ => rfl)
    obtain ⟨⟨s1, r⟩, h1, h2⟩ := Option.map_eq_some_iff.1 h
    cases h2
    unfold FM.setModamt at h1
    obtain ⟨s2, h3, h4⟩ := Option.bind_eq_some_iff.1 h1
    have hc := call_same (E := E) h3
    have hgr : s2.grid = s.grid := by
      unfold FM.call at h3
      obtain ⟨q, -, rfl⟩ := Option.map_eq_some_iff.1 h3
      rfl
    split at h4
    · have hs := sync_same (by rw [hgr]; exact hi.grid) h4
      exact ⟨fun k => (hs.props k).trans (hc.props k), fun i => (hs.pats i).trans (hc.pats i),
        fun i => (hs.funs i).trans (hc.funs i), fun i h => hs.engines i (hc.engines i h)⟩
    · cases h4
      exact ⟨hc.props, hc.pats, hc.funs, hc.engines⟩
  | setProp k a =>
    simp only [FM.step, Option.some.injEq, Prod.mk.injEq] at h
    obtain ⟨rfl, -⟩ := h
    refine ⟨fun k' => ?_, fun _ => rfl, fun _ => rfl, fun _ h => h⟩
    unfold FM.getProp FM.setProp FOp.propAfter
    simp only [lookup_insert, beq_iff_eq]
  | monitor c => simp only [FM.step, Option.some.injEq, Prod.mk.injEq] at h; obtain ⟨rfl, -⟩ := h; exact plain ⟨fun _ => rfl, fun _ => rfl, fun _ => rfl, fun _ h => h⟩ (fun _ _ => rfl) (fun _ _ => rfl) (fun _ _ => rfl)
  | toRepr =>
    simp only [FM.step, Option.some.injEq, Prod.mk.injEq] at h
    obtain ⟨rfl, -⟩ := h
    exact plain ⟨fun _ => rfl, fun i => lookup_allocPats _ _ i, fun i => lookup_allocFuns _ _ i, (allocs_mem (fun n : Nat => n) _ s.engines).1⟩ (fun _ _ => rfl) (fun _ _ => rfl) (fun _ _ => rfl)
  | fromRepr r =>
    obtain ⟨⟨s1, q⟩, h1, h2⟩ := Option.map_eq_some_iff.1 h
    cases h2
    unfold FM.fromRepr at h1
    obtain ⟨s2, h3, h4⟩ := Option.bind_eq_some_iff.1 h1
    obtain ⟨s3, h5, h6⟩ := Option.bind_eq_some_iff.1 h4
    have hC := clear_stage hi.grid hi.reached h3
    have hL := load_stage h5
    have hg3 : GridOk s3.grid := (inv_load (inv_clear hi h3) ht h5).grid
    have hS := sync_same hg3 h6
    refine ⟨fun k => ?_, fun i => ?_, fun i => ?_, fun i h => hS.engines i ((load_engines h5).1 i (clear_engines h3 i h))⟩
    · rw [hS.props]
      unfold FM.getProp FOp.propAfter
      rw [hL.props, hC.props, lookup_inserts]
      simp
    · rw [hS.pats]
      unfold FOp.patAfter
      simp only
      rw [← hC.pats]
      split
      · rename_i p hp; exact hL.pat i p hp
      · rename_i hp; rw [hL.patNone i (fun p hq => hp p hq)]
    · rw [hS.funs]
      have hf : s2.funOf E i = s.funOf E i := by unfold FM.funOf; rw [hC.funs]
      unfold FOp.funAfter
      simp only
      rw [← hf]
      split
      · rename_i p hp; exact hL.fn i p hp
      · rename_i hp; rw [hL.fnNone i (fun p hq => hp p hq)]
  | editPat j p =>
    simp only [FM.step, Option.some.injEq, Prod.mk.injEq] at h
    obtain ⟨rfl, -⟩ := h
    refine ⟨fun _ => rfl, fun i => ?_, fun _ => rfl, fun _ h => h⟩
    unfold FM.patOf FOp.patAfter
    simp only [lookup_insert, beq_iff_eq]
    split <;> simp [*]
  | editFun j b =>
    simp only [FM.step, Option.some.injEq, Prod.mk.injEq] at h
    obtain ⟨rfl, -⟩ := h
    refine ⟨fun _ => rfl, fun _ => rfl, fun i => ?_, (alloc_mem _ _).2⟩
    unfold FM.funOf FOp.funAfter
    simp only [lookup_insert, beq_iff_eq]
    split <;> simp [*]
  | poll => exact plain (calls h) (fun _ _ => rfl) (fun _ _ => rfl) (fun _ _ => rfl)
  | process n => exact plain (calls h) (fun _ _ => rfl) (fun _ _ => rfl) (fun _ _ => rfl)
  | dropOne => exact plain (calls h) (fun _ _ => rfl) (fun _ _ => rfl) (fun _ _ => rfl)
  | setSlope n => exact plain (calls (op' := .setSlope n) h) (fun _ _ => rfl) (fun _ _ => rfl) (fun _ _ => rfl)

/-- **C141** What every call does to the properties, to the patterns and to the block diagrams, after any history:
exactly what the small table in `Verif/Spec/PatchKeep.lean` says, also if the call returns an error. -/
theorem kept {Q : FM K V A M σ P B → Prop} (hs : Reach T a0 run E Q s) {op : FOp K V A P PR B BR} (ht : op.Typed)
    {err : Option (MatrixError (NodeId K))} (h : s.step T a0 run E op = some (s', err)) :
    (∀ k, s'.getProp k = op.propAfter k (s.getProp k)) ∧
    (∀ i, op.patAfter E i (s.patOf E i) = some (s'.patOf E i)) ∧
    (∀ i, op.funAfter E i (s.funOf E i) = some (s'.funOf E i)) := by
  have := after_step (reach_inv hs) ht h
  exact ⟨this.props, this.pats, this.funs⟩

/-- **C141** After any calls, one after the other, `get_prop` returns what was stored last: by `set_prop`, or by the patch loaded
last; nothing if the matrix was cleared since. -/
theorem prop_last (ops : List (FOp K V A P PR B BR)) (k : String) : ∀ {s s' : FM K V A M σ P B}, Reach T a0 run E (fun _ => True) s →
    (∀ o ∈ ops, o.Typed) → ops.foldlM (fun s o => (s.step T a0 run E o).map (fun r => r.1)) s = some s' →
    s'.getProp k = ops.foldl (fun v o => o.propAfter k v) (s.getProp k) := by
  induction ops with
  | nil => intro s s' _ _ h; cases h; rfl
  | cons o ops ih =>
    intro s s' hs hq h
    rw [List.foldlM_cons] at h
    obtain ⟨s1, h1, h2⟩ := Option.bind_eq_some_iff.1 h
    obtain ⟨⟨s2, err⟩, h3, rfl⟩ := Option.map_eq_some_iff.1 h1
    have ho := hq o (List.mem_cons_self ..)
    rw [ih (.step hs ho h3 trivial) (fun o ho => hq o (List.mem_cons_of_mem _ ho)) h2, (kept hs ho h3).1 k]
    rfl

/-- **C141** Once there, a code engine stays, whatever is called. -/
theorem engine_stays {Q : FM K V A M σ P B → Prop} (hs : Reach T a0 run E Q s) {op : FOp K V A P PR B BR} (ht : op.Typed)
    {err : Option (MatrixError (NodeId K))} (h : s.step T a0 run E op = some (s', err)) (i : Nat) (hi : i ∈ s.engines) : i ∈ s'.engines :=
  (after_step (reach_inv hs) ht h).engines i hi

/-- **C141** The engine is there after its diagram was asked for, and after a patch with its diagram was loaded. -/
theorem engine_there {op : FOp K V A P PR B BR} {err : Option (MatrixError (NodeId K))} (h : s.step T a0 run E op = some (s', err)) (i : Nat)
    (hop : (∃ b, op = .editFun i b) ∨ ∃ r b, op = .fromRepr r ∧ r.blockFuns[i]? = some (some b)) : i ∈ s'.engines := by
  rcases hop with ⟨b, rfl⟩ | ⟨r, b, rfl, hb⟩
  · simp only [FM.step, Option.some.injEq, Prod.mk.injEq] at h
    obtain ⟨rfl, -⟩ := h
    exact (alloc_mem _ _).1
  · obtain ⟨⟨s1, q⟩, h1, h2⟩ := Option.map_eq_some_iff.1 h
    cases h2
    unfold FM.fromRepr at h1
    obtain ⟨s2, h3, h4⟩ := Option.bind_eq_some_iff.1 h1
    obtain ⟨s3, h5, h6⟩ := Option.bind_eq_some_iff.1 h4
    rw [sync_engines h6]
    exact (create_same _).engines i ((load_engines h5).2 i b hb)

/-- **C141** After a `sync`, with or without an error, every Code node that exists has its engine. -/
theorem engine_of_node {r : Except (MatrixError (NodeId K)) Unit} (h : s.sync T a0 run E = some (s', r)) (n : NodeId K)
    (hn : n ∈ (s.world.conf.createIntermediate s.grid).nodes.map (·.1)) (hc : E.isCode n.kind = true) : n.inst ∈ s'.engines := by
  rw [sync_engines h]
  exact (allocs_mem (fun n : NodeId K => n.inst) _ s.engines).2 n (List.mem_filter.2 ⟨hn, hc⟩)

/-- **C141 (negation)** Neither `clear` nor loading another patch removes a pattern: the one that was edited before is still
there, although the loaded patch does not contain it. -/
theorem old_pattern_stays : ∃ (d d' : ExS) (err : Option (MatrixError (NodeId Bool))), Reach exT 0 exRun exE Room d ∧
    d.step exT 0 exRun exE (.fromRepr (exS.toRepr exE).2) = some (d', err) ∧ err = none ∧ (exS.patOf exE 5 = exE.newPat) ∧ d'.patOf exE 5 = 55 := by
  have h : (exD.step exT 0 exRun exE (.fromRepr (exS.toRepr exE).2)).map (fun r => (decide (r.2 = none), r.1.patOf exE 5)) = some (true, 55) := by
    decide +kernel
  obtain ⟨⟨d', err⟩, h1, h2⟩ := Option.map_eq_some_iff.1 h
  simp only [Prod.mk.injEq, decide_eq_true_eq] at h2
  exact ⟨exD, d', err, exD_reach, h1, h2.1, by decide +kernel, h2.2⟩

/-- A history in which all of this happens. -/
def story : List ExOp := [.setProp "title" 4, .setProp "title" 5, .editPat 3 33, .editFun 40 44, .sync, .setProp "x" 1]

example : ((exRunOps (FM.new 2 3 ()) story).map (fun s => ([s.getProp "title", s.getProp "x", s.getProp "y"], [s.patOf exE 3, s.funOf exE 40], s.engines))) =
    some ([some 5, some 1, none], [33, 44], [40]) := by decide +kernel

example : ((exRunOps (FM.new 2 3 ()) (story ++ [.clear])).map (fun s => (s.getProp "title", [s.patOf exE 3, s.funOf exE 40], s.engines))) =
    some (none, [33, 44], [40]) := by decide +kernel

end HexoDSP.PatchKeepProps
