import Verif.Lemmas.PatchInv
import Verif.Spec.Observer
import Verif.Props.NodeConf
import Verif.Lemmas.Play
/-!
# Lemmas on the observer
-/

set_option linter.unusedSectionVars false

namespace HexoDSP.Observer
open HexoDSP.Patch HexoDSP.EngineSpec
open HexoDSP.Matrix (Matrix Cell Edge MatrixError SameGrid)
open HexoDSP.Engine

variable {K V A M σ P PR B BR : Type} [DecidableEq K]
variable [Add V] [Mul V] [Sub V] [Div V] [NatCast V] [OfNat V 0]
variable {T : NodeTable (NodeId K) V A} {a0 : A} {run : σ → CallIn (NodeId K) V A → σ × (Nat → Block V)} {E : Env K V A P PR B BR}
variable {s s' : FM K V A M σ P B} {r : Except (MatrixError (NodeId K)) Unit} {err : Option (MatrixError (NodeId K))} {ns : List (Note K)}

theorem syncN_sync (h : syncN T a0 run E s = some (s', r, ns)) : s.sync T a0 run E = some (s', r) ∧
    (∀ e, r = .error e → ns = []) ∧ (r = .ok () → ns = remonitorNotes s ++ [.matrix]) := by
  unfold syncN at h
  obtain ⟨⟨a, b⟩, h1, h2⟩ := Option.map_eq_some_iff.1 h
  simp only [Prod.mk.injEq] at h2
  obtain ⟨rfl, rfl, rfl⟩ := h2
  exact ⟨h1, by rintro e rfl; rfl, by rintro rfl; rfl⟩

theorem clearN_clear (h : clearN T a0 run E s = some (s', ns)) : s.clear T a0 run E = some s' ∧ ∃ l, ns = l ++ [.all] := by
  unfold clearN at h
  obtain ⟨s1, h1, h2⟩ := Option.bind_eq_some_iff.1 h
  obtain ⟨⟨a, b, c⟩, h3, h4⟩ := Option.map_eq_some_iff.1 h2
  simp only [Prod.mk.injEq] at h4
  obtain ⟨rfl, rfl⟩ := h4
  refine ⟨?_, _, rfl⟩
  unfold FM.clear
  rw [h1, Option.bind_some, (syncN_sync h3).1]
  rfl

theorem fromReprN_fromRepr {rp : PatchRepr K V A PR BR} (h : fromReprN T a0 run E s rp = some (s', r, ns)) :
    s.fromRepr T a0 run E rp = some (s', r) ∧ ∃ l, ns = l ++ [.all] := by
  unfold fromReprN at h
  obtain ⟨⟨s1, n1⟩, h1, h2⟩ := Option.bind_eq_some_iff.1 h
  obtain ⟨s2, h3, h4⟩ := Option.bind_eq_some_iff.1 h2
  obtain ⟨⟨a, b, c⟩, h5, h6⟩ := Option.map_eq_some_iff.1 h4
  simp only [Prod.mk.injEq] at h6
  obtain ⟨rfl, rfl, rfl⟩ := h6
  refine ⟨?_, _, rfl⟩
  unfold FM.fromRepr
  rw [(clearN_clear h1).1, Option.bind_some, h3, Option.bind_some, (syncN_sync h5).1]

theorem setModamtN_setModamt {p : Engine.ParamId (NodeId K)} {v : Option V} (h : setModamtN T a0 run E s p v = some (s', r, ns)) :
    s.setModamt T a0 run E p v = some (s', r) ∧ ns = if (s.world.conf.setModamt (M := M) p v).2.2 then [.param p] else [] := by
  unfold setModamtN at h
  obtain ⟨s1, h1, h2⟩ := Option.bind_eq_some_iff.1 h
  unfold FM.setModamt
  rw [h1, Option.bind_some]
  split at h2
  · rename_i hb
    obtain ⟨⟨a, b⟩, h3, h4⟩ := Option.map_eq_some_iff.1 h2
    simp only [Prod.mk.injEq] at h4
    obtain ⟨rfl, rfl, rfl⟩ := h4
    simp [hb, h3]
  · rename_i hb
    simp only [Option.some.injEq, Prod.mk.injEq] at h2
    obtain ⟨rfl, rfl, rfl⟩ := h2
    simp [hb]

/-- The calls with notes are the calls. -/
theorem stepN_step {op : FOp K V A P PR B BR} (h : stepN T a0 run E s op = some (s', err, ns)) : s.step T a0 run E op = some (s', err) := by
  cases op <;> simp only [stepN] at h
  case sync =>
    obtain ⟨⟨a, b, c⟩, h1, h2⟩ := Option.map_eq_some_iff.1 h
    simp only [Prod.mk.injEq] at h2
    obtain ⟨rfl, rfl, -⟩ := h2
    simp [FM.step, (syncN_sync h1).1]
  case clear =>
    obtain ⟨⟨a, b⟩, h1, h2⟩ := Option.map_eq_some_iff.1 h
    simp only [Prod.mk.injEq] at h2
    obtain ⟨rfl, rfl, -⟩ := h2
    simp [FM.step, (clearN_clear h1).1]
  case fromRepr rp =>
    obtain ⟨⟨a, b, c⟩, h1, h2⟩ := Option.map_eq_some_iff.1 h
    simp only [Prod.mk.injEq] at h2
    obtain ⟨rfl, rfl, -⟩ := h2
    simp [FM.step, (fromReprN_fromRepr h1).1]
  case setModamt p v =>
    obtain ⟨⟨a, b, c⟩, h1, h2⟩ := Option.map_eq_some_iff.1 h
    simp only [Prod.mk.injEq] at h2
    obtain ⟨rfl, rfl, -⟩ := h2
    simp [FM.step, (setModamtN_setModamt h1).1]
  all_goals
    obtain ⟨⟨a, b⟩, h1, h2⟩ := Option.map_eq_some_iff.1 h
    simp only [Prod.mk.injEq] at h2
    obtain ⟨rfl, rfl, -⟩ := h2
    exact h1

/-- What `sync` changes of the things shown. -/
structure SyncEff (s s' : FM K V A M σ P B) (r : Except (MatrixError (NodeId K)) Unit) : Prop where
  props : s'.props = s.props
  get : s'.grid.get = s.grid.get
  amount : s'.world.conf.getModamt = s.world.conf.getModamt
  ok : r = .ok () → s'.grid.genCounter = s.grid.genCounter + 1 ∧
    s'.monitored = (s.grid.get s.monitored.x s.monitored.y).getD s.monitored
  err : r ≠ .ok () → s'.grid.genCounter = s.grid.genCounter ∧ s'.monitored = s.monitored ∧ s'.world.conf.getParam = s.world.conf.getParam

theorem sync_eff (hi : Inv T a0 run s) (h : s.sync T a0 run E = some (s', r)) : SyncEff s s' r := by
  have hS := sync_stage hi.grid h
  have hK := (kept_sync hi.grid hi.reached h).1
  obtain ⟨-, hT, -⟩ := createNodes_way (T := T) (a0 := a0) (run := run) (E := E) base_any hi.grid hi.reached True
  refine ⟨hS.props, by funext x y; exact hS.same.get x y, funext hK.amt, ?_, ?_⟩
  · intro hr
    subst hr
    obtain ⟨g, r0, hs, hsame, -, -, hres⟩ := Matrix.sync_spec hi.grid.wfs.toWF hS.cap
    unfold FM.sync at h
    have hgr : (s.createNodes E).grid = s.grid := rfl
    simp only [hgr, hs] at h
    rcases hres with ⟨hl, rfl, -⟩ | ⟨hl, hgen, L, rfl, -⟩
    · simp at h
    · simp only at h
      obtain ⟨s3, h3, h4⟩ := Option.map_eq_some_iff.1 h
      simp only [Prod.mk.injEq, and_true] at h4
      subst h4
      simp only [FM.call] at h3
      obtain ⟨⟨w2, out⟩, h5, rfl⟩ := Option.map_eq_some_iff.1 h3
      refine ⟨?_, ?_⟩
      · rw [(remonitor_world (T := T) (a0 := a0) (run := run) _).2.1]; exact hgen
      · have hmon : (s.createNodes E).monitored = s.monitored := rfl
        unfold FM.remonitor
        simp only [hmon, hsame.get]
        cases s.grid.get s.monitored.x s.monitored.y <;> rfl
  · intro hr
    rcases hS.result with ⟨-, -, hw⟩ | ⟨-, hok, -⟩
    · obtain ⟨g, r0, hs, hsame, -, -, hres⟩ := Matrix.sync_spec hi.grid.wfs.toWF hS.cap
      unfold FM.sync at h
      have hgr : (s.createNodes E).grid = s.grid := rfl
      simp only [hgr, hs] at h
      rcases hres with ⟨hl, rfl, hgen⟩ | ⟨hl, hgen, L, rfl, -⟩
      · simp only [Option.some.injEq, Prod.mk.injEq] at h
        obtain ⟨rfl, rfl⟩ := h
        exact ⟨hgen, rfl, funext hT.param⟩
      · simp only at h
        obtain ⟨s3, h3, h4⟩ := Option.map_eq_some_iff.1 h
        simp only [Prod.mk.injEq] at h4
        exact absurd h4.2.symm hr
    · exact absurd hok hr

/-- What a call of the configurator leaves alone. -/
theorem call_frame {op : EOp (NodeId K) V A M} (h : s.call T a0 run op = some s') :
    s'.grid = s.grid ∧ s'.props = s.props ∧ s'.monitored = s.monitored ∧ ∃ out, s.world.step T a0 run op = some (s'.world, out) := by
  unfold FM.call at h
  obtain ⟨⟨w, out⟩, h1, rfl⟩ := Option.map_eq_some_iff.1 h
  exact ⟨rfl, rfl, rfl, out, h1⟩

theorem conf_play {op : EOp (NodeId K) V A M} {w w' : World (NodeId K) V A M σ} {out} (h : w.step T a0 run op = some (w', out))
    (ho : op = .poll ∨ (∃ n, op = .process n) ∨ op = .dropOne ∨ ∃ n, op = .setSlope n) : w'.conf = w.conf := by
  rcases ho with rfl | ⟨n, rfl⟩ | rfl | ⟨n, rfl⟩
  · simp only [World.step] at h
    obtain ⟨a, -, h2⟩ := Option.map_eq_some_iff.1 h
    simp only [Prod.mk.injEq] at h2
    rw [← h2.1]
  · simp only [World.step] at h
    obtain ⟨a, -, h2⟩ := Option.map_eq_some_iff.1 h
    simp only [Prod.mk.injEq] at h2
    rw [← h2.1]
  · simp only [World.step] at h
    split at h <;> simp only [Option.some.injEq, Prod.mk.injEq] at h <;> rw [← h.1]
  · simp only [World.step, Option.some.injEq, Prod.mk.injEq] at h
    rw [← h.1]

/-- What `set_param_modamt` changes. -/
structure AmtEff (s s' : FM K V A M σ P B) (p : Engine.ParamId (NodeId K)) (v : Option V) (r : Except (MatrixError (NodeId K)) Unit) : Prop where
  props : s'.props = s.props
  get : s'.grid.get = s.grid.get
  other : ∀ q, q ≠ p → s'.world.conf.getModamt q = s.world.conf.getModamt q
  atom : ∀ n i, p = .atom n i → s'.world.conf.getModamt p = s.world.conf.getModamt p
  rest : ((s.world.conf.setModamt (M := M) p v).2.2 = false ∨ r ≠ .ok ()) →
    s'.monitored = s.monitored ∧ s'.world.conf.getParam = s.world.conf.getParam
  gen : s.grid.genCounter ≤ s'.grid.genCounter ∧ (r = .ok () → s.grid.genCounter < s'.grid.genCounter)

theorem setModamt_flag (c : Conf (NodeId K) V A) (p : Engine.ParamId (NodeId K)) (v : Option V) :
    (c.setModamt (M := M) p v).2.2 = true ↔ ∃ n i, p = .input n i ∧ ¬ ((c.getModamt p).isSome ∧ v.isSome) := by
  cases p with
  | atom n i => simp [Conf.setModamt]
  | input n i =>
    simp only [Conf.setModamt, Conf.getModamt]
    cases (List.lookup (n, i) c.paramModamt).join <;> cases v <;> simp

theorem amt_eff (hi : Inv T a0 run s) {p : Engine.ParamId (NodeId K)} {v : Option V} (h : s.setModamt T a0 run E p v = some (s', r)) :
    AmtEff s s' p v r := by
  unfold FM.setModamt at h
  obtain ⟨s1, h1, h2⟩ := Option.bind_eq_some_iff.1 h
  obtain ⟨g1, p1, m1, out, hw⟩ := call_frame h1
  have hi1 : Inv T a0 run s1 := by
    refine ⟨by rw [g1]; exact hi.grid, ?_, by rw [p1]; exact hi.props⟩
    exact reached_step (op := .setModamt p v) hi.reached trivial hw
  obtain ⟨w', hw', hc⟩ := Play.step_setModamt (T := T) (a0 := a0) (run := run) s.world p v
  rw [hw'] at hw
  simp only [Option.some.injEq, Prod.mk.injEq] at hw
  rw [hw.1] at hc
  have hother : ∀ q, q ≠ p → s1.world.conf.getModamt q = s.world.conf.getModamt q := by
    intro q hq
    rw [hc]
    cases p with
    | atom n i => rfl
    | input n i => rw [NodeConfProps.getModamt_setModamt, if_neg hq]
  have hatom : ∀ n i, p = .atom n i → s1.world.conf.getModamt p = s.world.conf.getModamt p := by
    rintro n i rfl; rfl
  have hpar : s1.world.conf.getParam = s.world.conf.getParam := by
    funext q; rw [hc, Play.getParam_setModamt]
  split at h2
  · rename_i hb
    have he := sync_eff hi1 h2
    refine ⟨he.props.trans p1, he.get.trans (by rw [g1]), fun q hq => by rw [he.amount, hother q hq], fun n i hp => by rw [he.amount, hatom n i hp], ?_, ?_⟩
    · rintro (hf | hr)
      · rw [hb] at hf; cases hf
      · exact ⟨(he.err hr).2.1.trans m1, (he.err hr).2.2.trans hpar⟩
    · by_cases hr : r = .ok ()
      · have := (he.ok hr).1; rw [g1] at this; omega
      · have := (he.err hr).1; rw [g1] at this
        exact ⟨by omega, fun hh => absurd hh hr⟩
  · simp only [Option.some.injEq, Prod.mk.injEq] at h2
    obtain ⟨rfl, rfl⟩ := h2
    refine ⟨p1, by funext x y; show Matrix.get s1.grid x y = _; rw [g1], hother, hatom, fun _ => ⟨m1, hpar⟩, ?_⟩
    show s.grid.genCounter ≤ s1.grid.genCounter + 1 ∧ (_ → s.grid.genCounter < s1.grid.genCounter + 1)
    rw [g1]; omega

theorem errOf_none : errOf r = none ↔ r = .ok () := by
  cases r with
  | ok u => simp [errOf]
  | error e => simp [errOf]

theorem hear_all (l : List (Note K)) (v : View K V A) : (l ++ [Note.all]).foldl (hear s) v = now s := by
  rw [List.foldl_append]; rfl

/-- What a call does to what is shown. -/
structure Told (s s' : FM K V A M σ P B) (op : FOp K V A P PR B BR) (err : Option (MatrixError (NodeId K))) (v v' : View K V A) : Prop where
  prop : v.prop = s.getProp → v'.prop = s'.getProp
  monitored : v.monitored = s.monitored → ¬ FOp.Remodulates s err op → v'.monitored = s'.monitored
  value : v.value = s.world.conf.getParam → ¬ FOp.Remodulates s err op → v'.value = s'.world.conf.getParam
  amount : v.amount = s.world.conf.getModamt → ¬ FOp.Retunes s op → v'.amount = s'.world.conf.getModamt
  cell : ∀ d, (d = false → v.cell = s.grid.get) → fresh d err op = false → v'.cell = s'.grid.get

theorem told_now (op : FOp K V A P PR B BR) (err : Option (MatrixError (NodeId K))) (v : View K V A) : Told s s' op err v (now s') :=
  ⟨fun _ => rfl, fun _ _ => rfl, fun _ _ => rfl, fun _ _ => rfl, fun _ _ _ => rfl⟩

/-- Nothing that is shown changes, but for cells that wait for being published. -/
theorem told_same {op : FOp K V A P PR B BR} (v : View K V A) (hp : s'.props = s.props) (hm : s'.monitored = s.monitored)
    (hv : s'.world.conf.getParam = s.world.conf.getParam) (ha : s'.world.conf.getModamt = s.world.conf.getModamt)
    (hc : ∀ d, fresh d err op = false → d = false ∧ s'.grid.get = s.grid.get) : Told s s' op err v v := by
  refine ⟨fun h => ?_, fun h _ => by rw [hm, h], fun h _ => by rw [hv, h], fun h _ => by rw [ha, h], fun d h hf => ?_⟩
  · rw [h]; funext k; unfold FM.getProp; rw [hp]
  · rw [(hc d hf).2]; exact h (hc d hf).1

theorem getProp_insert (k : String) (a : A) (j : String) : (s.setProp k a).getProp j = if j = k then some a else s.getProp j := by
  unfold FM.getProp FM.setProp
  simp only [lookup_insert, beq_iff_eq]

theorem told_step (hi : Inv T a0 run s) {op : FOp K V A P PR B BR} (h : stepN T a0 run E s op = some (s', err, ns)) (v : View K V A) :
    Told s s' op err v (ns.foldl (hear s') v) := by
  have hrest : ∀ (o : FOp K V A P PR B BR) (n : List (Note K)), (s.step T a0 run E o).map (fun r => (r.1, r.2, n)) = some (s', err, ns) →
      s.step T a0 run E o = some (s', err) ∧ ns = n := by
    intro o n ho
    obtain ⟨⟨a, b⟩, h1, h2⟩ := Option.map_eq_some_iff.1 ho
    simp only [Prod.mk.injEq] at h2
    obtain ⟨rfl, rfl, rfl⟩ := h2
    exact ⟨h1, rfl⟩
  have haudio : ∀ (o : EOp (NodeId K) V A M), (o = .poll ∨ (∃ n, o = .process n) ∨ o = .dropOne ∨ ∃ n, o = .setSlope n) →
      (s.call T a0 run o).map (fun s => (s, (none : Option (MatrixError (NodeId K))))) = some (s', err) →
      s'.props = s.props ∧ s'.monitored = s.monitored ∧ s'.world.conf.getParam = s.world.conf.getParam ∧
      s'.world.conf.getModamt = s.world.conf.getModamt ∧ s'.grid = s.grid := by
    intro o ho hc
    obtain ⟨s1, h1, h2⟩ := Option.map_eq_some_iff.1 hc
    simp only [Prod.mk.injEq] at h2
    obtain ⟨rfl, -⟩ := h2
    obtain ⟨g, p, m, out, hw⟩ := call_frame h1
    have := conf_play hw ho
    exact ⟨p, m, by rw [this], by rw [this], g⟩
  cases op <;> simp only [stepN] at h
  case sync =>
    obtain ⟨⟨a, b, c⟩, h1, h2⟩ := Option.map_eq_some_iff.1 h
    simp only [Prod.mk.injEq] at h2
    obtain ⟨rfl, rfl, rfl⟩ := h2
    obtain ⟨h3, h4, h5⟩ := syncN_sync h1
    have he := sync_eff hi h3
    have hprop : v.prop = s.getProp → v.prop = a.getProp := by
      intro hv; rw [hv]; funext k; unfold FM.getProp; rw [he.props]
    cases b with
    | error e =>
      rw [h4 e rfl]
      obtain ⟨e1, e2, e3⟩ := he.err (by simp)
      refine told_same v he.props e2 e3 he.amount ?_
      intro d hd
      simp [fresh, FOp.PutsCells, errOf] at hd
      exact ⟨hd, he.get⟩
    | ok u =>
      rw [h5 rfl]
      obtain ⟨e1, e2⟩ := he.ok rfl
      unfold remonitorNotes
      cases hg : s.grid.get s.monitored.x s.monitored.y with
      | none =>
        rw [hg] at e2
        exact ⟨hprop, fun hm _ => by rw [e2]; exact hm, fun _ _ => rfl, fun _ _ => rfl, fun _ _ _ => rfl⟩
      | some c =>
        rw [hg] at e2
        exact ⟨hprop, fun hm _ => by rw [e2]; rfl, fun _ _ => rfl, fun _ _ => rfl, fun _ _ _ => rfl⟩
  case clear =>
    obtain ⟨⟨a, b⟩, h1, h2⟩ := Option.map_eq_some_iff.1 h
    simp only [Prod.mk.injEq] at h2
    obtain ⟨rfl, rfl, rfl⟩ := h2
    obtain ⟨-, l, rfl⟩ := clearN_clear h1
    rw [hear_all]
    exact told_now _ _ _
  case fromRepr rp =>
    obtain ⟨⟨a, b, c⟩, h1, h2⟩ := Option.map_eq_some_iff.1 h
    simp only [Prod.mk.injEq] at h2
    obtain ⟨rfl, rfl, rfl⟩ := h2
    obtain ⟨-, l, rfl⟩ := fromReprN_fromRepr h1
    rw [hear_all]
    exact told_now _ _ _
  case setModamt p w =>
    obtain ⟨⟨a, b, c⟩, h1, h2⟩ := Option.map_eq_some_iff.1 h
    simp only [Prod.mk.injEq] at h2
    obtain ⟨rfl, rfl, rfl⟩ := h2
    obtain ⟨h3, rfl⟩ := setModamtN_setModamt h1
    have he := amt_eff hi h3
    have hprop : v.prop = s.getProp → v.prop = a.getProp := by
      intro hv; rw [hv]; funext k; unfold FM.getProp; rw [he.props]
    have hcell : ∀ d, (d = false → v.cell = s.grid.get) → fresh d (errOf b) (FOp.setModamt p w : FOp K V A P PR B BR) = false → v.cell = a.grid.get := by
      intro d hd hf
      simp [fresh, FOp.PutsCells, FOp.Publishes] at hf
      rw [he.get]; exact hd hf
    have hrest : ¬ FOp.Remodulates s (errOf b) (FOp.setModamt p w : FOp K V A P PR B BR) →
        a.monitored = s.monitored ∧ a.world.conf.getParam = s.world.conf.getParam := by
      intro hn
      apply he.rest
      by_cases hb : b = .ok ()
      · left
        by_contra hf
        rw [Bool.not_eq_false] at hf
        obtain ⟨n, i, rfl, hno⟩ := (setModamt_flag _ _ _).1 hf
        exact hn ⟨hno, errOf_none.2 hb⟩
      · exact Or.inr hb
    split
    · rename_i hf
      refine ⟨hprop, fun hm hn => by rw [(hrest hn).1]; exact hm, fun hv hn => ?_, fun ha _ => ?_, hcell⟩
      · funext q
        show (if q = p then a.world.conf.getParam p else v.value q) = _
        split
        · rename_i hq; rw [hq]
        · rw [hv, (hrest hn).2]
      · funext q
        show (if q = p then a.world.conf.getModamt p else v.amount q) = _
        split
        · rename_i hq; rw [hq]
        · rename_i hq; rw [ha, he.other q hq]
    · rename_i hf
      refine ⟨hprop, fun hm hn => by rw [(hrest hn).1]; exact hm, fun hv hn => by rw [(hrest hn).2]; exact hv, fun ha hn => ?_, hcell⟩
      show v.amount = _
      rw [ha]
      funext q
      by_cases hq : q = p
      · subst hq
        cases q with
        | atom n i => exact (he.atom n i rfl).symm
        | input n i =>
          exfalso
          apply hf
          rw [setModamt_flag]
          exact ⟨n, i, rfl, hn⟩
      · exact (he.other q hq).symm
  case setInput n i w =>
    obtain ⟨h1, rfl⟩ := hrest _ _ h
    simp only [FM.step, FM.setParam] at h1
    obtain ⟨s1, h2, h3⟩ := Option.map_eq_some_iff.1 h1
    obtain ⟨s2, h4, rfl⟩ := Option.map_eq_some_iff.1 h2
    simp only [Prod.mk.injEq] at h3
    obtain ⟨rfl, rfl⟩ := h3
    obtain ⟨g, p, m, out, hw⟩ := call_frame h4
    obtain ⟨w', hw', hc⟩ := Play.step_setInput (T := T) (a0 := a0) (run := run) s.world n i w
    rw [hw'] at hw
    simp only [Option.some.injEq, Prod.mk.injEq] at hw
    rw [hw.1] at hc
    refine ⟨fun hv => ?_, fun hm _ => by show v.monitored = s2.monitored; rw [m, hm], fun hv _ => ?_, fun hv _ => ?_, fun d hd hf => ?_⟩
    · show v.prop = _; rw [hv]; funext k; unfold FM.getProp; simp only [p]
    · funext q
      show (if q = _ then s2.world.conf.getParam _ else v.value q) = s2.world.conf.getParam q
      split
      · rename_i hq; rw [hq]
      · rename_i hq; rw [hv, hc, NodeConfProps.getParam_setInput, if_neg hq]
    · funext q
      show (if q = _ then s2.world.conf.getModamt _ else v.amount q) = s2.world.conf.getModamt q
      split
      · rename_i hq; rw [hq]
      · rw [hv, hc, Play.getModamt_setInput]
    · simp [fresh, FOp.PutsCells, FOp.Publishes] at hf
      show v.cell = s2.grid.get
      rw [g]; exact hd hf
  case setAtom n i w =>
    obtain ⟨h1, rfl⟩ := hrest _ _ h
    simp only [FM.step, FM.setParam] at h1
    obtain ⟨s1, h2, h3⟩ := Option.map_eq_some_iff.1 h1
    obtain ⟨s2, h4, rfl⟩ := Option.map_eq_some_iff.1 h2
    simp only [Prod.mk.injEq] at h3
    obtain ⟨rfl, rfl⟩ := h3
    obtain ⟨g, p, m, out, hw⟩ := call_frame h4
    obtain ⟨w', hw', hc⟩ := Play.step_setAtom (T := T) (a0 := a0) (run := run) s.world n i w
    rw [hw'] at hw
    simp only [Option.some.injEq, Prod.mk.injEq] at hw
    rw [hw.1] at hc
    refine ⟨fun hv => ?_, fun hm _ => by show v.monitored = s2.monitored; rw [m, hm], fun hv _ => ?_, fun hv _ => ?_, fun d hd hf => ?_⟩
    · show v.prop = _; rw [hv]; funext k; unfold FM.getProp; simp only [p]
    · funext q
      show (if q = _ then s2.world.conf.getParam _ else v.value q) = s2.world.conf.getParam q
      split
      · rename_i hq; rw [hq]
      · rename_i hq; rw [hv, hc, NodeConfProps.getParam_setAtom, if_neg hq]
    · funext q
      show (if q = _ then s2.world.conf.getModamt _ else v.amount q) = s2.world.conf.getModamt q
      split
      · rename_i hq; rw [hq]
      · rw [hv, hc, Play.getModamt_setAtom]
    · simp [fresh, FOp.PutsCells, FOp.Publishes] at hf
      show v.cell = s2.grid.get
      rw [g]; exact hd hf
  case setProp k a =>
    obtain ⟨h1, rfl⟩ := hrest _ _ h
    simp only [FM.step, Option.some.injEq, Prod.mk.injEq] at h1
    obtain ⟨rfl, rfl⟩ := h1
    refine ⟨fun hv => ?_, fun hm _ => hm, fun hv _ => hv, fun hv _ => hv, fun d hd hf => ?_⟩
    · funext j
      show (if j = k then (s.setProp k a).getProp k else v.prop j) = _
      split
      · rename_i hj; rw [hj]
      · rename_i hj; rw [hv, getProp_insert, if_neg hj]
    · simp [fresh, FOp.PutsCells, FOp.Publishes] at hf
      exact hd hf
  case monitor c =>
    obtain ⟨h1, rfl⟩ := hrest _ _ h
    simp only [FM.step, Option.some.injEq, Prod.mk.injEq] at h1
    obtain ⟨rfl, rfl⟩ := h1
    have hc := conf_monitor (monitorCell_world (T := T) (a0 := a0) (run := run) s c).1
    refine ⟨fun hv => hv, fun hm _ => rfl, fun hv _ => ?_, fun hv _ => ?_, fun d hd hf => ?_⟩
    · rw [hc]; exact hv
    · rw [hc]; exact hv
    · simp [fresh, FOp.PutsCells, FOp.Publishes] at hf
      exact hd hf
  case check =>
    obtain ⟨h1, rfl⟩ := hrest _ _ h
    simp only [FM.step] at h1
    obtain ⟨⟨g, e⟩, h2, h3⟩ := Option.map_eq_some_iff.1 h1
    simp only [Prod.mk.injEq] at h3
    obtain ⟨rfl, rfl⟩ := h3
    obtain ⟨w1, w2, -⟩ := Matrix.wf_check hi.grid.wfs.toWF h2
    refine told_same v rfl rfl rfl rfl ?_
    intro d hd
    simp [fresh, FOp.PutsCells, FOp.Publishes] at hd
    exact ⟨hd, by funext x y; exact w2.get x y⟩
  case placeMultiple cs =>
    obtain ⟨h1, rfl⟩ := hrest _ _ h
    simp only [FM.step] at h1
    obtain ⟨⟨g, e⟩, h2, h3⟩ := Option.map_eq_some_iff.1 h1
    simp only [Prod.mk.injEq] at h3
    obtain ⟨rfl, rfl⟩ := h3
    refine told_same v rfl rfl rfl rfl ?_
    intro d hd
    simp [fresh, FOp.PutsCells] at hd
  case poll =>
    obtain ⟨h1, rfl⟩ := hrest _ _ h
    simp only [FM.step] at h1
    obtain ⟨e1, e2, e3, e4, e5⟩ := haudio .poll (Or.inl rfl) h1
    refine told_same v e1 e2 e3 e4 ?_
    intro d hd
    simp [fresh, FOp.PutsCells, FOp.Publishes] at hd
    exact ⟨hd, by rw [e5]⟩
  case process n =>
    obtain ⟨h1, rfl⟩ := hrest _ _ h
    simp only [FM.step] at h1
    obtain ⟨e1, e2, e3, e4, e5⟩ := haudio (.process n) (Or.inr (Or.inl ⟨n, rfl⟩)) h1
    refine told_same v e1 e2 e3 e4 ?_
    intro d hd
    simp [fresh, FOp.PutsCells, FOp.Publishes] at hd
    exact ⟨hd, by rw [e5]⟩
  case dropOne =>
    obtain ⟨h1, rfl⟩ := hrest _ _ h
    simp only [FM.step] at h1
    obtain ⟨e1, e2, e3, e4, e5⟩ := haudio .dropOne (Or.inr (Or.inr (Or.inl rfl))) h1
    refine told_same v e1 e2 e3 e4 ?_
    intro d hd
    simp [fresh, FOp.PutsCells, FOp.Publishes] at hd
    exact ⟨hd, by rw [e5]⟩
  case setSlope n =>
    obtain ⟨h1, rfl⟩ := hrest _ _ h
    simp only [FM.step] at h1
    obtain ⟨e1, e2, e3, e4, e5⟩ := haudio (.setSlope n) (Or.inr (Or.inr (Or.inr ⟨n, rfl⟩))) h1
    refine told_same v e1 e2 e3 e4 ?_
    intro d hd
    simp [fresh, FOp.PutsCells, FOp.Publishes] at hd
    exact ⟨hd, by rw [e5]⟩
  all_goals
    obtain ⟨h1, rfl⟩ := hrest _ _ h
    simp only [FM.step, Option.some.injEq, Prod.mk.injEq] at h1
    obtain ⟨rfl, rfl⟩ := h1
    refine told_same v rfl rfl rfl rfl ?_
    intro d hd
    simp [fresh, FOp.PutsCells, FOp.Publishes] at hd
    try exact ⟨hd, rfl⟩

/-! ## The generation counter -/

theorem clear_gen (hi : Inv T a0 run s) (h : s.clear T a0 run E = some s') : s'.grid.genCounter = s.grid.genCounter + 1 := by
  unfold FM.clear at h
  obtain ⟨s1, h1, h2⟩ := Option.bind_eq_some_iff.1 h
  obtain ⟨⟨s3, r⟩, h3, rfl⟩ := Option.map_eq_some_iff.1 h2
  obtain ⟨g, p, m, out, hw⟩ := call_frame h1
  have hge := gridOk_emptied hi.grid
  have hi1 : Inv T a0 run (s1.monitorCell (Cell.empty none)) := by
    refine ⟨?_, ?_, ?_⟩
    · show GridOk s1.grid; rw [g]; exact hge
    · exact reached_step (op := .deleteNodes) hi.reached trivial hw
    · show KeysNodup s1.props; rw [p]; exact keysNodup_nil
  have hg : (s1.monitorCell (Cell.empty none)).grid = emptied s.grid := g
  have hloop : ¬ (s1.monitorCell (Cell.empty none)).grid.HasLoop := by
    rw [hg]
    exact noLoop_of_empty (fun n => emptied_no_nodes s.grid n)
  have he := sync_eff hi1 h3
  have hr : r = .ok () := by
    rcases (sync_stage hi1.grid h3).result with ⟨hl, -⟩ | ⟨-, hr, -⟩
    · exact absurd hl hloop
    · exact hr
  have := (he.ok hr).1
  rw [hg] at this
  exact this

theorem loadCells_gen {N : Type} (l : List (CellRepr N)) : ∀ m : Matrix N, (l.foldl loadCell m).genCounter = m.genCounter := by
  induction l with
  | nil => intro m; rfl
  | cons c l ih =>
    intro m
    rw [List.foldl_cons, ih]
    unfold loadCell Matrix.place
    simp only
    split <;> rfl

theorem place_gen {N : Type} (m : Matrix N) (x y : Nat) (c : Cell N) : (m.place x y c).genCounter = m.genCounter := by
  unfold Matrix.place
  simp only
  split <;> rfl

theorem placeLoop_gen {N : Type} [DecidableEq N] (cs : List (Cell N)) : ∀ m : Matrix N, (m.placeLoop cs).1.genCounter = m.genCounter := by
  induction cs with
  | nil => intro m; rfl
  | cons c cs ih =>
    intro m
    unfold Matrix.placeLoop
    split
    · rfl
    · split
      · rfl
      · rw [ih]; exact place_gen _ _ _ _

/-- The counter and what it stands for. -/
structure GenEff (s s' : FM K V A M σ P B) (op : FOp K V A P PR B BR) (err : Option (MatrixError (NodeId K))) : Prop where
  le : s.grid.genCounter ≤ s'.grid.genCounter
  same : s'.grid.genCounter = s.grid.genCounter → ¬ (FOp.PutsCells op = true) → (∀ p v, op = .setModamt p v → err = none) →
    { now s' with monitored := s.monitored } = now s

theorem gen_same {op : FOp K V A P PR B BR} (hg : s'.grid.genCounter = s.grid.genCounter) (hp : s'.props = s.props)
    (hv : s'.world.conf.getParam = s.world.conf.getParam) (ha : s'.world.conf.getModamt = s.world.conf.getModamt)
    (hc : ¬ (FOp.PutsCells op = true) → s'.grid.get = s.grid.get) : GenEff s s' op err := by
  refine ⟨by omega, fun _ hn _ => ?_⟩
  have : s'.getProp = s.getProp := by funext k; unfold FM.getProp; rw [hp]
  unfold now
  rw [this, hv, ha, hc hn]

theorem gen_more {op : FOp K V A P PR B BR} (hg : s.grid.genCounter < s'.grid.genCounter) : GenEff s s' op err :=
  ⟨by omega, fun h => by omega⟩

theorem gen_step (hi : Inv T a0 run s) {op : FOp K V A P PR B BR} (ht : op.Typed) (h : s.step T a0 run E op = some (s', err)) : GenEff s s' op err := by
  have haudio : ∀ (o : EOp (NodeId K) V A M), (o = .poll ∨ (∃ n, o = .process n) ∨ o = .dropOne ∨ ∃ n, o = .setSlope n) →
      (s.call T a0 run o).map (fun s => (s, (none : Option (MatrixError (NodeId K))))) = some (s', err) → GenEff s s' op err := by
    intro o ho hc
    obtain ⟨s1, h1, h2⟩ := Option.map_eq_some_iff.1 hc
    simp only [Prod.mk.injEq] at h2
    obtain ⟨rfl, -⟩ := h2
    obtain ⟨g, p, m, out, hw⟩ := call_frame h1
    have := conf_play hw ho
    exact gen_same (by rw [g]) p (by rw [this]) (by rw [this]) (fun _ => by rw [g])
  have hset : ∀ (o : EOp (NodeId K) V A M), (s.setParam T a0 run o).map (fun s => (s, (none : Option (MatrixError (NodeId K))))) = some (s', err) →
      GenEff s s' op err := by
    intro o hc
    obtain ⟨s1, h1, h2⟩ := Option.map_eq_some_iff.1 hc
    unfold FM.setParam at h1
    obtain ⟨s2, h3, rfl⟩ := Option.map_eq_some_iff.1 h1
    simp only [Prod.mk.injEq] at h2
    obtain ⟨rfl, -⟩ := h2
    obtain ⟨g, -⟩ := call_frame h3
    refine gen_more ?_
    show s.grid.genCounter < s2.grid.genCounter + 1
    rw [g]; omega
  cases op <;> simp only [FM.step] at h
  case sync =>
    obtain ⟨⟨a, b⟩, h1, h2⟩ := Option.map_eq_some_iff.1 h
    simp only [Prod.mk.injEq] at h2
    obtain ⟨rfl, rfl⟩ := h2
    have he := sync_eff hi h1
    by_cases hr : b = .ok ()
    · exact gen_more (by rw [(he.ok hr).1]; omega)
    · obtain ⟨e1, e2, e3⟩ := he.err hr
      exact gen_same e1 he.props e3 he.amount (fun _ => he.get)
  case clear =>
    obtain ⟨a, h1, h2⟩ := Option.map_eq_some_iff.1 h
    simp only [Prod.mk.injEq] at h2
    obtain ⟨rfl, rfl⟩ := h2
    exact gen_more (by rw [clear_gen hi h1]; omega)
  case fromRepr rp =>
    obtain ⟨⟨a, b⟩, h1, h2⟩ := Option.map_eq_some_iff.1 h
    simp only [Prod.mk.injEq] at h2
    obtain ⟨rfl, rfl⟩ := h2
    obtain ⟨s1, s2, h3, h4, h5⟩ := fromRepr_stages h1
    have hi1 := inv_clear hi h3
    have g1 := clear_gen hi h3
    have g2 : s2.grid.genCounter = s1.grid.genCounter := by rw [(load_stage h4).grid, loadCells_gen]
    have he := sync_eff (inv_load hi1 ht h4) h5
    refine gen_more ?_
    by_cases hr : b = .ok ()
    · rw [(he.ok hr).1]; omega
    · rw [(he.err hr).1]; omega
  case setModamt p v =>
    obtain ⟨⟨a, b⟩, h1, h2⟩ := Option.map_eq_some_iff.1 h
    simp only [Prod.mk.injEq] at h2
    obtain ⟨rfl, rfl⟩ := h2
    have he := amt_eff hi h1
    refine ⟨he.gen.1, fun hg _ hm => ?_⟩
    have := he.gen.2 (errOf_none.1 (hm p v rfl))
    omega
  case setInput n i v => exact hset _ h
  case setAtom n i v => exact hset _ h
  case poll => exact haudio .poll (Or.inl rfl) h
  case process n => exact haudio (.process n) (Or.inr (Or.inl ⟨n, rfl⟩)) h
  case dropOne => exact haudio .dropOne (Or.inr (Or.inr (Or.inl rfl))) h
  case setSlope n => exact haudio (.setSlope n) (Or.inr (Or.inr (Or.inr ⟨n, rfl⟩))) h
  case setProp k a =>
    simp only [Option.some.injEq, Prod.mk.injEq] at h
    obtain ⟨rfl, rfl⟩ := h
    exact gen_more (Nat.lt_succ_self _)
  case monitor c =>
    simp only [Option.some.injEq, Prod.mk.injEq] at h
    obtain ⟨rfl, rfl⟩ := h
    have hc := conf_monitor (monitorCell_world (T := T) (a0 := a0) (run := run) s c).1
    exact gen_same rfl rfl (by rw [hc]) (by rw [hc]) (fun _ => rfl)
  case check =>
    obtain ⟨⟨g, e⟩, h2, h3⟩ := Option.map_eq_some_iff.1 h
    simp only [Prod.mk.injEq] at h3
    obtain ⟨rfl, rfl⟩ := h3
    obtain ⟨w1, w2, w3⟩ := Matrix.wf_check hi.grid.wfs.toWF h2
    exact gen_same w3 rfl rfl rfl (fun _ => by funext x y; exact w2.get x y)
  case placeMultiple cs =>
    obtain ⟨⟨g, e⟩, h2, h3⟩ := Option.map_eq_some_iff.1 h
    simp only [Prod.mk.injEq] at h3
    obtain ⟨rfl, rfl⟩ := h3
    refine gen_same ?_ rfl rfl rfl (fun hn => absurd rfl hn)
    show g.genCounter = s.grid.genCounter
    unfold Matrix.placeMultiple at h2
    have hl := placeLoop_gen cs s.grid
    have hw := (Matrix.wfs_placeLoop hi.grid.wfs cs).1
    cases hp : s.grid.placeLoop cs with
    | mk m o =>
      rw [hp] at h2 hl hw
      cases o with
      | some e' =>
        simp only [Option.some.injEq, Prod.mk.injEq] at h2
        rw [← h2.1]; exact hl
      | none =>
        rw [(Matrix.wf_check hw.toWF h2).2.2]; exact hl
  case place x y c =>
    simp only [Option.some.injEq, Prod.mk.injEq] at h
    obtain ⟨rfl, rfl⟩ := h
    exact gen_same (place_gen _ _ _ _) rfl rfl rfl (fun hn => absurd rfl hn)
  case placeCell c =>
    simp only [Option.some.injEq, Prod.mk.injEq] at h
    obtain ⟨rfl, rfl⟩ := h
    exact gen_same (place_gen _ _ _ _) rfl rfl rfl (fun hn => absurd rfl hn)
  case restore =>
    simp only [Option.some.injEq, Prod.mk.injEq] at h
    obtain ⟨rfl, rfl⟩ := h
    refine gen_same ?_ rfl rfl rfl (fun hn => absurd rfl hn)
    show (Matrix.restoreMatrix _).genCounter = _
    unfold Matrix.restoreMatrix; split <;> rfl
  all_goals
    simp only [Option.some.injEq, Prod.mk.injEq] at h
    obtain ⟨rfl, rfl⟩ := h
    exact gen_same rfl rfl rfl rfl (fun _ => rfl)

end HexoDSP.Observer
