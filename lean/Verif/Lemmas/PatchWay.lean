import Verif.Lemmas.PatchGrid
import Verif.Lemmas.PatchMap
import Verif.Props.MatrixEngine
/-! The calls of the engine that one call of the matrix makes, and what `sync` does. -/

set_option linter.unusedSectionVars false

namespace HexoDSP.Patch
open HexoDSP.EngineSpec HexoDSP.NodeConfProps HexoDSP.Play HexoDSP.MatrixEngineProps
open HexoDSP.Matrix (Matrix Cell Edge MatrixError positions SameGrid WF allWires)
open HexoDSP.Engine
open HexoDSP.GraphOrdering (Before)

variable {K V A M σ P PR B BR : Type} [DecidableEq K]
variable [Add V] [Mul V] [Sub V] [Div V] [NatCast V] [OfNat V 0]
variable {T : NodeTable (NodeId K) V A} {a0 : A} {run : σ → CallIn (NodeId K) V A → σ × (Nat → Block V)} {E : Env K V A P PR B BR}

/-- Calls of the engine by the matrix. -/
def ByMatrix {N : Type} : EOp N V A M → Prop
  | .createNode _ => True
  | .deleteNodes => True
  | .setInput _ _ _ => True
  | .setAtom _ _ _ => True
  | .setModamt _ _ => True
  | .sync _ _ _ => True
  | .monitor _ i o => i.length = 3 ∧ o.length = 3
  | _ => False

/-- Calls of the engine by the matrix, one after the other, all of them `ok`. New programs are legal provided that `small`. -/
inductive Way (T : NodeTable (NodeId K) V A) (a0 : A) (run : σ → CallIn (NodeId K) V A → σ × (Nat → Block V)) (ok : EOp (NodeId K) V A M → Prop)
    (small : Prop) : World (NodeId K) V A M σ → World (NodeId K) V A M σ → Prop
  | refl (w : World (NodeId K) V A M σ) : Way T a0 run ok small w w
  | step {w w1 w2 : World (NodeId K) V A M σ} {op : EOp (NodeId K) V A M} {out : Option (BlockResult (NodeId K) V A)} :
      Way T a0 run ok small w w1 → Polite w1 op → ByMatrix op ∧ ok op → (∀ o es c, op = .sync o es c → small → Legal w1.conf o es) →
      w1.step T a0 run op = some (w2, out) → Way T a0 run ok small w w2

/-- Atoms and modulation amounts may be set. -/
structure Sets {N : Type} (ok : EOp N V A M → Prop) : Prop where
  atom : ∀ n i a, ok (.setAtom n i a)
  amt : ∀ p v, ok (.setModamt p v)

/-- Calls of the engine that any call of the matrix may make. -/
structure Base {N : Type} (ok : EOp N V A M → Prop) : Prop extends Sets ok where
  create : ∀ n, ok (.createNode n)
  sync : ∀ o es c, ok (.sync o es c)
  monitor : ∀ n i o, ok (.monitor n i o)

/-- Every call. -/
def any {N : Type} : EOp N V A M → Prop := fun _ => True

theorem base_any {N : Type} : Base (any : EOp N V A M → Prop) := ⟨⟨fun _ _ _ => trivial, fun _ _ => trivial⟩, fun _ => trivial, fun _ _ _ => trivial, fun _ _ _ => trivial⟩

/-- A relation to reference machines that careful calls keep, if they are `ok`. -/
def Closed (T : NodeTable (NodeId K) V A) (a0 : A) (run : σ → CallIn (NodeId K) V A → σ × (Nat → Block V)) (ok : EOp (NodeId K) V A M → Prop)
    (F : World (NodeId K) V A M σ → Track (NodeId K) V A → Prop) : Prop :=
  ∀ w t op w' out, F w t → ok op → Careful T w op → w.step T a0 run op = some (w', out) → F w' (t.step T w.conf op)

theorem closed_follows : Closed (M := M) T a0 run any (Follows T a0 run) := fun _ _ _ _ _ h _ hc hs => .call h hc hs

variable {ok : EOp (NodeId K) V A M → Prop} {F : World (NodeId K) V A M σ → Track (NodeId K) V A → Prop}
variable {small : Prop} {w w1 w2 : World (NodeId K) V A M σ}

theorem way_trans (h : Way T a0 run ok small w w1) (h' : Way T a0 run ok small w1 w2) : Way T a0 run ok small w w2 := by
  induction h' with
  | refl => exact h
  | step _ h1 h2 h3 h4 ih => exact .step ih h1 h2 h3 h4

theorem way_weaken {small' : Prop} (hs : small' → small) (h : Way T a0 run ok small w w1) : Way T a0 run ok small' w w1 := by
  induction h with
  | refl => exact .refl _
  | step _ h1 h2 h3 h4 ih => exact .step ih h1 h2 (fun o es c e k => h3 o es c e (hs k)) h4

theorem way_mono {ok' : EOp (NodeId K) V A M → Prop} (hs : ∀ op, ok op → ok' op) (h : Way T a0 run ok small w w1) : Way T a0 run ok' small w w1 := by
  induction h with
  | refl => exact .refl _
  | step _ h1 h2 h3 h4 ih => exact .step ih h1 ⟨h2.1, hs _ h2.2⟩ h3 h4

theorem way_ran (h : Way T a0 run ok small w w1) : ∃ ops, Ran T a0 run w ops w1 := by
  induction h with
  | refl => exact ⟨[], .nil _⟩
  | step _ h1 _ _ h4 ih =>
    obtain ⟨ops, hr⟩ := ih
    exact ⟨_, ran_append hr (.cons h1 h4 (.nil _))⟩

theorem reached_way (hr : Reached T a0 run w) (h : Way T a0 run ok small w w1) : Reached T a0 run w1 := by
  obtain ⟨st, ops, h1⟩ := hr
  obtain ⟨ops', h2⟩ := way_ran h
  exact ⟨st, _, ran_append h1 h2⟩

theorem reached_step (hr : Reached T a0 run w) {op : EOp (NodeId K) V A M} {out} (hp : Polite w op) (h : w.step T a0 run op = some (w1, out)) :
    Reached T a0 run w1 := by
  obtain ⟨st, ops, h1⟩ := hr
  exact ⟨st, _, ran_append h1 (.cons hp h (.nil _))⟩

theorem queue_by {op : EOp (NodeId K) V A M} {out} (hq : ByMatrix op) (h : w.step T a0 run op = some (w1, out)) :
    w.queue.length ≤ w1.queue.length := by
  cases op with
  | createNode n => exact queue_mono (op := .createNode n) (Or.inl trivial) h
  | setInput n i v => exact queue_mono (op := .setInput n i v) (Or.inl trivial) h
  | setAtom n i v => exact queue_mono (op := .setAtom n i v) (Or.inl trivial) h
  | setModamt p v => exact queue_mono (op := .setModamt p v) (Or.inl trivial) h
  | deleteNodes => exact queue_mono (Or.inr (Or.inl rfl)) h
  | sync o ws c => exact queue_mono (Or.inr (Or.inr ⟨o, ws, c, rfl⟩)) h
  | monitor n i o => simp only [World.step, Option.some.injEq, Prod.mk.injEq] at h; rw [← h.1]; exact sendAll_mono _ _
  | _ => exact absurd hq id

theorem way_queue (h : Way T a0 run ok small w w1) : w.queue.length ≤ w1.queue.length := by
  induction h with
  | refl => exact Nat.le_refl _
  | step _ _ h2 _ h4 ih => exact Nat.le_trans ih (queue_by h2.1 h4)

theorem careful_by {op : EOp (NodeId K) V A M} (hp : Polite w op) (hq : ByMatrix op) (hl : ∀ o es c, op = .sync o es c → Legal w.conf o es)
    (hr : w.queue.length < queueCapacity) : Careful T w op := by
  refine ⟨hp, fun _ => hr, hl, ?_⟩
  rintro n i o rfl
  exact hq

theorem way_follows (hF : Closed T a0 run ok F) (hs : small) (h : Way T a0 run ok small w w1) (hr : w1.queue.length < queueCapacity) :
    ∀ t, F w t → ∃ t', F w1 t' := by
  induction h with
  | refl => intro t ht; exact ⟨t, ht⟩
  | step _ h1 h2 h3 h4 ih =>
    intro t ht
    have hq := queue_by h2.1 h4
    obtain ⟨t', ht'⟩ := ih (by omega) t ht
    exact ⟨_, hF _ _ _ _ _ ht' h2.2 (careful_by h1 h2.1 (fun o es c e => h3 o es c e hs) (by omega)) h4⟩

/-! ## Creating nodes -/

/-- Only the nodes of the configuration change. -/
structure SameTables (c c' : Conf (NodeId K) V A) : Prop where
  param : ∀ q, c'.getParam q = c.getParam q
  amt : ∀ q, c'.getModamt q = c.getModamt q

theorem sameTables_create (c : Conf (NodeId K) V A) (n : NodeId K) : SameTables c (c.createNode n) :=
  ⟨fun q => by cases q <;> rfl, fun q => by cases q <;> rfl⟩

theorem SameTables.trans {c c' c'' : Conf (NodeId K) V A} (h : SameTables c c') (h' : SameTables c' c'') : SameTables c c'' :=
  ⟨fun q => (h'.param q).trans (h.param q), fun q => (h'.amt q).trans (h.amt q)⟩

/-- Creating nodes. -/
def Creates (T : NodeTable (NodeId K) V A) (a0 : A) (run : σ → CallIn (NodeId K) V A → σ × (Nat → Block V)) (ok : EOp (NodeId K) V A M → Prop) (small : Prop)
    (w : World (NodeId K) V A M σ) (c : Conf (NodeId K) V A) : Prop :=
  Way T a0 run ok small w { w with conf := c } ∧ SameTables w.conf c ∧
    ∀ F, Closed T a0 run ok F → ∀ t, F w t → ∃ t', F { w with conf := c } t' ∧ final t' = final t

theorem creates_refl (w : World (NodeId K) V A M σ) : Creates T a0 run ok small w w.conf := ⟨.refl w, ⟨fun _ => rfl, fun _ => rfl⟩, fun _ _ t ht => ⟨t, ht, rfl⟩⟩

theorem creates_node (hb : Base ok) {c : Conf (NodeId K) V A} (h : Creates T a0 run ok small w c) (n : NodeId K) (hn : ¬ Allocated c n) :
    Creates T a0 run ok small w (c.createNode n) :=
  ⟨.step (op := .createNode n) (out := none) h.1 hn ⟨trivial, hb.create n⟩ (fun _ _ _ e => nomatch e) rfl, h.2.1.trans (sameTables_create c n), by
    intro F hF t ht
    obtain ⟨t', h1, h2⟩ := h.2.2 F hF t ht
    have hcare : Careful T { w with conf := c } (.createNode n : EOp (NodeId K) V A M) :=
      ⟨hn, fun hh => absurd rfl hh, (fun _ _ _ e => nomatch e), (fun _ _ _ e => nomatch e)⟩
    exact ⟨_, hF _ _ _ { w with conf := c.createNode n } none h1 (hb.create n) hcare rfl, (final_append_nil _).trans h2⟩⟩

theorem creates_ensure (hb : Base ok) {c : Conf (NodeId K) V A} (h : Creates T a0 run ok small w c) (n : NodeId K) : Creates T a0 run ok small w (c.ensureNode n) := by
  unfold Conf.ensureNode
  split
  · rename_i hn
    exact creates_node hb h n (by unfold Allocated; simpa using hn)
  · exact h

theorem creates_ensures (hb : Base ok) (l : List Nat) (n : NodeId K) {c : Conf (NodeId K) V A} (h : Creates T a0 run ok small w c) :
    Creates T a0 run ok small w (l.foldl (fun c i => c.ensureNode (n.toInstance i)) c) := by
  induction l generalizing c with
  | nil => exact h
  | cons a l ih => exact ih (creates_ensure hb h _)

theorem creates_for (hb : Base ok) {c : Conf (NodeId K) V A} (hw : ConfWF c) (h : Creates T a0 run ok small w c) (n : NodeId K) (hi : n.inst < 256) :
    Creates T a0 run ok small w (c.createFor n) := by
  unfold Conf.createFor
  split
  · rename_i hn
    have hnot := (uniqueIndexFor_none hw n).1 (by simpa using hn)
    refine creates_node hb (creates_ensures hb _ n h) n ?_
    obtain ⟨h1, h2⟩ := ensureFold_spec (List.range n.inst) n hw
    rw [alloc_iff h1, h2]
    rintro (h3 | ⟨i, hm, he⟩)
    · exact hnot h3
    · have hm := List.mem_range.1 hm
      have : n.inst = i % 256 := congrArg NodeId.inst he
      rw [Nat.mod_eq_of_lt (Nat.lt_trans hm hi)] at this
      exact absurd this (Nat.ne_of_gt hm)
  · exact h

theorem creates_fold (hb : Base ok) (l : List (NodeId K)) (hl : ∀ n ∈ l, n.inst < 256) {c : Conf (NodeId K) V A} (hw : ConfWF c)
    (h : Creates T a0 run ok small w c) : Creates T a0 run ok small w (l.foldl Conf.createFor c) := by
  induction l generalizing c with
  | nil => exact h
  | cons a l ih =>
    exact ih (fun n hn => hl n (List.mem_cons_of_mem _ hn)) (createFor_spec hw a (hl a List.mem_cons_self)).1 (creates_for hb hw h a (hl a List.mem_cons_self))

theorem createNodes_way (hb : Base ok) {s : FM K V A M σ P B} (hg : GridOk s.grid) (hr : Reached T a0 run s.world) (small : Prop) :
    Way T a0 run ok small s.world (s.createNodes E).world ∧ SameTables s.world.conf (s.createNodes E).world.conf ∧
      (∀ n, OnGrid s.grid n → n ∈ (s.createNodes E).world.conf.ids) ∧
      (∀ F, Closed T a0 run ok F → ∀ t, F s.world t → ∃ t', F (s.createNodes E).world t' ∧ final t' = final t) := by
  have hl := cellNodes_inst hg
  obtain ⟨h1, h2, h3⟩ := creates_fold (T := T) (a0 := a0) (run := run) (small := small) hb (cellNodes s.grid) hl (wf_reached hr) (creates_refl s.world)
  obtain ⟨-, h4, -⟩ := createFold_spec (cellNodes s.grid) hl (wf_reached hr)
  exact ⟨h1, h2, fun n hn => h4 n (Or.inr ((mem_cellNodes _ _).2 hn)), h3⟩

theorem lookup_allocPat (pats : List (Nat × P)) (i j : Nat) :
    ((allocPat E pats i).lookup j).getD E.newPat = (pats.lookup j).getD E.newPat := by
  unfold allocPat
  split
  · rfl
  · rename_i h
    rw [lookup_insert]
    split
    · rename_i hj
      have := eq_of_beq hj
      subst this
      cases hl : pats.lookup j with
      | none => rfl
      | some p => simp [hl] at h
    · rfl

theorem lookup_allocPats (l : List Nat) (pats : List (Nat × P)) (j : Nat) :
    ((l.foldl (allocPat E) pats).lookup j).getD E.newPat = (pats.lookup j).getD E.newPat := by
  induction l generalizing pats with
  | nil => rfl
  | cons a l ih => rw [List.foldl_cons, ih, lookup_allocPat]

theorem lookup_allocFun (funs : List (Nat × B)) (i j : Nat) :
    ((allocFun E funs i).lookup j).getD E.newFun = (funs.lookup j).getD E.newFun := by
  unfold allocFun
  split
  · rfl
  · rename_i h
    rw [lookup_insert]
    split
    · rename_i hj
      have := eq_of_beq hj
      subst this
      cases hl : funs.lookup j with
      | none => rfl
      | some p => simp [hl] at h
    · rfl

theorem lookup_allocFuns (l : List Nat) (funs : List (Nat × B)) (j : Nat) :
    ((l.foldl (allocFun E) funs).lookup j).getD E.newFun = (funs.lookup j).getD E.newFun := by
  induction l generalizing funs with
  | nil => rfl
  | cons a l ih => rw [List.foldl_cons, ih, lookup_allocFun]

theorem createNodes_pats (s : FM K V A M σ P B) (i : Nat) : (s.createNodes E).patOf E i = s.patOf E i := by
  unfold FM.patOf FM.createNodes
  simp only
  generalize (List.filter _ _) = l
  have : ∀ (l : List (NodeId K)) (pats : List (Nat × P)), ((l.foldl (fun ps n => allocPat E ps n.inst) pats).lookup i).getD E.newPat =
      (pats.lookup i).getD E.newPat := by
    intro l
    induction l with
    | nil => intro _; rfl
    | cons a l ih => intro pats; rw [List.foldl_cons, ih, lookup_allocPat]
  exact this l _

/-! ## Monitoring -/

theorem remonitor_world (s : FM K V A M σ P B) : (s.remonitor.world = s.world ∨ ∃ n i o, i.length = 3 ∧ o.length = 3 ∧
      s.world.step T a0 run (.monitor n i o) = some (s.remonitor.world, none)) ∧ s.remonitor.grid = s.grid ∧ s.remonitor.props = s.props ∧
      s.remonitor.pats = s.pats ∧ s.remonitor.funs = s.funs ∧ s.remonitor.engines = s.engines := by
  unfold FM.remonitor
  split
  · exact ⟨Or.inl rfl, rfl, rfl, rfl, rfl, rfl⟩
  · rename_i c _
    refine ⟨?_, rfl, rfl, rfl, rfl, rfl⟩
    unfold FM.monitorCell
    simp only
    split
    · exact Or.inl rfl
    · exact Or.inr ⟨_, _, _, rfl, rfl, rfl⟩

theorem monitorCell_world (s : FM K V A M σ P B) (c : Cell (NodeId K)) : ((s.monitorCell c).world = s.world ∨ ∃ n i o, i.length = 3 ∧ o.length = 3 ∧
      s.world.step T a0 run (.monitor n i o) = some ((s.monitorCell c).world, none)) ∧ (s.monitorCell c).world.conf = s.world.conf := by
  unfold FM.monitorCell
  simp only
  split
  · exact ⟨Or.inl rfl, rfl⟩
  · exact ⟨Or.inr ⟨_, _, _, rfl, rfl, rfl⟩, conf_sendAll _ _⟩

theorem way_monitor (hb : Base ok) (h : w1 = w ∨ ∃ n i o, i.length = 3 ∧ o.length = 3 ∧ w.step T a0 run (.monitor n i o) = some (w1, none)) :
    Way T a0 run ok small w w1 := by
  rcases h with rfl | ⟨n, i, o, h1, h2, h3⟩
  · exact .refl _
  · exact .step (op := .monitor n i o) (.refl _) trivial ⟨⟨h1, h2⟩, hb.monitor n i o⟩ (fun _ _ _ e => nomatch e) h3

theorem conf_monitor (h : w1 = w ∨ ∃ n i o, i.length = 3 ∧ o.length = 3 ∧ w.step T a0 run (.monitor n i o) = some (w1, none)) : w1.conf = w.conf := by
  rcases h with rfl | ⟨n, i, o, -, -, h3⟩
  · rfl
  · simp only [World.step, Option.some.injEq, Prod.mk.injEq] at h3
    rw [← h3.1]; exact conf_sendAll _ _

/-! ## `sync` -/

/-- The connections of a grid. -/
def wiring (m : Matrix (NodeId K)) : List (Conn (NodeId K)) := (allWires m).map (fun w => connOf w.2.2)

theorem mem_wiring {m : Matrix (NodeId K)} (e : Conn (NodeId K)) : e ∈ wiring m ↔ ∃ p d e', m.Wire p d e' ∧ connOf e' = e := by
  unfold wiring
  rw [List.mem_map]
  constructor
  · rintro ⟨w, h1, h2⟩; exact ⟨w.1, w.2.1, w.2.2, (Matrix.mem_allWires w).1 h1, h2⟩
  · rintro ⟨p, d, e', h1, h2⟩; exact ⟨(p, d, e'), (Matrix.mem_allWires _).2 h1, h2⟩

/-- The order of the nodes on a grid. -/
structure OrderOf (m : Matrix (NodeId K)) (order : List (NodeId K)) : Prop where
  nodup : order.Nodup
  nodes : ∀ n, n ∈ order ↔ OnGrid m n
  before : ∀ a b, m.Leads a b → Before order a b

/-- What `sync` leaves. -/
structure Synced (T : NodeTable (NodeId K) V A) (a0 : A) (run : σ → CallIn (NodeId K) V A → σ × (Nat → Block V)) (E : Env K V A P PR B BR)
    (s s' : FM K V A M σ P B) (r : Except (MatrixError (NodeId K)) Unit) : Prop where
  grid : GridOk s'.grid
  same : SameGrid s.grid s'.grid
  cap : s.grid.WithinCapacity
  props : s'.props = s.props
  pats : ∀ i, s'.patOf E i = s.patOf E i
  funs : s'.funs = s.funs
  result : (s.grid.HasLoop ∧ r = .error .cycleDetected ∧ s'.world = (s.createNodes E).world) ∨
    (¬ s.grid.HasLoop ∧ r = .ok () ∧ ∃ order w2 out, OrderOf s.grid order ∧
      (s.createNodes E).world.step T a0 run (.sync order (wiring s.grid) true) = some (w2, out) ∧
      (s'.world = w2 ∨ ∃ n i o, i.length = 3 ∧ o.length = 3 ∧ w2.step T a0 run (.monitor n i o) = some (s'.world, none)))

theorem sync_stage {s s' : FM K V A M σ P B} {r : Except (MatrixError (NodeId K)) Unit} (hg : GridOk s.grid)
    (h : s.sync T a0 run E = some (s', r)) : Synced T a0 run E s s' r := by
  have hgr : (s.createNodes E).grid = s.grid := rfl
  have hpats := createNodes_pats (E := E) s
  have hpr : (s.createNodes E).props = s.props := rfl
  have hfu : (s.createNodes E).funs = s.funs := rfl
  unfold FM.sync at h
  simp only at h
  generalize hs1 : s.createNodes E = s1 at h hgr hpats hpr hfu
  have hcap : s.grid.WithinCapacity := Matrix.capacity_of_sync hg.wfs.toWF (by
    intro hn; rw [hgr, hn] at h; cases h)
  obtain ⟨g, r0, hs, hsame, hwf, hed, hres⟩ := Matrix.sync_spec hg.wfs.toWF hcap
  rw [hgr, hs] at h
  have hgg := gridOk_same hg hwf hsame
  have hwire : g.edges.map connOf = wiring s.grid := by rw [hed, wiring, List.map_map]; rfl
  rcases hres with ⟨hl, rfl, -⟩ | ⟨hl, -, L, rfl, hnd, hmem, hbef⟩
  · simp only [Option.some.injEq, Prod.mk.injEq] at h
    obtain ⟨rfl, rfl⟩ := h
    exact ⟨hgg, hsame, hcap, hpr, hpats, hfu, Or.inl ⟨hl, rfl, by rw [hs1]⟩⟩
  · simp only at h
    obtain ⟨s3, h3, h4⟩ := Option.map_eq_some_iff.1 h
    simp only [Prod.mk.injEq] at h4
    obtain ⟨rfl, rfl⟩ := h4
    simp only [FM.call, hwire] at h3
    obtain ⟨⟨w2, out⟩, h5, rfl⟩ := Option.map_eq_some_iff.1 h3
    obtain ⟨k1, k2, k3, k4, k5, -⟩ := remonitor_world (T := T) (a0 := a0) (run := run)
      (FM.mk g w2 s1.props s1.monitored s1.pats s1.funs s1.engines)
    refine ⟨by rw [k2]; exact hgg, by rw [k2]; exact hsame, hcap, by rw [k3]; exact hpr, ?_, by rw [k5]; exact hfu,
      Or.inr ⟨hl, rfl, L, w2, out, ⟨hnd, hmem, hbef⟩, by rw [hs1]; exact h5, k1⟩⟩
    intro i
    rw [← hpats i]
    unfold FM.patOf
    rw [k4]

theorem legal_sync {s : FM K V A M σ P B} (hg : GridOk s.grid) (hr : Reached T a0 run s.world) {order : List (NodeId K)}
    (ho : OrderOf s.grid order) (hsm : (s.createNodes E).world.conf.nodes.length ≤ 256) :
    Legal (s.createNodes E).world.conf order (wiring s.grid) := by
  obtain ⟨h1, -, h3, -⟩ := createNodes_way (T := T) (a0 := a0) (run := run) (E := E) base_any hg hr True
  refine ⟨hsm, ho.nodup, fun n hn => (mem_ids (reached_way hr h1) n).2 (h3 n ((ho.nodes n).1 hn)), ?_⟩
  intro e he
  obtain ⟨p, d, e', hw, rfl⟩ := (mem_wiring e).1 he
  exact ho.before _ _ ⟨p, d, e', hw, rfl, rfl⟩

theorem ids_sync {order : List (NodeId K)} {es : List (Conn (NodeId K))} {co : Bool} {out} (hr : Reached T a0 run w)
    (h : w.step T a0 run (.sync order es co) = some (w1, out)) : w1.conf.ids = w.conf.ids := by
  simp only [World.step] at h
  obtain ⟨⟨c', p, h'⟩, hb, heq⟩ := Option.map_eq_some_iff.1 h
  simp only [Prod.mk.injEq] at heq
  rw [← heq.1, conf_send]
  exact ids_buildProg (wf_reached hr) hb

/-- The calls of the engine that `sync` makes. -/
theorem sync_way (hb : Base ok) {s s' : FM K V A M σ P B} {r : Except (MatrixError (NodeId K)) Unit} (hg : GridOk s.grid) (hr : Reached T a0 run s.world)
    (h : s.sync T a0 run E = some (s', r)) : Way T a0 run ok (s'.world.conf.nodes.length ≤ 256) s.world s'.world := by
  have hs := sync_stage hg h
  obtain ⟨h1, -, h3, -⟩ := createNodes_way (T := T) (a0 := a0) (run := run) (E := E) hb hg hr (s'.world.conf.nodes.length ≤ 256)
  rcases hs.result with ⟨-, -, he⟩ | ⟨-, -, order, w2, out, ho, hstep, hm⟩
  · rw [he] at h1 ⊢; exact h1
  · have hlen : s'.world.conf.nodes.length = (s.createNodes E).world.conf.nodes.length := by
      have := congrArg List.length (ids_sync (reached_way hr h1) hstep)
      rw [conf_monitor hm]
      simpa [Conf.ids] using this
    refine way_trans (.step (op := .sync order (wiring s.grid) true) h1 trivial ⟨trivial, hb.sync _ _ _⟩ ?_ hstep) (way_monitor hb hm)
    rintro o es c he hsm
    simp only [EOp.sync.injEq] at he
    obtain ⟨rfl, rfl, -⟩ := he
    exact legal_sync hg hr ho (by omega)

/-- Values after `sync`. -/
structure Kept (T : NodeTable (NodeId K) V A) (c c' : Conf (NodeId K) V A) : Prop where
  input : ∀ n i v, c.getParam (.input n i) = some v → c'.getParam (.input n i) = some v
  inputNone : ∀ n i, n ∉ c'.ids → c.getParam (.input n i) = none → c'.getParam (.input n i) = none
  inputDef : ∀ n i, c.getParam (.input n i) = none → c'.getParam (.input n i) = none ∨ c'.getParam (.input n i) = some (.num (T.normDef n i))
  atom : ∀ n i v, c.getParam (.atom n i) = some v → c'.getParam (.atom n i) = some v
  atomNone : ∀ n i, n ∉ c'.ids → c.getParam (.atom n i) = none → c'.getParam (.atom n i) = none
  atomDef : ∀ n i, c.getParam (.atom n i) = none → c'.getParam (.atom n i) = none ∨ c'.getParam (.atom n i) = some (.atom (T.atomDef n i))
  amt : ∀ q, c'.getModamt q = c.getModamt q

theorem kept_same {c c' : Conf (NodeId K) V A} (h : SameTables c c') : Kept T c c' := by
  refine ⟨fun n i v hv => by rw [h.param, hv], fun n i _ hv => by rw [h.param, hv], fun n i hv => Or.inl (by rw [h.param, hv]),
    fun n i v hv => by rw [h.param, hv], fun n i _ hv => by rw [h.param, hv], fun n i hv => Or.inl (by rw [h.param, hv]), h.amt⟩

theorem kept_sync {s s' : FM K V A M σ P B} {r : Except (MatrixError (NodeId K)) Unit} (hg : GridOk s.grid) (hr : Reached T a0 run s.world)
    (h : s.sync T a0 run E = some (s', r)) : Kept T s.world.conf s'.world.conf ∧ s'.world.conf.ids = (s.createNodes E).world.conf.ids := by
  have hs := sync_stage hg h
  obtain ⟨h1, h2, -⟩ := createNodes_way (T := T) (a0 := a0) (run := run) (E := E) base_any hg hr True
  have hr1 := reached_way hr h1
  rcases hs.result with ⟨-, -, he⟩ | ⟨-, -, order, w2, out, ho, hstep, hm⟩
  · rw [he]; exact ⟨kept_same h2, rfl⟩
  · rw [conf_monitor hm]
    have hids := ids_sync hr1 hstep
    refine ⟨?_, hids⟩
    have hw := wf_reached hr1
    simp only [World.step] at hstep
    obtain ⟨⟨c', p, h'⟩, hb, heq⟩ := Option.map_eq_some_iff.1 hstep
    simp only [Prod.mk.injEq] at heq
    have hconf : w2.conf = c' := by rw [← heq.1]; simp [conf_send]
    rw [hconf] at hids ⊢
    have hk := fun n k => rebuild_keeps_params hr1 hb n k
    refine ⟨?_, ?_, ?_, ?_, ?_, ?_, fun q => by rw [rebuild_keeps_modamt hb, h2.amt]⟩
    · intro n i v hv; exact (hk n i).1 v (by rw [h2.param, hv])
    · intro n i hn hv
      rw [(hk n i).2.1 (by rw [h2.param, hv]), if_neg]
      rw [hids, ← alloc_iff hw] at hn
      exact fun hh => hn hh.1
    · intro n i hv
      have := (hk n i).2.1 (by rw [h2.param, hv])
      rw [this]
      split
      · exact Or.inr rfl
      · exact Or.inl rfl
    · intro n i v hv; exact (hk n i).2.2.1 v (by rw [h2.param, hv])
    · intro n i hn hv
      rw [(hk n i).2.2.2 (by rw [h2.param, hv]), if_neg]
      rw [hids, ← alloc_iff hw] at hn
      exact fun hh => hn hh.1
    · intro n i hv
      have := (hk n i).2.2.2 (by rw [h2.param, hv])
      rw [this]
      split
      · exact Or.inr rfl
      · exact Or.inl rfl

/-- The grid `m` plays, with the values of `c`, once the messages have reached the audio thread. -/
structure Plays (T : NodeTable (NodeId K) V A) (m : Matrix (NodeId K)) (t : Track (NodeId K) V A) (c : Conf (NodeId K) V A) : Prop where
  agree : Agree T t c
  order : OrderOf m (final t).order
  wires : (final t).wires = wiring m

theorem final_monitor {n : NodeId K} {i o : List (Option Nat)} (t : Track (NodeId K) V A) (c : Conf (NodeId K) V A) :
    (final (t.step T c (.monitor n i o : EOp (NodeId K) V A M))).order = (final t).order ∧
    (final (t.step T c (.monitor n i o : EOp (NodeId K) V A M))).wires = (final t).wires ∧
    (final (t.step T c (.monitor n i o : EOp (NodeId K) V A M))).param = (final t).param ∧
    (final (t.step T c (.monitor n i o : EOp (NodeId K) V A M))).atom = (final t).atom ∧
    (final (t.step T c (.monitor n i o : EOp (NodeId K) V A M))).amt = (final t).amt := by
  simp only [Track.step, asks]
  split
  · rw [final_snoc]; exact ⟨rfl, rfl, rfl, rfl, rfl⟩
  · rw [final_append_nil]; exact ⟨rfl, rfl, rfl, rfl, rfl⟩

/-- Monitoring changes nothing else. -/
theorem follows_monitor (hb : Base ok) (hF : Closed T a0 run ok F) (h : w1 = w ∨ ∃ n i o, i.length = 3 ∧ o.length = 3 ∧ w.step T a0 run (.monitor n i o) = some (w1, none))
    (hr : w1.queue.length < queueCapacity) {t : Track (NodeId K) V A} (ht : F w t) :
    ∃ t', F w1 t' ∧ (final t').order = (final t).order ∧ (final t').wires = (final t).wires ∧
      ∀ c, Agree T t c → Agree T t' c := by
  rcases h with rfl | ⟨n, i, o, h1, h2, h3⟩
  · exact ⟨t, ht, rfl, rfl, fun _ h => h⟩
  · have hq := queue_by (op := .monitor n i o) ⟨h1, h2⟩ h3
    have hcare : Careful T w (.monitor n i o : EOp (NodeId K) V A M) := careful_by trivial ⟨h1, h2⟩ (fun _ _ _ e => nomatch e) (by omega)
    obtain ⟨k1, k2, k3, k4, k5⟩ := final_monitor (T := T) (M := M) (n := n) (i := i) (o := o) t w.conf
    exact ⟨_, hF _ _ _ _ _ ht (hb.monitor n i o) hcare h3, k1, k2, fun c ha => ⟨by rw [k3]; exact ha.param, by rw [k4]; exact ha.atom, by rw [k5]; exact ha.amt⟩⟩

theorem sync_plays (hb : Base ok) (hF : Closed T a0 run ok F) {s s' : FM K V A M σ P B} {r : Except (MatrixError (NodeId K)) Unit} (hg : GridOk s.grid) (hr : Reached T a0 run s.world)
    (h : s.sync T a0 run E = some (s', r)) (hroom : Room s') {t : Track (NodeId K) V A} (ht : F s.world t) (hok : r = .ok ()) :
    ∃ t', F s'.world t' ∧ Plays T s.grid t' s'.world.conf := by
  have hs := sync_stage hg h
  obtain ⟨h1, -, -⟩ := createNodes_way (T := T) (a0 := a0) (run := run) (E := E) hb hg hr True
  have hr1 := reached_way hr h1
  rcases hs.result with ⟨-, he, -⟩ | ⟨-, -, order, w2, out, ho, hstep, hm⟩
  · rw [he] at hok; cases hok
  · have q1 : w2.queue.length ≤ s'.world.queue.length := way_queue (way_monitor (small := True) hb hm)
    have q2 := queue_by (op := .sync order (wiring s.grid) true) trivial hstep
    have hlt := hroom.1
    have hlen : s'.world.conf.nodes.length = (s.createNodes E).world.conf.nodes.length := by
      have := congrArg List.length (ids_sync hr1 hstep)
      rw [conf_monitor hm]
      simpa [Conf.ids] using this
    have hl := legal_sync (T := T) (a0 := a0) (run := run) (E := E) hg hr ho (by have := hroom.2; omega)
    obtain ⟨t1, ht1⟩ := way_follows hF trivial h1 (by omega) t ht
    obtain ⟨a1, a2, a3⟩ := agree_sync hr1 hstep t1
    have ht2 := hF _ _ _ _ _ ht1 (hb.sync _ _ _) (careful_by (op := .sync order (wiring s.grid) true) trivial trivial (by
      rintro o es c e
      simp only [EOp.sync.injEq] at e
      obtain ⟨rfl, rfl, -⟩ := e
      exact hl) (by omega)) hstep
    obtain ⟨t', ht', b1, b2, b3⟩ := follows_monitor hb hF hm hlt ht2
    refine ⟨t', ht', ⟨?_, ?_, ?_⟩⟩
    · rw [conf_monitor hm]; exact b3 _ a1
    · rw [b1, a2]; exact ho
    · rw [b2, a3]

end HexoDSP.Patch
