import Verif.Lemmas.PatchLoad
/-! The invariant of the whole matrix, what plays after each call, and what a block computes. -/

set_option linter.unusedSectionVars false

namespace HexoDSP.Patch
open HexoDSP.EngineSpec HexoDSP.NodeConfProps HexoDSP.Play HexoDSP.MatrixEngineProps
open HexoDSP.Matrix (Matrix Cell Edge MatrixError positions SameGrid WF allWires)
open HexoDSP.Engine

variable {K V A M σ P PR B BR : Type} [DecidableEq K]
variable [Add V] [Mul V] [Sub V] [Div V] [NatCast V] [OfNat V 0]
variable {T : NodeTable (NodeId K) V A} {a0 : A} {run : σ → CallIn (NodeId K) V A → σ × (Nat → Block V)} {E : Env K V A P PR B BR}

/-- Invariant of the matrix. -/
structure Inv (T : NodeTable (NodeId K) V A) (a0 : A) (run : σ → CallIn (NodeId K) V A → σ × (Nat → Block V)) (s : FM K V A M σ P B) : Prop where
  grid : GridOk s.grid
  reached : Reached T a0 run s.world
  props : KeysNodup s.props

/-- Relations to reference machines: before a call of the matrix, while a patch is loaded, and after the call. Only the matrix calls the engine between. -/
structure Two (T : NodeTable (NodeId K) V A) (a0 : A) (run : σ → CallIn (NodeId K) V A → σ × (Nat → Block V)) (ok0 okL ok1 : EOp (NodeId K) V A M → Prop)
    (F0 FL F1 : World (NodeId K) V A M σ → Track (NodeId K) V A → Prop) : Prop where
  b0 : Base ok0
  bL : Sets okL
  b1 : Base ok1
  c0 : Closed T a0 run ok0 F0
  cL : Closed T a0 run okL FL
  c1 : Closed T a0 run ok1 F1
  le : ∀ w t, F0 w t → F1 w t
  into : ∀ w t, F0 w t → (∀ n, w.conf.instanceOf n = none) → FL w t
  out : ∀ w t, FL w t → F1 w t

theorem two_follows : Two (M := M) T a0 run any any any (Follows T a0 run) (Follows T a0 run) (Follows T a0 run) :=
  ⟨base_any, base_any.toSets, base_any, closed_follows, closed_follows, closed_follows, fun _ _ h => h, fun _ _ h _ => h, fun _ _ h => h⟩

/-- A call of another thread. -/
def Moves (T : NodeTable (NodeId K) V A) (a0 : A) (run : σ → CallIn (NodeId K) V A → σ × (Nat → Block V))
    (F0 F1 : World (NodeId K) V A M σ → Track (NodeId K) V A → Prop) (o : EOp (NodeId K) V A M) : Prop :=
  ∀ w t w' out, F0 w t → Careful T w o → w.step T a0 run o = some (w', out) → F1 w' (t.step T w.conf o)

/-- The call of the matrix makes only calls of the engine that are `ok`. -/
def FOp.Uses (T : NodeTable (NodeId K) V A) (a0 : A) (run : σ → CallIn (NodeId K) V A → σ × (Nat → Block V)) (ok0 okL : EOp (NodeId K) V A M → Prop)
    (F0 F1 : World (NodeId K) V A M σ → Track (NodeId K) V A → Prop) : FOp K V A P PR B BR → Prop
  | .clear => ok0 .deleteNodes
  | .setInput n i v => Moves T a0 run F0 F1 (.setInput n i v)
  | .fromRepr r => ok0 .deleteNodes ∧ ∀ e ∈ r.params, ∀ v, okL (.setInput e.1.1 e.1.2 v)
  | .poll => Moves T a0 run F0 F1 .poll
  | .process n => Moves T a0 run F0 F1 (.process n)
  | .dropOne => Moves T a0 run F0 F1 .dropOne
  | .setSlope n => Moves T a0 run F0 F1 (.setSlope n)
  | _ => True

theorem uses_follows (op : FOp K V A P PR B BR) : op.Uses (M := M) T a0 run any any (Follows T a0 run) (Follows T a0 run) := by
  have h : ∀ o : EOp (NodeId K) V A M, Moves T a0 run (Follows T a0 run) (Follows T a0 run) o := fun _ _ _ _ _ h hc hs => .call h hc hs
  cases op with
  | fromRepr r => exact ⟨trivial, fun _ _ _ => trivial⟩
  | setInput n i v => exact h _
  | poll => exact h _
  | process n => exact h _
  | dropOne => exact h _
  | setSlope n => exact h _
  | _ => trivial

/-- The engine of `s'` can be followed if that of `s` can. -/
def Tracks (F0 F1 : World (NodeId K) V A M σ → Track (NodeId K) V A → Prop) (s s' : FM K V A M σ P B) : Prop :=
  Room s' → ∀ t, F0 s.world t → ∃ t', F1 s'.world t'

variable {ok ok0 okL ok1 : EOp (NodeId K) V A M → Prop} {F F0 FL F1 : World (NodeId K) V A M σ → Track (NodeId K) V A → Prop}

theorem tracks_way (hF : Closed T a0 run ok F) {s s' : FM K V A M σ P B} (h : Way T a0 run ok (s'.world.conf.nodes.length ≤ 256) s.world s'.world) : Tracks F F s s' :=
  fun hr => way_follows hF hr.2 h hr.1

theorem tracks_le (h : ∀ w t, F0 w t → F1 w t) {s s' : FM K V A M σ P B} (ht : Tracks F0 F0 s s') : Tracks F0 F1 s s' :=
  fun hr t hf => (ht hr t hf).imp (fun _ => h _ _)

theorem tracks_le' (h : ∀ w t, F0 w t → F1 w t) {s s' : FM K V A M σ P B} (ht : Tracks F1 F1 s s') : Tracks F0 F1 s s' :=
  fun hr t hf => ht hr t (h _ _ hf)

theorem tracks_same (h : ∀ w t, F0 w t → F1 w t) {s s' : FM K V A M σ P B} (hw : s'.world = s.world) : Tracks F0 F1 s s' :=
  fun _ t ht => ⟨t, by rw [hw]; exact h _ _ ht⟩

theorem inv_new (w h : Nat) (st : σ) : Inv T a0 run (FM.new w h st : FM K V A M σ P B) :=
  ⟨gridOk_new w h, ⟨st, [], .nil _⟩, keysNodup_nil⟩

variable {s s' : FM K V A M σ P B} {r : Except (MatrixError (NodeId K)) Unit}

theorem inv_sync (hi : Inv T a0 run s) (h : s.sync T a0 run E = some (s', r)) : Inv T a0 run s' := by
  have hS := sync_stage hi.grid h
  exact ⟨hS.grid, reached_way hi.reached (sync_way base_any hi.grid hi.reached h), by rw [hS.props]; exact hi.props⟩

theorem inv_clear (hi : Inv T a0 run s) (h : s.clear T a0 run E = some s') : Inv T a0 run s' := by
  have hC := clear_stage hi.grid hi.reached h
  exact ⟨hC.grid, reached_way hi.reached (hC.way any base_any trivial True), by rw [hC.props]; exact keysNodup_nil⟩

/-- The three stages of loading. -/
theorem fromRepr_stages {rp : PatchRepr K V A PR BR} (h : s.fromRepr T a0 run E rp = some (s', r)) :
    ∃ s1 s2, s.clear T a0 run E = some s1 ∧ s1.load T a0 run E rp = some s2 ∧ s2.sync T a0 run E = some (s', r) := by
  unfold FM.fromRepr at h
  obtain ⟨s1, h1, h2⟩ := Option.bind_eq_some_iff.1 h
  obtain ⟨s2, h3, h4⟩ := Option.bind_eq_some_iff.1 h2
  exact ⟨s1, s2, h1, h3, h4⟩

theorem inv_load {rp : PatchRepr K V A PR BR} (hi : Inv T a0 run s) (hr : ∀ c ∈ rp.cells, ∀ n, c.nodeId = some n → n.inst < 256)
    (h : s.load T a0 run E rp = some s') : Inv T a0 run s' := by
  have hL := load_stage h
  exact ⟨by rw [hL.grid]; exact (gridOk_load hi.grid rp.cells hr).1, reached_way hi.reached (hL.way any base_any.toSets (fun _ _ _ => trivial) True),
    by rw [hL.props]; exact keysNodup_insertAll _ _ hi.props⟩

theorem inv_fromRepr {rp : PatchRepr K V A PR BR} (hi : Inv T a0 run s) (hr : ∀ c ∈ rp.cells, ∀ n, c.nodeId = some n → n.inst < 256)
    (h : s.fromRepr T a0 run E rp = some (s', r)) : Inv T a0 run s' := by
  obtain ⟨s1, s2, h1, h2, h3⟩ := fromRepr_stages h
  exact inv_sync (inv_load (inv_clear hi h1) hr h2) h3

/-- The engine can be followed until the new program is made. -/
theorem load_tracks (hZ : Two T a0 run ok0 okL ok1 F0 FL F1) {rp : PatchRepr K V A PR BR} (hi : Inv T a0 run s) (hd : ok0 .deleteNodes)
    (hp : ∀ e ∈ rp.params, ∀ v, okL (.setInput e.1.1 e.1.2 v)) {s1 s2 : FM K V A M σ P B}
    (h1 : s.clear T a0 run E = some s1) (h2 : s1.load T a0 run E rp = some s2) (hq : s2.world.queue.length < queueCapacity) :
    ∀ t, F0 s.world t → ∃ t', F1 s2.world t' := by
  intro t ht
  have hC := clear_stage hi.grid hi.reached h1
  have w1 := hC.way ok0 hZ.b0 hd True
  have w2 := (load_stage h2).way okL hZ.bL hp True
  have q2 := way_queue w2
  obtain ⟨t1, ht1⟩ := way_follows hZ.c0 trivial w1 (by omega) t ht
  have hno : ∀ n, s1.world.conf.instanceOf n = none := by
    intro n
    cases hx : s1.world.conf.instanceOf n with
    | none => rfl
    | some ni =>
      have := instanceOf_isSome_mem (wf_reached (inv_clear hi h1).reached) hx
      rw [hC.ids] at this
      cases this
  obtain ⟨t2, ht2⟩ := way_follows hZ.cL trivial w2 hq t1 (hZ.into _ _ ht1 hno)
  exact ⟨t2, hZ.out _ _ ht2⟩

theorem call_spec {op : EOp (NodeId K) V A M} (h : s.call T a0 run op = some s') :
    ∃ w out, s.world.step T a0 run op = some (w, out) ∧ s' = { s with world := w } := by
  simp only [FM.call] at h
  obtain ⟨⟨w, out⟩, h1, rfl⟩ := Option.map_eq_some_iff.1 h
  exact ⟨w, out, h1, rfl⟩

theorem way_one {w w1 : World (NodeId K) V A M σ} {small : Prop} {op : EOp (NodeId K) V A M} {out} (hq : IsSet op) (hok : ok op) (h : w.step T a0 run op = some (w1, out)) :
    Way T a0 run ok small w w1 := by
  cases op with
  | setInput n i v => exact .step (op := .setInput n i v) (.refl _) trivial ⟨trivial, hok⟩ (fun _ _ _ e => nomatch e) h
  | setAtom n i v => exact .step (op := .setAtom n i v) (.refl _) trivial ⟨trivial, hok⟩ (fun _ _ _ e => nomatch e) h
  | setModamt p v => exact .step (op := .setModamt p v) (.refl _) trivial ⟨trivial, hok⟩ (fun _ _ _ e => nomatch e) h
  | _ => exact absurd hq id

theorem inv_world {w : World (NodeId K) V A M σ} (hi : Inv T a0 run s) (hr : Reached T a0 run w) : Inv T a0 run { s with world := w } :=
  ⟨hi.grid, hr, hi.props⟩

theorem inv_count (hi : Inv T a0 run s) (n : Nat) : Inv T a0 run { s with grid := { s.grid with genCounter := n } } :=
  ⟨gridOk_counter hi.grid n, hi.reached, hi.props⟩

/-- Every call keeps the invariant, and the engine can be followed. -/
theorem step_tracks (hZ : Two T a0 run ok0 okL ok1 F0 FL F1) (hi : Inv T a0 run s) {op : FOp K V A P PR B BR} (ht : op.Typed) (hu : op.Uses T a0 run ok0 okL F0 F1) {err : Option (MatrixError (NodeId K))}
    (h : s.step T a0 run E op = some (s', err)) : Inv T a0 run s' ∧ Tracks F0 F1 s s' := by
  have hgrid : ∀ g, GridOk g → s' = { s with grid := g } → Inv T a0 run s' ∧ Tracks F0 F1 s s' := by
    rintro g hg rfl
    exact ⟨⟨hg, hi.reached, hi.props⟩, tracks_same hZ.le rfl⟩
  have haudio : ∀ o : EOp (NodeId K) V A M, (o = .poll ∨ (∃ n, o = .process n) ∨ o = .dropOne ∨ ∃ n, o = .setSlope n) → Moves T a0 run F0 F1 o → ∀ s1, s.call T a0 run o = some s1 → s1 = s' →
      Inv T a0 run s' ∧ Tracks F0 F1 s s' := by
    rintro o ho hmv s1 hc rfl
    obtain ⟨w, out, hw, rfl⟩ := call_spec hc
    have hp : Polite s.world o := by rcases ho with rfl | ⟨n, rfl⟩ | rfl | ⟨n, rfl⟩ <;> trivial
    exact ⟨inv_world hi (reached_step hi.reached hp hw), fun _ t ht => ⟨_, hmv _ _ _ _ ht (audio_facts ho hw t).1 hw⟩⟩
  have hset : ∀ o : EOp (NodeId K) V A M, IsSet o → ok1 o → ∀ s1, s.setParam T a0 run o = some s1 → s1 = s' → Inv T a0 run s' ∧ Tracks F0 F1 s s' := by
    rintro o ho hok s1 hc rfl
    unfold FM.setParam at hc
    obtain ⟨s2, h2, rfl⟩ := Option.map_eq_some_iff.1 hc
    obtain ⟨w, out, hw, rfl⟩ := call_spec h2
    have := way_one (small := w.conf.nodes.length ≤ 256) ho hok hw
    exact ⟨inv_count (inv_world hi (reached_way hi.reached this)) _, tracks_le' hZ.le (tracks_way hZ.c1 this)⟩
  cases op with
  | place x y c =>
    simp only [FM.step, Option.some.injEq, Prod.mk.injEq] at h
    exact hgrid _ (gridOk_place hi.grid x y ht) h.1.symm
  | placeCell c =>
    simp only [FM.step, Option.some.injEq, Prod.mk.injEq] at h
    exact hgrid _ (gridOk_place hi.grid _ _ ht) h.1.symm
  | placeMultiple cs =>
    simp only [FM.step] at h
    obtain ⟨⟨g, e⟩, h1, h2⟩ := Option.map_eq_some_iff.1 h
    simp only [Prod.mk.injEq] at h2
    exact hgrid g (gridOk_placeMultiple hi.grid cs ht h1) h2.1.symm
  | check =>
    simp only [FM.step] at h
    obtain ⟨⟨g, e⟩, h1, h2⟩ := Option.map_eq_some_iff.1 h
    simp only [Prod.mk.injEq] at h2
    obtain ⟨w1, w2, -⟩ := Matrix.wf_check hi.grid.wfs.toWF h1
    exact hgrid g (gridOk_same hi.grid w1 w2) h2.1.symm
  | save =>
    simp only [FM.step, Option.some.injEq, Prod.mk.injEq] at h
    exact hgrid _ (gridOk_save hi.grid) h.1.symm
  | restore =>
    simp only [FM.step, Option.some.injEq, Prod.mk.injEq] at h
    exact hgrid _ (gridOk_restore hi.grid) h.1.symm
  | sync =>
    simp only [FM.step] at h
    obtain ⟨⟨s1, r⟩, h1, h2⟩ := Option.map_eq_some_iff.1 h
    simp only [Prod.mk.injEq] at h2
    rw [← h2.1]; exact ⟨inv_sync hi h1, tracks_le' hZ.le (tracks_way hZ.c1 (sync_way hZ.b1 hi.grid hi.reached h1))⟩
  | clear =>
    simp only [FM.step] at h
    obtain ⟨s1, h1, h2⟩ := Option.map_eq_some_iff.1 h
    simp only [Prod.mk.injEq] at h2
    rw [← h2.1]; exact ⟨inv_clear hi h1, tracks_le hZ.le (tracks_way hZ.c0 ((clear_stage hi.grid hi.reached h1).way ok0 hZ.b0 hu _))⟩
  | setInput n i v =>
    simp only [FM.step] at h
    obtain ⟨s1, h1, h2⟩ := Option.map_eq_some_iff.1 h
    simp only [Prod.mk.injEq] at h2
    unfold FM.setParam at h1
    obtain ⟨s2, h3, rfl⟩ := Option.map_eq_some_iff.1 h1
    obtain ⟨w, out, hw, rfl⟩ := call_spec h3
    rw [← h2.1]
    have := way_one (ok := any) (small := True) (op := .setInput n i v) trivial trivial hw
    refine ⟨inv_count (inv_world hi (reached_way hi.reached this)) _, fun hr t hf => ⟨_, hu _ _ _ _ hf ?_ hw⟩⟩
    have hq := queue_by (op := .setInput n i v) trivial hw
    have hlt := hr.1
    simp only at hlt
    exact careful_by trivial trivial (fun _ _ _ e => nomatch e) (by omega)
  | setAtom n i v =>
    simp only [FM.step] at h
    obtain ⟨s1, h1, h2⟩ := Option.map_eq_some_iff.1 h
    simp only [Prod.mk.injEq] at h2
    exact hset (.setAtom n i v) trivial (hZ.b1.atom n i v) s1 h1 h2.1
  | setModamt p v =>
    simp only [FM.step] at h
    obtain ⟨⟨s1, r⟩, h1, h2⟩ := Option.map_eq_some_iff.1 h
    simp only [Prod.mk.injEq] at h2
    rw [← h2.1]
    unfold FM.setModamt at h1
    obtain ⟨s2, h3, h4⟩ := Option.bind_eq_some_iff.1 h1
    obtain ⟨w, out, hw, rfl⟩ := call_spec h3
    have hway := fun small => way_one (ok := ok1) (small := small) (op := .setModamt p v) trivial (hZ.b1.amt p v) hw
    have hi2 := inv_world hi (reached_way hi.reached (hway True))
    split at h4
    · have := inv_sync hi2 h4
      exact ⟨this, tracks_le' hZ.le (tracks_way hZ.c1 (way_trans (hway _) (sync_way hZ.b1 hi2.grid hi2.reached h4)))⟩
    · simp only [Option.some.injEq, Prod.mk.injEq] at h4
      rw [← h4.1]
      exact ⟨inv_count hi2 _, tracks_le' hZ.le (tracks_way hZ.c1 (hway _))⟩
  | setProp k a =>
    simp only [FM.step, Option.some.injEq, Prod.mk.injEq] at h
    rw [← h.1]
    exact ⟨⟨gridOk_counter hi.grid _, hi.reached, keysNodup_insert hi.props _ _⟩, tracks_same hZ.le rfl⟩
  | monitor c =>
    simp only [FM.step, Option.some.injEq, Prod.mk.injEq] at h
    rw [← h.1]
    obtain ⟨h1, -⟩ := monitorCell_world (T := T) (a0 := a0) (run := run) s c
    have hway := fun small => way_monitor (small := small) hZ.b1 h1
    exact ⟨⟨hi.grid, reached_way hi.reached (hway True), hi.props⟩, tracks_le' hZ.le (tracks_way hZ.c1 (hway _))⟩
  | toRepr =>
    simp only [FM.step, Option.some.injEq, Prod.mk.injEq] at h
    rw [← h.1]
    exact ⟨⟨hi.grid, hi.reached, hi.props⟩, tracks_same hZ.le rfl⟩
  | fromRepr rp =>
    simp only [FM.step] at h
    obtain ⟨⟨s1, r⟩, h1, h2⟩ := Option.map_eq_some_iff.1 h
    simp only [Prod.mk.injEq] at h2
    rw [← h2.1]
    refine ⟨inv_fromRepr hi ht h1, fun hr t hf => ?_⟩
    obtain ⟨s3, s4, h3, h4, h5⟩ := fromRepr_stages h1
    have hi4 := inv_load (inv_clear hi h3) ht h4
    have hw := sync_way hZ.b1 hi4.grid hi4.reached h5
    have hq := way_queue hw
    have hlt := hr.1
    obtain ⟨t1, ht1⟩ := load_tracks hZ hi hu.1 hu.2 h3 h4 (by omega) t hf
    exact way_follows hZ.c1 hr.2 hw hlt t1 ht1
  | editPat i p =>
    simp only [FM.step, Option.some.injEq, Prod.mk.injEq] at h
    rw [← h.1]
    exact ⟨⟨hi.grid, hi.reached, hi.props⟩, tracks_same hZ.le rfl⟩
  | editFun i p =>
    simp only [FM.step, Option.some.injEq, Prod.mk.injEq] at h
    rw [← h.1]
    exact ⟨⟨hi.grid, hi.reached, hi.props⟩, tracks_same hZ.le rfl⟩
  | poll =>
    simp only [FM.step] at h
    obtain ⟨s1, h1, h2⟩ := Option.map_eq_some_iff.1 h
    simp only [Prod.mk.injEq] at h2
    exact haudio .poll (Or.inl rfl) hu s1 h1 h2.1
  | process n =>
    simp only [FM.step] at h
    obtain ⟨s1, h1, h2⟩ := Option.map_eq_some_iff.1 h
    simp only [Prod.mk.injEq] at h2
    exact haudio (.process n) (Or.inr (Or.inl ⟨n, rfl⟩)) hu s1 h1 h2.1
  | dropOne =>
    simp only [FM.step] at h
    obtain ⟨s1, h1, h2⟩ := Option.map_eq_some_iff.1 h
    simp only [Prod.mk.injEq] at h2
    exact haudio .dropOne (Or.inr (Or.inr (Or.inl rfl))) hu s1 h1 h2.1
  | setSlope n =>
    simp only [FM.step] at h
    obtain ⟨s1, h1, h2⟩ := Option.map_eq_some_iff.1 h
    simp only [Prod.mk.injEq] at h2
    exact haudio (.setSlope n) (Or.inr (Or.inr (Or.inr ⟨n, rfl⟩))) hu s1 h1 h2.1

theorem inv_step (hi : Inv T a0 run s) {op : FOp K V A P PR B BR} (ht : op.Typed) {err : Option (MatrixError (NodeId K))}
    (h : s.step T a0 run E op = some (s', err)) : Inv T a0 run s' := (step_tracks two_follows hi ht (uses_follows op) h).1

theorem inv_outside (hi : Inv T a0 run s) (st : σ) : Inv T a0 run (s.outside st) := ⟨hi.grid, reached_outside hi.reached st, hi.props⟩

theorem reach_inv {Q : FM K V A M σ P B → Prop} (h : Reach T a0 run E Q s) : Inv T a0 run s := by
  induction h with
  | new w h st => exact inv_new w h st
  | step _ ht hs _ ih => exact inv_step ih ht hs
  | outside st _ _ ih => exact inv_outside ih st

theorem reach_follows (h : Reach T a0 run E Room s) : ∃ t, Follows T a0 run s.world t := by
  induction h with
  | new w h st => exact ⟨_, .new st⟩
  | step h0 ht hs hq ih =>
    obtain ⟨t, hf⟩ := ih
    exact (step_tracks two_follows (reach_inv h0) ht (uses_follows _) hs).2 hq t hf
  | outside st _ _ ih =>
    obtain ⟨t, hf⟩ := ih
    exact ⟨t, .outside st hf⟩

/-! ## What plays -/

/-- A call that makes a new program: the grid plays. -/
theorem plays_upload (hZ : Two T a0 run ok0 okL ok1 F0 FL F1) (hi : Inv T a0 run s) {op : FOp K V A P PR B BR} (ht : op.Typed) (huse : op.Uses T a0 run ok0 okL F0 F1)
    (hu : op.Uploads s)
    (h : s.step T a0 run E op = some (s', none)) (hroom : Room s') {t : Track (NodeId K) V A} (hf : F0 s.world t) :
    ∃ t', F1 s'.world t' ∧ Plays T s'.grid t' s'.world.conf := by
  have hsync : ∀ {s1 s2 : FM K V A M σ P B} {r}, Inv T a0 run s1 → Room s2 → s1.sync T a0 run E = some (s2, r) → r = .ok () →
      ∀ {t : Track (NodeId K) V A}, F1 s1.world t → ∃ t', F1 s2.world t' ∧ Plays T s2.grid t' s2.world.conf := by
    intro s1 s2 r hi1 hr h1 hok t ht
    obtain ⟨t', a1, a2⟩ := sync_plays hZ.b1 hZ.c1 hi1.grid hi1.reached h1 hr ht hok
    exact ⟨t', a1, plays_same (sync_stage hi1.grid h1).same a2⟩
  have hok : ∀ r : Except (MatrixError (NodeId K)) Unit, errOf r = none → r = .ok () := by
    intro r hr; cases r with
    | ok u => rfl
    | error e => simp [errOf] at hr
  cases op with
  | sync =>
    simp only [FM.step] at h
    obtain ⟨⟨s1, r⟩, h1, h2⟩ := Option.map_eq_some_iff.1 h
    simp only [Prod.mk.injEq] at h2
    obtain ⟨rfl, h2⟩ := h2
    exact hsync hi hroom h1 (hok _ h2) (hZ.le _ _ hf)
  | clear =>
    simp only [FM.step] at h
    obtain ⟨s1, h1, h2⟩ := Option.map_eq_some_iff.1 h
    simp only [Prod.mk.injEq] at h2
    obtain ⟨rfl, -⟩ := h2
    obtain ⟨t', a1, a2⟩ := (clear_stage hi.grid hi.reached h1).plays ok0 F0 hZ.b0 huse hZ.c0 hroom t hf
    exact ⟨t', hZ.le _ _ a1, a2⟩
  | fromRepr rp =>
    simp only [FM.step] at h
    obtain ⟨⟨s1, r⟩, h1, h2⟩ := Option.map_eq_some_iff.1 h
    simp only [Prod.mk.injEq] at h2
    obtain ⟨rfl, h2⟩ := h2
    obtain ⟨s3, s4, h3, h4, h5⟩ := fromRepr_stages h1
    have hi3 := inv_clear hi h3
    have hi4 := inv_load hi3 ht h4
    have hq := way_queue (sync_way hZ.b1 hi4.grid hi4.reached h5)
    have hlt := hroom.1
    obtain ⟨t1, ht1⟩ := load_tracks hZ hi huse.1 huse.2 h3 h4 (by omega) t hf
    exact hsync hi4 hroom h5 (hok _ h2) ht1
  | setModamt p v =>
    simp only [FM.step] at h
    obtain ⟨⟨s1, r⟩, h1, h2⟩ := Option.map_eq_some_iff.1 h
    simp only [Prod.mk.injEq] at h2
    obtain ⟨rfl, h2⟩ := h2
    unfold FM.setModamt at h1
    obtain ⟨s2, h3, h4⟩ := Option.bind_eq_some_iff.1 h1
    obtain ⟨w, out, hw, rfl⟩ := call_spec h3
    have hway := way_one (ok := ok1) (small := True) (op := .setModamt p v) trivial (hZ.b1.amt p v) hw
    have hi2 := inv_world hi (reached_way hi.reached hway)
    cases p with
    | atom n i => exact absurd hu id
    | input n i =>
      have hflag : (s.world.conf.setModamt (M := M) (.input n i) v).2.2 = true := by
        have hu' : ¬ ((s.world.conf.getModamt (.input n i)).isSome ∧ v.isSome) := hu
        simp only [Conf.getModamt] at hu'
        simp only [Conf.setModamt]
        cases hc : (s.world.conf.paramModamt.lookup (n, i)).join with
        | none => rfl
        | some x => cases v with
          | none => rfl
          | some y => simp [hc] at hu'
      rw [if_pos hflag] at h4
      have hq := way_queue (sync_way hZ.b1 hi2.grid hi2.reached h4)
      have hlt := hroom.1
      simp only at hq
      obtain ⟨t1, ht1⟩ := way_follows hZ.c1 trivial hway (by omega) t (hZ.le _ _ hf)
      exact hsync hi2 hroom h4 (hok _ h2) ht1
  | _ => exact absurd hu id

theorem agree_of_same {c c' : Conf (NodeId K) V A} (h : SameTables c c') {t : Track (NodeId K) V A} (ha : Agree T t c) : Agree T t c' := by
  obtain ⟨h1, h2⟩ := paramIn_of (T := T) h.param
  exact ⟨by rw [h1]; exact ha.param, by rw [h2]; exact ha.atom, fun n i => by rw [h.amt]; exact ha.amt n i⟩

theorem plays_final {m : Matrix (NodeId K)} {c : Conf (NodeId K) V A} {t t' : Track (NodeId K) V A} (h : final t' = final t) (hp : Plays T m t c) :
    Plays T m t' c := by
  refine ⟨⟨?_, ?_, ?_⟩, ?_, ?_⟩
  · rw [h]; exact hp.agree.param
  · rw [h]; exact hp.agree.atom
  · rw [h]; exact hp.agree.amt
  · rw [h]; exact hp.order
  · rw [h]; exact hp.wires

/-- A call that makes no new program: the same grid plays, with the new values. -/
theorem plays_keep (hZ : Two T a0 run ok0 okL ok1 F0 FL F1) (hi : Inv T a0 run s) {op : FOp K V A P PR B BR} (huse : op.Uses T a0 run ok0 okL F0 F1)
    {err : Option (MatrixError (NodeId K))} (hk : op.Keeps s err)
    (h : s.step T a0 run E op = some (s', err)) (hroom : Room s') {m : Matrix (NodeId K)} {t : Track (NodeId K) V A}
    (hf : F0 s.world t) (hp : Plays T m t s.world.conf) :
    ∃ t', F1 s'.world t' ∧ Plays T m t' s'.world.conf := by
  have hsame : s'.world = s.world → ∃ t', F1 s'.world t' ∧ Plays T m t' s'.world.conf := by
    intro hw; rw [hw]; exact ⟨t, hZ.le _ _ hf, hp⟩
  have haudio : ∀ o : EOp (NodeId K) V A M, (o = .poll ∨ (∃ n, o = .process n) ∨ o = .dropOne ∨ ∃ n, o = .setSlope n) → Moves T a0 run F0 F1 o → ∀ s1, s.call T a0 run o = some s1 → s1 = s' →
      ∃ t', F1 s'.world t' ∧ Plays T m t' s'.world.conf := by
    rintro o ho hmv s1 hc rfl
    obtain ⟨w, out, hw, rfl⟩ := call_spec hc
    obtain ⟨a1, a2, a3⟩ := audio_facts ho hw t
    refine ⟨_, hmv _ _ _ _ hf a1 hw, ?_⟩
    simp only [a3]
    exact plays_final a2 hp
  have hone : ∀ o : EOp (NodeId K) V A M, IsSet o → Moves T a0 run F0 F1 o → NoToggle s.world.conf o → ∀ w out, s.world.step T a0 run o = some (w, out) → s'.world = w →
      ∃ t', F1 s'.world t' ∧ Plays T m t' s'.world.conf := by
    rintro o ho hok hno w out hw hsw
    have hpol : Polite s.world o := by cases o <;> trivial
    have hq := queue_mono (Or.inl (quiet_of_set o ho)) hw
    have hlt := hroom.1
    rw [hsw] at hlt
    obtain ⟨a1, a2, a3⟩ := agree_set ho hno hw hp.agree
    rw [hsw]
    exact ⟨_, hok _ _ _ _ hf (careful_quiet hpol (quiet_of_set o ho) (by omega)) hw, ⟨a1, by rw [a2]; exact hp.order, by rw [a3]; exact hp.wires⟩⟩
  have hset : ∀ o : EOp (NodeId K) V A M, IsSet o → Moves T a0 run F0 F1 o → NoToggle s.world.conf o → ∀ s1, s.setParam T a0 run o = some s1 → s1 = s' →
      ∃ t', F1 s'.world t' ∧ Plays T m t' s'.world.conf := by
    rintro o ho hok hno s1 hc rfl
    unfold FM.setParam at hc
    obtain ⟨s2, h2, rfl⟩ := Option.map_eq_some_iff.1 hc
    obtain ⟨w, out, hw, rfl⟩ := call_spec h2
    exact hone o ho hok hno w out hw rfl
  cases op with
  | clear => exact absurd hk id
  | fromRepr rp => exact absurd hk id
  | sync =>
    simp only [FM.step] at h
    obtain ⟨⟨s1, r⟩, h1, h2⟩ := Option.map_eq_some_iff.1 h
    simp only [Prod.mk.injEq] at h2
    obtain ⟨rfl, h2⟩ := h2
    have hS := sync_stage hi.grid h1
    rcases hS.result with ⟨-, -, hw⟩ | ⟨-, hok, -⟩
    · obtain ⟨-, g2, -, g4⟩ := createNodes_way (T := T) (a0 := a0) (run := run) (E := E) hZ.b1 hi.grid hi.reached True
      obtain ⟨t', a1, a2⟩ := g4 F1 hZ.c1 t (hZ.le _ _ hf)
      rw [hw]
      refine ⟨t', a1, plays_final a2 ⟨agree_of_same g2 hp.agree, hp.order, hp.wires⟩⟩
    · rw [hok] at h2
      exact absurd h2.symm hk
  | setInput n i v =>
    simp only [FM.step] at h
    obtain ⟨s1, h1, h2⟩ := Option.map_eq_some_iff.1 h
    simp only [Prod.mk.injEq] at h2
    exact hset (.setInput n i v) trivial huse trivial s1 h1 h2.1
  | setAtom n i v =>
    simp only [FM.step] at h
    obtain ⟨s1, h1, h2⟩ := Option.map_eq_some_iff.1 h
    simp only [Prod.mk.injEq] at h2
    exact hset (.setAtom n i v) trivial (fun _ _ _ _ h hc hs => hZ.c1 _ _ _ _ _ (hZ.le _ _ h) (hZ.b1.atom n i v) hc hs) trivial s1 h1 h2.1
  | setModamt p v =>
    simp only [FM.step] at h
    obtain ⟨⟨s1, r⟩, h1, h2⟩ := Option.map_eq_some_iff.1 h
    simp only [Prod.mk.injEq] at h2
    obtain ⟨rfl, -⟩ := h2
    unfold FM.setModamt at h1
    obtain ⟨s2, h3, h4⟩ := Option.bind_eq_some_iff.1 h1
    obtain ⟨w, out, hw, rfl⟩ := call_spec h3
    cases p with
    | atom n i =>
      have hflag : (s.world.conf.setModamt (M := M) (.atom n i) v).2.2 = false := rfl
      rw [hflag] at h4
      simp only [Bool.false_eq_true, if_false, Option.some.injEq, Prod.mk.injEq] at h4
      have hsw : s1.world = w := by rw [← h4.1]
      have hc : w.conf = s.world.conf := by
        simp only [World.step, Option.some.injEq, Prod.mk.injEq] at hw
        rw [← hw.1, conf_sendAll]; rfl
      have hcare : Careful T s.world (.setModamt (.atom n i) v : EOp (NodeId K) V A M) :=
        ⟨trivial, fun hh => absurd rfl hh, (fun _ _ _ e => nomatch e), (fun _ _ _ e => nomatch e)⟩
      rw [hsw, hc]
      exact ⟨_, hZ.c1 _ _ _ _ _ (hZ.le _ _ hf) (hZ.b1.amt _ _) hcare hw, plays_final (final_append_nil _) hp⟩
    | input n i =>
      have hk' : (s.world.conf.getModamt (.input n i)).isSome ∧ v.isSome := hk
      have hflag : (s.world.conf.setModamt (M := M) (.input n i) v).2.2 = false := by
        have hk2 := hk'
        simp only [Conf.getModamt] at hk2
        simp only [Conf.setModamt]
        cases hc : (s.world.conf.paramModamt.lookup (n, i)).join with
        | none => simp [hc] at hk2
        | some x => cases v with
          | none => simp at hk2
          | some y => rfl
      rw [hflag] at h4
      simp only [Bool.false_eq_true, if_false, Option.some.injEq, Prod.mk.injEq] at h4
      have hsw : s1.world = w := by rw [← h4.1]
      exact hone (.setModamt (.input n i) v) trivial (fun _ _ _ _ h hc hs => hZ.c1 _ _ _ _ _ (hZ.le _ _ h) (hZ.b1.amt _ _) hc hs) (by simp only [NoToggle, hk'.1, hk'.2]) w out hw hsw
  | monitor c =>
    simp only [FM.step, Option.some.injEq, Prod.mk.injEq] at h
    obtain ⟨rfl, -⟩ := h
    obtain ⟨h1, h2⟩ := monitorCell_world (T := T) (a0 := a0) (run := run) s c
    obtain ⟨t', a1, a2, a3, a4⟩ := follows_monitor hZ.b1 hZ.c1 h1 hroom.1 (hZ.le _ _ hf)
    exact ⟨t', a1, ⟨by rw [h2]; exact a4 _ hp.agree, by rw [a2]; exact hp.order, by rw [a3]; exact hp.wires⟩⟩
  | poll =>
    simp only [FM.step] at h
    obtain ⟨s1, h1, h2⟩ := Option.map_eq_some_iff.1 h
    simp only [Prod.mk.injEq] at h2
    exact haudio .poll (Or.inl rfl) huse s1 h1 h2.1
  | process n =>
    simp only [FM.step] at h
    obtain ⟨s1, h1, h2⟩ := Option.map_eq_some_iff.1 h
    simp only [Prod.mk.injEq] at h2
    exact haudio (.process n) (Or.inr (Or.inl ⟨n, rfl⟩)) huse s1 h1 h2.1
  | dropOne =>
    simp only [FM.step] at h
    obtain ⟨s1, h1, h2⟩ := Option.map_eq_some_iff.1 h
    simp only [Prod.mk.injEq] at h2
    exact haudio .dropOne (Or.inr (Or.inr (Or.inl rfl))) huse s1 h1 h2.1
  | setSlope n =>
    simp only [FM.step] at h
    obtain ⟨s1, h1, h2⟩ := Option.map_eq_some_iff.1 h
    simp only [Prod.mk.injEq] at h2
    exact haudio (.setSlope n) (Or.inr (Or.inr (Or.inr ⟨n, rfl⟩))) huse s1 h1 h2.1
  | placeMultiple cs =>
    simp only [FM.step] at h
    obtain ⟨⟨g, e⟩, h1, h2⟩ := Option.map_eq_some_iff.1 h
    simp only [Prod.mk.injEq] at h2
    exact hsame (by rw [← h2.1])
  | check =>
    simp only [FM.step] at h
    obtain ⟨⟨g, e⟩, h1, h2⟩ := Option.map_eq_some_iff.1 h
    simp only [Prod.mk.injEq] at h2
    exact hsame (by rw [← h2.1])
  | setProp k a =>
    simp only [FM.step, Option.some.injEq, Prod.mk.injEq] at h
    exact hsame (by rw [← h.1]; rfl)
  | toRepr =>
    simp only [FM.step, Option.some.injEq, Prod.mk.injEq] at h
    exact hsame (by rw [← h.1]; rfl)
  | _ =>
    simp only [FM.step, Option.some.injEq, Prod.mk.injEq] at h
    exact hsame (by rw [← h.1])

theorem since_plays {s0 : FM K V A M σ P B} (hi : Inv T a0 run s0) {m : Matrix (NodeId K)} {t0 : Track (NodeId K) V A}
    (hf : Follows T a0 run s0.world t0) (hp : Plays T m t0 s0.world.conf) (h : Since T a0 run E Room s0 s) :
    Inv T a0 run s ∧ ∃ t, Follows T a0 run s.world t ∧ Plays T m t s.world.conf := by
  induction h with
  | refl => exact ⟨hi, t0, hf, hp⟩
  | step _ ht hs hk hq ih =>
    obtain ⟨i1, t, f1, p1⟩ := ih
    exact ⟨inv_step i1 ht hs, plays_keep two_follows i1 (uses_follows _) hk hs hq f1 p1⟩
  | outside st _ _ ih =>
    obtain ⟨i1, t, f1, p1⟩ := ih
    exact ⟨inv_outside i1 st, t, .outside st f1, p1⟩

/-! ## What a block computes -/

theorem feeds_wire {m : Matrix (NodeId K)} {p : CellDir.Pos} {d : CellDir} {e : Edge (NodeId K)} (hw : m.Wire p d e)
    (hin : e.dstInput < T.inCount e.dst) (hout : e.srcOut < T.outCount e.src)
    (hu : ∀ p' d' e', m.Wire p' d' e' → e'.dst = e.dst → e'.dstInput = e.dstInput → (p', d') = (p, d)) :
    Feeds T (wiring m) e.dst e.dstInput (connOf e) := by
  refine ⟨⟨hin, hout⟩, rfl, rfl, ?_⟩
  obtain ⟨pre, post, he⟩ := List.append_of_mem ((Matrix.mem_allWires (p, d, e)).2 hw)
  refine ⟨pre.map (fun w => connOf w.2.2), post.map (fun w => connOf w.2.2), by unfold wiring; rw [he]; simp, ?_⟩
  rintro e' he' - ⟨h1, h2⟩
  obtain ⟨w', hw', rfl⟩ := List.mem_map.1 he'
  have hmem : w' ∈ allWires m := by rw [he]; simp [hw']
  have hpd := hu w'.1 w'.2.1 w'.2.2 ((Matrix.mem_allWires w').1 hmem) h1 h2
  have hnd := Matrix.allWires_nodup m
  rw [he] at hnd
  simp only [List.map_append, List.map_cons] at hnd
  have := (List.nodup_cons.1 (List.nodup_append.1 hnd).2.1).1
  exact this (List.mem_map.2 ⟨w', hw', hpd⟩)

theorem flow_of_plays (hT : ∀ n, T.inCount n ≤ 32) {w w2 w3 : World (NodeId K) V A M σ} {m : Matrix (NodeId K)} {t : Track (NodeId K) V A}
    (hf : Follows T a0 run w t) (hp : Plays T m t w.conf) {out : Option (BlockResult (NodeId K) V A)} {nf : Nat} {res : BlockResult (NodeId K) V A}
    (h1 : w.step T a0 run .poll = some (w2, out)) (h2 : w2.step T a0 run (.process nf) = some (w3, some res)) :
    GridFlow T m w.conf nf res.calls := by
  have hcare : Careful T w (.poll : EOp (NodeId K) V A M) := ⟨trivial, fun hh => absurd rfl hh, (fun _ _ _ hh => nomatch hh), (fun _ _ _ hh => nomatch hh)⟩
  have hf2 := Follows.call hf hcare h1
  have hnow : (t.step (M := M) T w.conf .poll).now = final t := rfl
  have hfl := (FlowProps.block_is_dataflow hT hf2 h2).2
  rw [hnow] at hfl
  refine ⟨by rw [hfl.order]; exact hp.order.nodup, by rw [hfl.order]; exact hp.order.nodes, by rw [hfl.order]; exact hp.order.before, ?_, ?_, ?_⟩
  · intro p d e hw hin hout hu
    have hfe : Feeds T (final t).wires e.dst e.dstInput (connOf e) := by rw [hp.wires]; exact feeds_wire hw hin hout hu
    have hdst : e.dst ∈ res.calls.map (·.node) := by
      rw [hfl.order]
      obtain ⟨-, q, a, b, -, -, hb, -, -, hn, -⟩ := hw
      exact (hp.order.nodes _).2 ⟨q.1, q.2, b, hb, hn⟩
    obtain ⟨k, hk, hkn⟩ := List.mem_map.1 hdst
    have hplen := hfl.nParams k hk
    have hamt := hp.agree.amt e.dst e.dstInput
    rw [← hkn] at hfe
    have hpar : ∃ par, k.params[e.dstInput]? = some par := ⟨_, List.getElem?_eq_getElem (by rw [hplen, hkn]; exact hin)⟩
    cases ha : w.conf.getModamt (.input e.dst e.dstInput) with
    | none =>
      rw [ha] at hamt
      obtain ⟨s, hs, hsn, hx⟩ := hfl.direct k hk e.dstInput _ hfe (by rw [hkn]; exact hamt)
      have holen := hfl.nOutputs s hs
      rw [hsn] at holen
      have hy : ∃ y, s.outputs[e.srcOut]? = some y := ⟨_, List.getElem?_eq_getElem (by rw [holen]; exact hout)⟩
      obtain ⟨y, hy⟩ := hy
      obtain ⟨par, hpar⟩ := hpar
      exact ⟨k, hk, hkn, s, hs, hsn, y, y, par, hy, hx.trans hy, hpar, rfl⟩
    | some a =>
      rw [ha] at hamt
      obtain ⟨s, hs, hsn, x, par, y, g1, g2, g3, g4⟩ := hfl.modulated k hk e.dstInput _ a hfe (by rw [hkn]; exact hamt)
      exact ⟨k, hk, hkn, s, hs, hsn, x, y, par, g3, g1, g2, g4⟩
  · intro k hk i hi hno
    refine hfl.unfed k hk i hi ?_
    intro e he hpl hh
    rw [hp.wires] at he
    obtain ⟨p, d, e', hw, rfl⟩ := (mem_wiring e).1 he
    exact hno p d e' hw hpl.2 hh
  · intro k hk i hi
    rw [hfl.atoms k hk i hi, hp.agree.atom]

end HexoDSP.Patch
