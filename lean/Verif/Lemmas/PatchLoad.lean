import Verif.Lemmas.PatchWay
/-! `clear`, loading a patch, and the numbers of the patterns that are saved. -/

set_option linter.unusedSectionVars false

namespace HexoDSP.Patch
open HexoDSP.EngineSpec HexoDSP.NodeConfProps HexoDSP.Play HexoDSP.MatrixEngineProps
open HexoDSP.Matrix (Matrix Cell Edge MatrixError positions SameGrid WF allWires)
open HexoDSP.Engine

/-! ## The numbers that are saved -/

theorem takeWhile_range (p : Nat → Bool) (N : Nat) :
    ∃ m, m ≤ N ∧ (List.range N).takeWhile p = List.range m ∧ (∀ i, i < m → p i = true) ∧ (m < N → p m = false) := by
  induction N with
  | zero => exact ⟨0, Nat.le_refl _, rfl, fun i hi => by omega, fun h => by omega⟩
  | succ N ih =>
    obtain ⟨m, h1, h2, h3, h4⟩ := ih
    rw [List.range_succ, List.takeWhile_append, h2, List.length_range, List.length_range]
    by_cases hm : m = N
    · subst hm
      rw [if_pos rfl]
      cases hp : p m with
      | true =>
        refine ⟨m + 1, Nat.le_refl _, by simp [List.takeWhile, hp, List.range_succ], ?_, fun h => by omega⟩
        intro i hi
        rcases Nat.lt_or_ge i m with h | h
        · exact h3 i h
        · rw [show i = m by omega]; exact hp
      | false => exact ⟨m, by omega, by simp [List.takeWhile, hp], h3, fun _ => hp⟩
    · rw [if_neg hm]
      exact ⟨m, by omega, rfl, h3, fun _ => h4 (by omega)⟩

theorem idsWhile_spec (n : Nat) (l : List Nat) (has : Nat → Bool) (hl : ∀ i, has i = true → i ∈ l) :
    ∃ m, idsWhile n l.length has = List.range m ∧ ∀ i, i < m ↔ ∀ j, n ≤ j → j ≤ i → has j = true := by
  obtain ⟨m, h1, h2, h3, h4⟩ := takeWhile_range (fun i => decide (i < n) || has i) (n + l.length + 1)
  have hlt : m < n + l.length + 1 := by
    rcases Nat.lt_or_ge m (n + l.length + 1) with h | h
    · exact h
    · exfalso
      have hsub : ∀ x ∈ (List.range (l.length + 1)).map (n + ·), x ∈ l := by
        intro x hx
        obtain ⟨k, hk, rfl⟩ := List.mem_map.1 hx
        have hk := List.mem_range.1 hk
        have := h3 (n + k) (by omega)
        simp only [Bool.or_eq_true, decide_eq_true_eq] at this
        rcases this with h | h
        · omega
        · exact hl _ h
      have hnd : ((List.range (l.length + 1)).map (n + ·)).Nodup :=
        List.nodup_range.map (fun a b h => by simpa using h)
      have := (List.subperm_of_subset hnd hsub).length_le
      simp at this
      omega
  refine ⟨m, h2, fun i => ⟨fun hi j hj1 hj2 => ?_, fun h => ?_⟩⟩
  · have := h3 j (by omega)
    simp only [Bool.or_eq_true, decide_eq_true_eq] at this
    rcases this with h | h
    · omega
    · exact h
  · rcases Nat.lt_or_ge i m with hlt' | hge
    · exact hlt'
    · have := h4 hlt
      simp only [Bool.or_eq_false_iff, decide_eq_false_iff_not] at this
      rw [h m (by omega) hge] at this
      exact absurd this.2 (by simp)

variable {K V A M σ P PR B BR : Type} [DecidableEq K]

theorem patIds_spec (s : FM K V A M σ P B) : ∃ m, s.patIds = List.range m ∧ ∀ i, i < m ↔ SavedPat s i := by
  have := idsWhile_spec 128 (s.pats.map (·.1)) (fun i => (s.pats.lookup i).isSome) (by
    intro i hi
    by_contra hc
    rw [(lookup_none_iff s.pats i).2 hc] at hi
    cases hi)
  rw [List.length_map] at this
  exact this

theorem funIds_spec (s : FM K V A M σ P B) : ∃ m, s.funIds = List.range m ∧ ∀ i, i < m ↔ SavedFun s i := by
  obtain ⟨m, h1, h2⟩ := idsWhile_spec 32 s.engines (fun i => decide (i ∈ s.engines)) (by simp)
  exact ⟨m, h1, fun i => by rw [h2]; simp [SavedFun]⟩

variable [Add V] [Mul V] [Sub V] [Div V] [NatCast V] [OfNat V 0]
variable {T : NodeTable (NodeId K) V A} {a0 : A} {run : σ → CallIn (NodeId K) V A → σ × (Nat → Block V)} {E : Env K V A P PR B BR}

/-! ## `clear` -/

/-- What `clear` leaves. -/
structure Cleared (T : NodeTable (NodeId K) V A) (a0 : A) (run : σ → CallIn (NodeId K) V A → σ × (Nat → Block V)) (E : Env K V A P PR B BR)
    (s s' : FM K V A M σ P B) : Prop where
  grid : GridOk s'.grid
  size : s'.grid.w = s.grid.w ∧ s'.grid.h = s.grid.h
  empty : ∀ x y c, s'.grid.get x y = some c → c.nodeId = none
  props : s'.props = []
  pats : ∀ i, s'.patOf E i = s.patOf E i
  funs : s'.funs = s.funs
  way : ∀ ok, Base ok → ok .deleteNodes → ∀ small, Way T a0 run ok small s.world s'.world
  param : ∀ q, s'.world.conf.getParam q = none
  amt : ∀ q, s'.world.conf.getModamt q = none
  plays : ∀ ok F, Base ok → ok .deleteNodes → Closed T a0 run ok F → Room s' → ∀ t, F s.world t → ∃ t', F s'.world t' ∧ Plays T s'.grid t' s'.world.conf
  ids : s'.world.conf.ids = []

theorem noLoop_of_empty {m : Matrix (NodeId K)} (h : ∀ n, ¬ OnGrid m n) : ¬ m.HasLoop := by
  rintro ⟨a, ha⟩
  have : ∀ b, Relation.TransGen m.Leads a b → ∃ c, m.Leads a c := by
    intro b hb
    induction hb with
    | single h => exact ⟨_, h⟩
    | tail _ _ ih => exact ih
  obtain ⟨c, p, d, e, ⟨-, q, x, y, -, hx, -, hn, -⟩, rfl, -⟩ := this a ha
  exact h e.src ⟨p.1, p.2, x, hx, hn⟩

theorem onGrid_same {m m' : Matrix (NodeId K)} (h : SameGrid m m') (n : NodeId K) : OnGrid m' n ↔ OnGrid m n := by
  unfold OnGrid
  constructor
  · rintro ⟨x, y, c, h1, h2⟩; exact ⟨x, y, c, by rw [← h.get]; exact h1, h2⟩
  · rintro ⟨x, y, c, h1, h2⟩; exact ⟨x, y, c, by rw [h.get]; exact h1, h2⟩

theorem wire_same {m m' : Matrix (NodeId K)} (h : ∀ x y, m'.get x y = m.get x y) (p : CellDir.Pos) (d : CellDir) (e : Edge (NodeId K)) :
    m'.Wire p d e ↔ m.Wire p d e := by
  unfold Matrix.Wire
  simp only [h]

theorem plays_same {m m' : Matrix (NodeId K)} (h : SameGrid m m') {t : Track (NodeId K) V A} {c : Conf (NodeId K) V A} (hp : Plays T m t c) :
    Plays T m' t c := by
  have hg := fun x y => h.get x y
  have hpos : allWires m' = allWires m := by
    unfold Matrix.allWires
    rw [h.w, h.h]
    congr 1
    funext p
    unfold Matrix.wiresAt Matrix.inWire Matrix.getAdjacentOutput Matrix.getAdjacent
    simp only [hg, h.w, h.h, h.cells]
  refine ⟨hp.agree, ⟨hp.order.nodup, fun n => by rw [hp.order.nodes, onGrid_same h], ?_⟩, by rw [hp.wires, wiring, wiring, hpos]⟩
  rintro a b ⟨p, d, e, hw, h1, h2⟩
  exact hp.order.before a b ⟨p, d, e, (wire_same hg p d e).1 hw, h1, h2⟩

theorem clear_stage {s s' : FM K V A M σ P B} (hg : GridOk s.grid) (hr : Reached T a0 run s.world) (h : s.clear T a0 run E = some s') :
    Cleared T a0 run E s s' := by
  unfold FM.clear at h
  obtain ⟨s1, h1, h2⟩ := Option.bind_eq_some_iff.1 h
  obtain ⟨⟨s3, r⟩, h3, rfl⟩ := Option.map_eq_some_iff.1 h2
  simp only [FM.call] at h1
  obtain ⟨⟨w1, out⟩, hd, rfl⟩ := Option.map_eq_some_iff.1 h1
  have hw1 : ∀ ok, ok .deleteNodes → Way T a0 run ok (s3.world.conf.nodes.length ≤ 256) s.world w1 :=
    fun ok hok => .step (op := .deleteNodes) (.refl _) trivial ⟨trivial, hok⟩ (fun _ _ _ e => nomatch e) hd
  have hconf : w1.conf = Conf.new := by
    simp only [World.step, Option.some.injEq, Prod.mk.injEq] at hd
    rw [← hd.1, conf_sendAll]; rfl
  have hm : (FM.monitorCell (FM.mk (emptied s.grid) w1 [] s.monitored s.pats s.funs s.engines : FM K V A M σ P B) (Cell.empty none)) =
      FM.mk (emptied s.grid) w1 [] (Cell.empty none) s.pats s.funs s.engines := rfl
  simp only at h3
  rw [hm] at h3
  have hge := gridOk_emptied hg
  have hr1 := reached_way hr (hw1 any trivial)
  have hS := sync_stage hge h3
  have hway := fun (ok : EOp (NodeId K) V A M → Prop) (hb : Base ok) => sync_way hb hge hr1 h3
  obtain ⟨hk, hids⟩ := kept_sync hge hr1 h3
  have hids0 : s3.world.conf.ids = [] := by
    rw [hids]
    show (w1.conf.createIntermediate (emptied s.grid)).ids = []
    have hcn : cellNodes (emptied s.grid) = [] := by
      apply List.eq_nil_iff_forall_not_mem.2
      intro n hn
      exact emptied_no_nodes s.grid n ((mem_cellNodes _ _).1 hn)
    unfold Conf.createIntermediate
    rw [hcn, hconf]; rfl
  have hlen : s3.world.conf.nodes.length ≤ 256 := by
    have := congrArg List.length hids0
    simp [Conf.ids] at this
    simp [this]
  have hp0 : ∀ q, w1.conf.getParam q = none := by intro q; rw [hconf]; cases q <;> rfl
  have ha0 : ∀ q, w1.conf.getModamt q = none := by intro q; rw [hconf]; cases q <;> rfl
  have hno : ∀ n, ¬ OnGrid (emptied s.grid) n := emptied_no_nodes s.grid
  refine ⟨hS.grid, ⟨hS.same.w, hS.same.h⟩, ?_, hS.props, hS.pats, hS.funs, fun ok hb hok small => way_weaken (fun _ => hlen) (way_trans (hw1 ok hok) (hway ok hb)), ?_,
    fun q => by rw [hk.amt]; exact ha0 q, ?_, hids0⟩
  · intro x y c hc
    rw [hS.same.get] at hc
    rw [emptied_get hc]; rfl
  · intro q
    cases q with
    | input n i => exact hk.inputNone n i (by rw [hids0]; simp) (hp0 _)
    | atom n i => exact hk.atomNone n i (by rw [hids0]; simp) (hp0 _)
  · intro ok F hb hok hF hroom t ht
    have hq := way_queue (hway ok hb)
    have hlt := hroom.1
    simp only at hq hlt
    obtain ⟨t1, ht1⟩ := way_follows (w1 := w1) hF hlen (hw1 ok hok) (by omega) t ht
    have hrok : r = .ok () := by
      rcases hS.result with ⟨hl, -, -⟩ | ⟨-, hrok, -⟩
      · exact absurd hl (noLoop_of_empty hno)
      · exact hrok
    obtain ⟨t', ht', hp⟩ := sync_plays hb hF hge hr1 h3 hroom ht1 hrok
    exact ⟨t', ht', plays_same hS.same hp⟩

/-! ## Parameters and atoms -/

/-- Only the engine changes. -/
structure OnlyWorld (s s' : FM K V A M σ P B) : Prop where
  grid : s'.grid = s.grid
  props : s'.props = s.props
  pats : s'.pats = s.pats
  funs : s'.funs = s.funs
  engines : s'.engines = s.engines

theorem OnlyWorld.trans {s s' s'' : FM K V A M σ P B} (h : OnlyWorld s s') (h' : OnlyWorld s' s'') : OnlyWorld s s'' :=
  ⟨h'.grid.trans h.grid, h'.props.trans h.props, h'.pats.trans h.pats, h'.funs.trans h.funs, h'.engines.trans h.engines⟩

theorem loadParam_spec {ok : EOp (NodeId K) V A M → Prop} (hb : Sets ok) (small : Prop) (b : Bool) (s : FM K V A M σ P B)
    (e : (NodeId K × Nat) × V × Option V) :
    ∃ s', loadParam T a0 run E b s e = some s' ∧ OnlyWorld s s' ∧ ((∀ v, ok (.setInput e.1.1 e.1.2 v)) → Way T a0 run ok small s.world s'.world) ∧
      (∀ q, s'.world.conf.getParam q = if q = .input e.1.1 e.1.2 then some (.num (if b then E.norm e.1.1 e.1.2 e.2.1 else e.2.1)) else s.world.conf.getParam q) ∧
      (∀ q, s'.world.conf.getModamt q = if q = .input e.1.1 e.1.2 then e.2.2 else s.world.conf.getModamt q) := by
  obtain ⟨w1, h1, c1⟩ := step_setInput (T := T) (a0 := a0) (run := run) s.world e.1.1 e.1.2 (if b then E.norm e.1.1 e.1.2 e.2.1 else e.2.1)
  obtain ⟨w2, h2, c2⟩ := step_setModamt (T := T) (a0 := a0) (run := run) w1 (.input e.1.1 e.1.2) e.2.2
  refine ⟨{ s with world := w2 }, ?_, ⟨rfl, rfl, rfl, rfl, rfl⟩, ?_, ?_, ?_⟩
  · simp only [loadParam, FM.call, h1, Option.map_some, Option.bind_some, h2]
  · intro hok
    exact .step (op := .setModamt (.input e.1.1 e.1.2) e.2.2) (.step (op := .setInput e.1.1 e.1.2 _) (.refl _) trivial ⟨trivial, hok _⟩ (fun _ _ _ e => nomatch e) h1)
      trivial ⟨trivial, hb.amt _ _⟩ (fun _ _ _ e => nomatch e) h2
  · intro q
    simp only [c2, getParam_setModamt, c1, getParam_setInput]
  · intro q
    simp only [c2, getModamt_setModamt, c1, getModamt_setInput]

theorem loadParams_spec {ok : EOp (NodeId K) V A M → Prop} (hb : Sets ok) (small : Prop) (b : Bool) (l : List ((NodeId K × Nat) × V × Option V)) : ∀ (s : FM K V A M σ P B),
    ∃ s', l.foldlM (loadParam T a0 run E b) s = some s' ∧ OnlyWorld s s' ∧
      ((∀ e ∈ l, ∀ v, ok (.setInput e.1.1 e.1.2 v)) → Way T a0 run ok small s.world s'.world) ∧
      (∀ n i, s'.world.conf.getParam (.atom n i) = s.world.conf.getParam (.atom n i)) ∧
      (KeysNodup l → ∀ n i,
        (∀ v a, l.lookup (n, i) = some (v, a) → s'.world.conf.getParam (.input n i) = some (.num (if b then E.norm n i v else v)) ∧
          s'.world.conf.getModamt (.input n i) = a) ∧
        (l.lookup (n, i) = none → s'.world.conf.getParam (.input n i) = s.world.conf.getParam (.input n i) ∧
          s'.world.conf.getModamt (.input n i) = s.world.conf.getModamt (.input n i))) := by
  induction l with
  | nil =>
    intro s
    exact ⟨s, rfl, ⟨rfl, rfl, rfl, rfl, rfl⟩, fun _ => .refl _, fun _ _ => rfl, fun _ n i => ⟨fun v a h => by simp at h, fun _ => ⟨rfl, rfl⟩⟩⟩
  | cons e l ih =>
    intro s
    obtain ⟨s1, h1, h2, h3, h4, h5⟩ := loadParam_spec (T := T) (a0 := a0) (run := run) (E := E) hb small b s e
    obtain ⟨s', g1, g2, g3, g4, g5⟩ := ih s1
    refine ⟨s', ?_, h2.trans g2, fun hok => way_trans (h3 (hok e List.mem_cons_self)) (g3 (fun x hx => hok x (List.mem_cons_of_mem _ hx))), ?_, ?_⟩
    · rw [List.foldlM_cons, h1]; exact g1
    · intro n i; rw [g4, h4]; simp
    · intro hk n i
      obtain ⟨⟨en, ei⟩, ev, ea⟩ := e
      obtain ⟨n1, n2⟩ := List.nodup_cons.1 hk
      obtain ⟨k1, k2⟩ := g5 n2 n i
      rw [List.lookup_cons]
      by_cases he : (n, i) = (en, ei)
      · simp only [Prod.mk.injEq] at he
        obtain ⟨rfl, rfl⟩ := he
        have hn := (lookup_none_iff l (n, i)).2 n1
        obtain ⟨k3, k4⟩ := k2 hn
        simp only [beq_self_eq_true]
        refine ⟨fun v a hv => ?_, fun hv => nomatch hv⟩
        simp only [Option.some.injEq, Prod.mk.injEq] at hv
        obtain ⟨rfl, rfl⟩ := hv
        rw [k3, k4, h4, h5]
        simp
      · rw [beq_false_of_ne he]
        refine ⟨fun v a hv => k1 v a hv, fun hv => ?_⟩
        obtain ⟨k3, k4⟩ := k2 hv
        have hne : ¬ (ParamId.input n i : ParamId (NodeId K)) = .input en ei := by
          intro hh
          simp only [ParamId.input.injEq] at hh
          exact he (by rw [hh.1, hh.2])
        rw [k3, k4, h4, h5, if_neg hne, if_neg hne]
        exact ⟨rfl, rfl⟩

theorem loadAtom_spec {ok : EOp (NodeId K) V A M → Prop} (hb : Sets ok) (small : Prop) (s : FM K V A M σ P B) (e : (NodeId K × Nat) × A) :
    ∃ s', loadAtom T a0 run s e = some s' ∧ OnlyWorld s s' ∧ Way T a0 run ok small s.world s'.world ∧
      (∀ q, s'.world.conf.getParam q = if q = .atom e.1.1 e.1.2 then some (.atom e.2) else s.world.conf.getParam q) ∧
      (∀ q, s'.world.conf.getModamt q = s.world.conf.getModamt q) := by
  obtain ⟨w1, h1, c1⟩ := step_setAtom (T := T) (a0 := a0) (run := run) s.world e.1.1 e.1.2 e.2
  refine ⟨{ s with world := w1 }, ?_, ⟨rfl, rfl, rfl, rfl, rfl⟩, ?_, ?_, ?_⟩
  · simp only [loadAtom, FM.call, h1, Option.map_some]
  · exact .step (op := .setAtom e.1.1 e.1.2 e.2) (.refl _) trivial ⟨trivial, hb.atom _ _ _⟩ (fun _ _ _ e => nomatch e) h1
  · intro q
    simp only [c1, getParam_setAtom]
  · intro q
    simp only [c1, getModamt_setAtom]

theorem loadAtoms_spec {ok : EOp (NodeId K) V A M → Prop} (hb : Sets ok) (small : Prop) (l : List ((NodeId K × Nat) × A)) : ∀ (s : FM K V A M σ P B),
    ∃ s', l.foldlM (loadAtom T a0 run) s = some s' ∧ OnlyWorld s s' ∧ Way T a0 run ok small s.world s'.world ∧
      (∀ n i, s'.world.conf.getParam (.input n i) = s.world.conf.getParam (.input n i)) ∧
      (∀ q, s'.world.conf.getModamt q = s.world.conf.getModamt q) ∧
      (KeysNodup l → ∀ n i, (∀ v, l.lookup (n, i) = some v → s'.world.conf.getParam (.atom n i) = some (.atom v)) ∧
        (l.lookup (n, i) = none → s'.world.conf.getParam (.atom n i) = s.world.conf.getParam (.atom n i))) := by
  induction l with
  | nil =>
    intro s
    exact ⟨s, rfl, ⟨rfl, rfl, rfl, rfl, rfl⟩, .refl _, fun _ _ => rfl, fun _ => rfl, fun _ n i => ⟨fun v h => by simp at h, fun _ => rfl⟩⟩
  | cons e l ih =>
    intro s
    obtain ⟨s1, h1, h2, h3, h4, h5⟩ := loadAtom_spec (T := T) (a0 := a0) (run := run) hb small s e
    obtain ⟨s', g1, g2, g3, g4, g5, g6⟩ := ih s1
    refine ⟨s', ?_, h2.trans g2, way_trans h3 g3, ?_, fun q => by rw [g5, h5], ?_⟩
    · rw [List.foldlM_cons, h1]; exact g1
    · intro n i; rw [g4, h4]; simp
    · intro hk n i
      obtain ⟨⟨en, ei⟩, ev⟩ := e
      obtain ⟨n1, n2⟩ := List.nodup_cons.1 hk
      obtain ⟨k1, k2⟩ := g6 n2 n i
      rw [List.lookup_cons]
      by_cases he : (n, i) = (en, ei)
      · simp only [Prod.mk.injEq] at he
        obtain ⟨rfl, rfl⟩ := he
        have hn := (lookup_none_iff l (n, i)).2 n1
        have k3 := k2 hn
        simp only [beq_self_eq_true]
        refine ⟨fun v hv => ?_, fun hv => nomatch hv⟩
        simp only [Option.some.injEq] at hv
        subst hv
        rw [k3, h4]
        simp
      · rw [beq_false_of_ne he]
        refine ⟨fun v hv => k1 v hv, fun hv => ?_⟩
        have k3 := k2 hv
        have hne : ¬ (ParamId.atom n i : ParamId (NodeId K)) = .atom en ei := by
          intro hh
          simp only [ParamId.atom.injEq] at hh
          exact he (by rw [hh.1, hh.2])
        rw [k3, h4, if_neg hne]

/-! ## Patterns and block functions -/

theorem loadPats_spec (l : List (Option PR)) : ∀ (k : Nat) (s s' : FM K V A M σ P B),
    (l.zipIdx k).foldlM (loadPat E) s = some s' →
      s'.grid = s.grid ∧ s'.world = s.world ∧ s'.props = s.props ∧ s'.funs = s.funs ∧ s'.engines = s.engines ∧
      (∀ i r, l[i]? = some (some r) → E.patLoad (s.patOf E (k + i)) r = some (s'.patOf E (k + i))) ∧
      (∀ j, (∀ i r, j = k + i → l[i]? ≠ some (some r)) → s'.patOf E j = s.patOf E j) := by
  induction l with
  | nil =>
    intro k s s' h
    simp at h
    subst h
    exact ⟨rfl, rfl, rfl, rfl, rfl, fun i r hr => by simp at hr, fun _ _ => rfl⟩
  | cons e l ih =>
    intro k s s' h
    rw [List.zipIdx_cons, List.foldlM_cons] at h
    obtain ⟨s1, h1, h2⟩ := Option.bind_eq_some_iff.1 h
    obtain ⟨g1, g2, g3, g4, g5, g6, g7⟩ := ih _ _ _ h2
    cases e with
    | none =>
      simp only [loadPat, Option.some.injEq] at h1
      subst h1
      refine ⟨g1, g2, g3, g4, g5, ?_, ?_⟩
      · intro i r hr
        cases i with
        | zero => simp at hr
        | succ i =>
          have := g6 i r (by simpa using hr)
          rw [show k + (i + 1) = k + 1 + i by omega]; exact this
      · intro j hj
        apply g7
        intro i r he
        have := hj (i + 1) r (by omega)
        simpa using this
    | some r0 =>
      simp only [loadPat] at h1
      obtain ⟨p, hp, rfl⟩ := Option.map_eq_some_iff.1 h1
      have hpo : ∀ j, FM.patOf E { s with pats := Map.insert s.pats k p } j = if j = k then p else s.patOf E j := by
        intro j
        unfold FM.patOf
        simp only [lookup_insert]
        by_cases hj : j = k
        · subst hj; simp
        · simp [hj]
      refine ⟨g1, g2, g3, g4, g5, ?_, ?_⟩
      · intro i r hr
        cases i with
        | zero =>
          simp only [List.getElem?_cons_zero, Option.some.injEq] at hr
          subst hr
          have := g7 k (fun i r he => by omega)
          rw [hpo, if_pos rfl] at this
          rw [Nat.add_zero, this]; exact hp
        | succ i =>
          have := g6 i r (by simpa using hr)
          rw [hpo, if_neg (by omega)] at this
          rw [show k + (i + 1) = k + 1 + i by omega]; exact this
      · intro j hj
        have hjk : j ≠ k := fun hh => hj 0 r0 (by omega) rfl
        rw [g7 j (fun i r he => by have := hj (i + 1) r (by omega); simpa using this), hpo, if_neg hjk]

theorem loadFuns_spec (l : List (Option BR)) : ∀ (k : Nat) (s s' : FM K V A M σ P B),
    (l.zipIdx k).foldlM (loadFun E) s = some s' →
      s'.grid = s.grid ∧ s'.world = s.world ∧ s'.props = s.props ∧ s'.pats = s.pats ∧
      (∀ i r, l[i]? = some (some r) → E.funLoad (s.funOf E (k + i)) r = some (s'.funOf E (k + i))) ∧
      (∀ j, (∀ i r, j = k + i → l[i]? ≠ some (some r)) → s'.funOf E j = s.funOf E j) := by
  induction l with
  | nil =>
    intro k s s' h
    simp at h
    subst h
    exact ⟨rfl, rfl, rfl, rfl, fun i r hr => by simp at hr, fun _ _ => rfl⟩
  | cons e l ih =>
    intro k s s' h
    rw [List.zipIdx_cons, List.foldlM_cons] at h
    obtain ⟨s1, h1, h2⟩ := Option.bind_eq_some_iff.1 h
    obtain ⟨g1, g2, g3, g4, g6, g7⟩ := ih _ _ _ h2
    cases e with
    | none =>
      simp only [loadFun, Option.some.injEq] at h1
      subst h1
      refine ⟨g1, g2, g3, g4, ?_, ?_⟩
      · intro i r hr
        cases i with
        | zero => simp at hr
        | succ i =>
          have := g6 i r (by simpa using hr)
          rw [show k + (i + 1) = k + 1 + i by omega]; exact this
      · intro j hj
        apply g7
        intro i r he
        have := hj (i + 1) r (by omega)
        simpa using this
    | some r0 =>
      simp only [loadFun] at h1
      obtain ⟨p, hp, rfl⟩ := Option.map_eq_some_iff.1 h1
      have hpo : ∀ j, FM.funOf E { s with funs := Map.insert s.funs k p, engines := allocEngine s.engines k } j = if j = k then p else s.funOf E j := by
        intro j
        unfold FM.funOf
        simp only [lookup_insert]
        by_cases hj : j = k
        · subst hj; simp
        · simp [hj]
      refine ⟨g1, g2, g3, g4, ?_, ?_⟩
      · intro i r hr
        cases i with
        | zero =>
          simp only [List.getElem?_cons_zero, Option.some.injEq] at hr
          subst hr
          have := g7 k (fun i r he => by omega)
          rw [hpo, if_pos rfl] at this
          rw [Nat.add_zero, this]; exact hp
        | succ i =>
          have := g6 i r (by simpa using hr)
          rw [hpo, if_neg (by omega)] at this
          rw [show k + (i + 1) = k + 1 + i by omega]; exact this
      · intro j hj
        have hjk : j ≠ k := fun hh => hj 0 r0 (by omega) rfl
        rw [g7 j (fun i r he => by have := hj (i + 1) r (by omega); simpa using this), hpo, if_neg hjk]

/-- What loading does before the final `sync`. -/
structure Loaded (T : NodeTable (NodeId K) V A) (a0 : A) (run : σ → CallIn (NodeId K) V A → σ × (Nat → Block V)) (E : Env K V A P PR B BR)
    (s s' : FM K V A M σ P B) (r : PatchRepr K V A PR BR) : Prop where
  way : ∀ ok, Sets ok → (∀ e ∈ r.params, ∀ v, ok (.setInput e.1.1 e.1.2 v)) → ∀ small, Way T a0 run ok small s.world s'.world
  grid : s'.grid = r.cells.foldl loadCell s.grid
  props : s'.props = r.props.foldl (fun ps e => Map.insert ps e.1 e.2) s.props
  input : KeysNodup r.params → ∀ n i,
    (∀ v a, r.params.lookup (n, i) = some (v, a) → s'.world.conf.getParam (.input n i) = some (.num (if decide (r.version > 1) then E.norm n i v else v)) ∧
      s'.world.conf.getModamt (.input n i) = a) ∧
    (r.params.lookup (n, i) = none → s'.world.conf.getParam (.input n i) = s.world.conf.getParam (.input n i) ∧
      s'.world.conf.getModamt (.input n i) = s.world.conf.getModamt (.input n i))
  atom : KeysNodup r.atoms → ∀ n i, (∀ v, r.atoms.lookup (n, i) = some v → s'.world.conf.getParam (.atom n i) = some (.atom v)) ∧
    (r.atoms.lookup (n, i) = none → s'.world.conf.getParam (.atom n i) = s.world.conf.getParam (.atom n i))
  pat : ∀ i p, r.patterns[i]? = some (some p) → E.patLoad (s.patOf E i) p = some (s'.patOf E i)
  patNone : ∀ i, (∀ p, r.patterns[i]? ≠ some (some p)) → s'.patOf E i = s.patOf E i
  fn : ∀ i p, r.blockFuns[i]? = some (some p) → E.funLoad (s.funOf E i) p = some (s'.funOf E i)
  fnNone : ∀ i, (∀ p, r.blockFuns[i]? ≠ some (some p)) → s'.funOf E i = s.funOf E i

theorem load_stage {s s' : FM K V A M σ P B} {r : PatchRepr K V A PR BR} (h : s.load T a0 run E r = some s') : Loaded T a0 run E s s' r := by
  obtain ⟨s1, e1, o1, -, p1, q1⟩ := loadParams_spec (T := T) (a0 := a0) (run := run) (E := E) base_any.toSets True (decide (r.version > 1)) r.params s
  obtain ⟨s2, e2, o2, -, p2, q2, z2⟩ := loadAtoms_spec (T := T) (a0 := a0) (run := run) base_any.toSets True r.atoms s1
  have hways : ∀ ok, Sets ok → (∀ e ∈ r.params, ∀ v, ok (.setInput e.1.1 e.1.2 v)) → ∀ small, Way T a0 run ok small s.world s2.world := by
    intro ok hb hok small
    obtain ⟨s1', e1', -, w1, -, -⟩ := loadParams_spec (T := T) (a0 := a0) (run := run) (E := E) hb small (decide (r.version > 1)) r.params s
    obtain ⟨s2', e2', -, w2, -, -⟩ := loadAtoms_spec (T := T) (a0 := a0) (run := run) hb small r.atoms s1
    rw [e1] at e1'
    rw [e2] at e2'
    simp only [Option.some.injEq] at e1' e2'
    subst e1' e2'
    exact way_trans (w1 hok) w2
  unfold FM.load at h
  rw [e1, Option.bind_some, e2, Option.bind_some] at h
  simp only at h
  obtain ⟨s4, h4, h5⟩ := Option.bind_eq_some_iff.1 h
  obtain ⟨a1, a2, a3, a4, a5, a6, a7⟩ := loadPats_spec r.patterns 0 _ _ h4
  obtain ⟨b1, b2, b3, b4, b5, b6⟩ := loadFuns_spec r.blockFuns 0 _ _ h5
  simp only at a1 a2 a3 a4
  have hw : s'.world = s2.world := b2.trans a2
  have hps : ∀ i, s.patOf E i = FM.patOf E s2 i := by
    intro i; unfold FM.patOf; rw [o2.pats, o1.pats]
  have hfs : ∀ i, s.funOf E i = s4.funOf E i := by
    intro i; unfold FM.funOf; rw [a4, o2.funs, o1.funs]
  have hps' : ∀ i, s'.patOf E i = s4.patOf E i := by intro i; unfold FM.patOf; rw [b4]
  refine ⟨by rw [hw]; exact hways, ?_, ?_, ?_, ?_, ?_, ?_, ?_, ?_⟩
  · rw [b1, a1, o2.grid, o1.grid]
  · rw [b3, a3, o2.props, o1.props]
  · intro hk n i
    obtain ⟨k1, k2⟩ := q1 hk n i
    rw [hw, p2, q2]
    exact ⟨k1, k2⟩
  · intro hk n i
    obtain ⟨k1, k2⟩ := z2 hk n i
    rw [hw, ← p1]
    exact ⟨k1, k2⟩
  · intro i p hp
    have := a6 i p hp
    rw [Nat.zero_add] at this
    rw [hps, hps']; exact this
  · intro i hi
    rw [hps, hps', a7 i (fun j p hj => by rw [Nat.zero_add] at hj; subst hj; exact hi p)]; rfl
  · intro i p hp
    have := b5 i p hp
    rw [Nat.zero_add] at this
    rw [hfs]; exact this
  · intro i hi
    rw [hfs, b6 i (fun j p hj => by rw [Nat.zero_add] at hj; subst hj; exact hi p)]

end HexoDSP.Patch
