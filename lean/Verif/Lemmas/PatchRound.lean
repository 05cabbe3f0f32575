import Verif.Lemmas.PatchInv
/-! Saving a patch and loading it again. -/

set_option linter.unusedSectionVars false

namespace HexoDSP.Patch
open HexoDSP.EngineSpec HexoDSP.NodeConfProps HexoDSP.Play HexoDSP.MatrixEngineProps
open HexoDSP.Matrix (Matrix Cell Edge MatrixError positions SameGrid WF allWires)
open HexoDSP.Engine

variable {K V A M σ P PR B BR : Type} [DecidableEq K]

/-- The same cells with nodes. -/
def SameNodes (m m' : Matrix (NodeId K)) : Prop := ∀ x y c, c.nodeId ≠ none → (m'.get x y = some c ↔ m.get x y = some c)

theorem SameNodes.onGrid {m m' : Matrix (NodeId K)} (h : SameNodes m m') (n : NodeId K) : OnGrid m' n ↔ OnGrid m n := by
  constructor
  · rintro ⟨x, y, c, h1, h2⟩; exact ⟨x, y, c, (h x y c (by rw [h2]; simp)).1 h1, h2⟩
  · rintro ⟨x, y, c, h1, h2⟩; exact ⟨x, y, c, (h x y c (by rw [h2]; simp)).2 h1, h2⟩

theorem SameNodes.wire {m m' : Matrix (NodeId K)} (h : SameNodes m m') (p : CellDir.Pos) (d : CellDir) (e : Edge (NodeId K)) :
    m'.Wire p d e ↔ m.Wire p d e := by
  constructor
  · rintro ⟨h0, q, a, b, h1, h2, h3, h4, h5, h6, h7⟩
    exact ⟨h0, q, a, b, h1, (h _ _ _ (by rw [h4]; simp)).1 h2, (h _ _ _ (by rw [h6]; simp)).1 h3, h4, h5, h6, h7⟩
  · rintro ⟨h0, q, a, b, h1, h2, h3, h4, h5, h6, h7⟩
    exact ⟨h0, q, a, b, h1, (h _ _ _ (by rw [h4]; simp)).2 h2, (h _ _ _ (by rw [h6]; simp)).2 h3, h4, h5, h6, h7⟩

theorem SameNodes.leads {m m' : Matrix (NodeId K)} (h : SameNodes m m') : m'.Leads = m.Leads := by
  funext a b
  simp only [Matrix.Leads, h.wire]

theorem SameNodes.loop {m m' : Matrix (NodeId K)} (h : SameNodes m m') : m'.HasLoop ↔ m.HasLoop := by
  simp only [Matrix.HasLoop, h.leads]

theorem SameNodes.capacity {m m' : Matrix (NodeId K)} (h : SameNodes m m') : m'.WithinCapacity ↔ m.WithinCapacity := by
  simp only [Matrix.WithinCapacity, h.leads]

theorem sameNodes_of_same {m m' : Matrix (NodeId K)} (h : SameGrid m m') : SameNodes m m' := fun x y c _ => by rw [h.get]

theorem SameNodes.trans {m m' m'' : Matrix (NodeId K)} (h : SameNodes m m') (h' : SameNodes m' m'') : SameNodes m m'' :=
  fun x y c hc => (h' x y c hc).trans (h x y c hc)

theorem SameNodes.flow [Add V] [Mul V] {T : NodeTable (NodeId K) V A} {m m' : Matrix (NodeId K)} (h : SameNodes m m') {c : Conf (NodeId K) V A} {nf : Nat}
    {cs : List (Engine.Call (NodeId K) V A)} (hf : GridFlow T m' c nf cs) : GridFlow T m c nf cs := by
  refine ⟨hf.once, fun n => (hf.nodes n).trans (h.onGrid n), by rw [← h.leads]; exact hf.before, ?_, ?_, hf.atoms⟩
  · intro p d e hw hi ho hu
    exact hf.wire p d e ((h.wire p d e).2 hw) hi ho (fun p' d' e' hw' => hu p' d' e' ((h.wire p' d' e').1 hw'))
  · intro k hk i hi hu
    exact hf.free k hk i hi (fun p d e hw => hu p d e ((h.wire p d e).1 hw))

variable [Add V] [Mul V] [Sub V] [Div V] [NatCast V] [OfNat V 0]
variable {T : NodeTable (NodeId K) V A} {a0 : A} {run : σ → CallIn (NodeId K) V A → σ × (Nat → Block V)} {E : Env K V A P PR B BR}

theorem repr_cells (s : FM K V A M σ P B) : (s.toRepr E).2.cells = (nodeCells s.grid).map cellRepr := rfl

theorem repr_typed {s : FM K V A M σ P B} (h : GridOk s.grid) : ∀ c ∈ (s.toRepr E).2.cells, ∀ n, c.nodeId = some n → n.inst < 256 := by
  intro c hc n hn
  rw [repr_cells] at hc
  obtain ⟨c', hc', rfl⟩ := List.mem_map.1 hc
  obtain ⟨-, x, y, hg⟩ := mem_nodeCells.1 hc'
  exact (cell_at h hg).1.inst n hn

theorem repr_params {s : FM K V A M σ P B} (hE : EnvOk E) (hk : KeysOk s.world.conf) :
    KeysNodup (s.toRepr E).2.params ∧ ∀ n i, (s.toRepr E).2.params.lookup (n, i) =
      (s.world.conf.paramValues.lookup (n, i)).map (fun v => (E.denorm n i v, s.world.conf.getModamt (.input n i))) := by
  have hp := hE.shP s.world.conf.paramValues
  have hnd : KeysNodup (E.shP s.world.conf.paramValues) := (hp.map Prod.fst).nodup_iff.2 hk.1
  constructor
  · show ((dumpParams E s.world.conf).map (·.1)).Nodup
    unfold dumpParams
    rw [List.map_map]
    exact hnd
  · intro n i
    show (dumpParams E s.world.conf).lookup (n, i) = _
    unfold dumpParams
    rw [lookup_map_key _ (fun k v => (E.denorm k.1 k.2 v, (s.world.conf.paramModamt.lookup k).join)), lookup_perm hp hnd]
    rfl

theorem repr_atoms {s : FM K V A M σ P B} (hE : EnvOk E) (hk : KeysOk s.world.conf) :
    KeysNodup (s.toRepr E).2.atoms ∧ ∀ n i, (s.toRepr E).2.atoms.lookup (n, i) = s.world.conf.atomValues.lookup (n, i) := by
  have hp := hE.shA s.world.conf.atomValues
  have hnd : KeysNodup (E.shA s.world.conf.atomValues) := (hp.map Prod.fst).nodup_iff.2 hk.2
  exact ⟨hnd, fun n i => lookup_perm hp hnd _⟩

theorem repr_pats (s : FM K V A M σ P B) (i : Nat) (p : PR) : (s.toRepr E).2.patterns[i]? = some (some p) ↔
    SavedPat s i ∧ E.patUnset (s.patOf E i) = false ∧ p = E.patRepr (s.patOf E i) := by
  obtain ⟨m, h1, h2⟩ := patIds_spec s
  show (s.patIds.map _)[i]? = _ ↔ _
  rw [h1, List.getElem?_map, ← h2]
  by_cases hi : i < m
  · rw [List.getElem?_range hi]
    simp only [Option.map_some, Option.some.injEq]
    cases hu : E.patUnset (s.patOf E i) <;> simp [hi, eq_comm]
  · rw [List.getElem?_eq_none (by simp; omega)]
    simp [hi]

theorem repr_funs (s : FM K V A M σ P B) (i : Nat) (p : BR) : (s.toRepr E).2.blockFuns[i]? = some (some p) ↔
    SavedFun s i ∧ E.funUnset (s.funOf E i) = false ∧ p = E.funSave (s.funOf E i) := by
  obtain ⟨m, h1, h2⟩ := funIds_spec s
  show (s.funIds.map _)[i]? = _ ↔ _
  rw [h1, List.getElem?_map, ← h2]
  by_cases hi : i < m
  · rw [List.getElem?_range hi]
    simp only [Option.map_some, Option.some.injEq]
    cases hu : E.funUnset (s.funOf E i) <;> simp [hi, eq_comm]
  · rw [List.getElem?_eq_none (by simp; omega)]
    simp [hi]

theorem getParam_input_none {c : Conf (NodeId K) V A} {n : NodeId K} {i : Nat} : c.getParam (.input n i) = none ↔ c.paramValues.lookup (n, i) = none := by
  simp [Conf.getParam]

theorem getParam_input_some {c : Conf (NodeId K) V A} {n : NodeId K} {i : Nat} {v : V} :
    c.getParam (.input n i) = some (.num v) ↔ c.paramValues.lookup (n, i) = some v := by
  simp [Conf.getParam]

/-- The grids of a saved and loaded patch. -/
theorem fromRepr_nodes {s d d' : FM K V A M σ P B} {r : Except (MatrixError (NodeId K)) Unit} (hs : Inv T a0 run s) (hd : Inv T a0 run d)
    (hw : s.grid.w ≤ 256) (hh : s.grid.h ≤ 256) (hdw : s.grid.w ≤ d.grid.w) (hdh : s.grid.h ≤ d.grid.h)
    (h : d.fromRepr T a0 run E (s.toRepr E).2 = some (d', r)) : SameNodes s.grid d'.grid := by
  obtain ⟨s1, s2, h1, h2, h3⟩ := fromRepr_stages h
  have hC := clear_stage hd.grid hd.reached h1
  have hi1 := (inv_clear hd h1)
  have hi2 := inv_load hi1 (repr_typed hs.grid) h2
  refine SameNodes.trans (m' := s2.grid) ?_ (sameNodes_of_same (sync_stage hi2.grid h3).same)
  intro x y c hc
  rw [(load_stage h2).grid, repr_cells]
  exact load_nodeCells hs.grid hC.grid hC.empty hw hh (by rw [hC.size.1]; exact hdw) (by rw [hC.size.2]; exact hdh) x y c hc

theorem round_trip {s d d' : FM K V A M σ P B} {r : Except (MatrixError (NodeId K)) Unit} (hE : EnvOk E) (hs : Inv T a0 run s) (hd : Inv T a0 run d)
    (hw : s.grid.w ≤ 256) (hh : s.grid.h ≤ 256) (hdw : s.grid.w ≤ d.grid.w) (hdh : s.grid.h ≤ d.grid.h)
    (h : d.fromRepr T a0 run E (s.toRepr E).2 = some (d', r)) : SamePatch T E s d d' := by
  have hnodes := fromRepr_nodes hs hd hw hh hdw hdh h
  obtain ⟨s1, s2, h1, h2, h3⟩ := fromRepr_stages h
  have hC := clear_stage hd.grid hd.reached h1
  have hi1 := (inv_clear hd h1)
  have hi2 := inv_load hi1 (repr_typed hs.grid) h2
  have hL := load_stage h2
  have hS := sync_stage hi2.grid h3
  have hk := keysOk_reached hs.reached
  obtain ⟨hK, -⟩ := kept_sync hi2.grid hi2.reached h3
  obtain ⟨np, lp⟩ := repr_params (E := E) hE hk
  obtain ⟨na, la⟩ := repr_atoms (E := E) hE hk
  have hver : decide ((s.toRepr E).2.version > 1) = true := rfl
  have hpat : ∀ i, s1.patOf E i = d.patOf E i := hC.pats
  have hfun : ∀ i, s1.funOf E i = d.funOf E i := fun i => by unfold FM.funOf; rw [hC.funs]
  have hpat' : ∀ i, d'.patOf E i = s2.patOf E i := hS.pats
  have hfun' : ∀ i, d'.funOf E i = s2.funOf E i := fun i => by unfold FM.funOf; rw [hS.funs]
  refine ⟨hnodes, ?_, ?_, ?_, ?_, ?_, ?_, ?_, ?_, ?_, ?_, ?_⟩
  · intro n i v hv
    have hl := lp n i
    rw [getParam_input_some.1 hv] at hl
    have := ((hL.input np n i).1 _ _ hl).1
    rw [hver] at this
    exact hK.input n i _ this
  · intro n i hv
    have hl := lp n i
    rw [getParam_input_none.1 hv] at hl
    have := ((hL.input np n i).2 hl).1
    rw [hC.param] at this
    exact hK.inputDef n i this
  · intro n i v hv
    have hl := la n i
    simp only [Conf.getParam, Option.map_eq_some_iff] at hv
    obtain ⟨a, ha, rfl⟩ := hv
    rw [ha] at hl
    exact hK.atom n i _ ((hL.atom na n i).1 _ hl)
  · intro n i hv
    have hl := la n i
    simp only [Conf.getParam, Option.map_eq_none_iff] at hv
    rw [hv] at hl
    have := (hL.atom na n i).2 hl
    rw [hC.param] at this
    exact hK.atomDef n i this
  · intro n i hv
    have hl := lp n i
    cases hc : s.world.conf.paramValues.lookup (n, i) with
    | none => exact absurd (getParam_input_none.2 hc) hv
    | some v =>
      rw [hc] at hl
      rw [hK.amt]
      exact ((hL.input np n i).1 _ _ hl).2
  · intro n i hv
    have hl := lp n i
    rw [getParam_input_none.1 hv] at hl
    rw [hK.amt, ((hL.input np n i).2 hl).2, hC.amt]
  · intro k
    have hp := hE.shS s.props
    have hnd : KeysNodup (E.shS s.props) := (hp.map Prod.fst).nodup_iff.2 hs.props
    unfold FM.getProp
    rw [hS.props, hL.props, hC.props]
    show ((E.shS s.props).foldl _ []).lookup k = _
    rw [lookup_insertAll _ _ hnd, lookup_perm hp hnd]
    simp
  · intro i h4 h5
    have := hL.pat i _ ((repr_pats s i _).2 ⟨h4, h5, rfl⟩)
    rw [hpat] at this
    rw [hpat']; exact this
  · intro i h4
    rw [hpat', ← hpat]
    refine hL.patNone i ?_
    intro p hp
    obtain ⟨a1, a2, -⟩ := (repr_pats s i p).1 hp
    exact h4 ⟨a1, a2⟩
  · intro i h4 h5
    have := hL.fn i _ ((repr_funs s i _).2 ⟨h4, h5, rfl⟩)
    rw [hfun] at this
    rw [hfun']; exact this
  · intro i h4
    rw [hfun', ← hfun]
    refine hL.fnNone i ?_
    intro p hp
    obtain ⟨a1, a2, -⟩ := (repr_funs s i p).1 hp
    exact h4 ⟨a1, a2⟩

/-- Loading succeeds exactly if the saved grid has no loop. -/
theorem fromRepr_result {s d d' : FM K V A M σ P B} {r : Except (MatrixError (NodeId K)) Unit} (hs : Inv T a0 run s) (hd : Inv T a0 run d)
    (hw : s.grid.w ≤ 256) (hh : s.grid.h ≤ 256) (hdw : s.grid.w ≤ d.grid.w) (hdh : s.grid.h ≤ d.grid.h)
    (h : d.fromRepr T a0 run E (s.toRepr E).2 = some (d', r)) : (s.grid.HasLoop ∧ r = .error .cycleDetected) ∨ (¬ s.grid.HasLoop ∧ r = .ok ()) := by
  have hnodes := fromRepr_nodes hs hd hw hh hdw hdh h
  obtain ⟨s1, s2, h1, h2, h3⟩ := fromRepr_stages h
  have hi2 := inv_load (inv_clear hd h1) (repr_typed hs.grid) h2
  have hS := sync_stage hi2.grid h3
  have hl : s2.grid.HasLoop ↔ s.grid.HasLoop := by rw [← hnodes.loop, (sameNodes_of_same hS.same).loop]
  rcases hS.result with ⟨a, b, -⟩ | ⟨a, b, -⟩
  · exact Or.inl ⟨hl.1 a, b⟩
  · exact Or.inr ⟨fun hh => a (hl.2 hh), b⟩

/-! ## When nothing panics -/

/-- `sync` does not panic below its limits. -/
theorem sync_isSome {s : FM K V A M σ P B} (hg : GridOk s.grid) (hr : Reached T a0 run s.world) (hc : s.grid.WithinCapacity)
    (hn : (s.createNodes E).world.conf.nodes.length ≤ 256) (h32 : ∀ p d e, s.grid.Wire p d e → e.dstInput ≠ 32) :
    ∃ r, s.sync T a0 run E = some r := by
  obtain ⟨h1, -, h3, -⟩ := createNodes_way (T := T) (a0 := a0) (run := run) (E := E) base_any hg hr True
  have hr1 := reached_way hr h1
  have hgr : (s.createNodes E).grid = s.grid := rfl
  unfold FM.sync
  simp only
  generalize hs1 : s.createNodes E = s1 at hn h1 h3 hr1 hgr
  obtain ⟨g, r0, hs, hsame, hwf, hed, hres⟩ := Matrix.sync_spec hg.wfs.toWF hc
  have hwire : g.edges.map connOf = wiring s.grid := by rw [hed, wiring, List.map_map]; rfl
  rw [hgr, hs]
  rcases hres with ⟨hl, rfl, -⟩ | ⟨hl, -, L, rfl, hnd, hmem, hbef⟩
  · exact ⟨_, rfl⟩
  · obtain ⟨⟨c', p, h'⟩, hb⟩ := buildProg_isSome (T := T) (a0 := a0) (h := s1.world.shared.heap) (order := L) (es := wiring s.grid) (wf_reached hr1)
      (by rw [Conf.ids, List.length_map]; exact hn) hnd (fun n hn' => h3 n ((hmem n).1 hn')) (by
        intro e he
        obtain ⟨p, d, e', hw, rfl⟩ := (mem_wiring e).1 he
        exact h32 p d e' hw)
    simp only [FM.call, hwire, World.step, hb, Option.map_some]
    exact ⟨_, rfl⟩

/-- All node instances that the grid asks for: those in cells, and the ones with lower numbers. -/
theorem createNodes_few {s : FM K V A M σ P B} (hg : GridOk s.grid) (hr : Reached T a0 run s.world) (h0 : s.world.conf.ids = [])
    (hf : FewNodes s.grid) : (s.createNodes E).world.conf.nodes.length ≤ 256 := by
  obtain ⟨h1, -, -, h4⟩ := createFold_spec (cellNodes s.grid) (cellNodes_inst hg) (wf_reached hr)
  have hnd : (s.createNodes E).world.conf.ids.Nodup := h1.nodup
  have := hf _ hnd (by
    intro n hn
    rcases h4 n hn with h | ⟨n', h, h5⟩
    · rw [h0] at h; cases h
    · exact ⟨n', (mem_cellNodes _ _).1 h, h5⟩)
  rwa [Conf.ids, List.length_map] at this

theorem clear_isSome {s : FM K V A M σ P B} (hg : GridOk s.grid) (hr : Reached T a0 run s.world) : ∃ s', s.clear T a0 run E = some s' := by
  have hge := gridOk_emptied hg
  have hno : ∀ n, ¬ OnGrid (emptied s.grid) n := emptied_no_nodes s.grid
  have hnw : ∀ p d e, ¬ (emptied s.grid).Wire p d e := by
    rintro p d e ⟨-, q, a, b, -, ha, -, hn, -⟩
    exact hno _ ⟨_, _, a, ha, hn⟩
  obtain ⟨w1, out, hd⟩ : ∃ w1 out, s.world.step T a0 run .deleteNodes = some (w1, out) := ⟨_, _, rfl⟩
  have hr1 : Reached T a0 run w1 := reached_step hr (by trivial) hd
  have hc : w1.conf = Conf.new := by
    simp only [World.step, Option.some.injEq, Prod.mk.injEq] at hd
    rw [← hd.1, conf_sendAll]; rfl
  have hfew : FewNodes (emptied s.grid) := by
    intro l _ hl
    cases l with
    | nil => simp
    | cons a l => obtain ⟨n', h, -⟩ := hl a List.mem_cons_self; exact absurd h (hno n')
  obtain ⟨r, hr2⟩ := sync_isSome (E := E) (s := FM.mk (emptied s.grid) w1 [] (Cell.empty none) s.pats s.funs s.engines) hge hr1
    (by intro a l _ hl
        cases l with
        | nil => simp
        | cons b l => obtain ⟨p, d, e, hw, -⟩ := hl b List.mem_cons_self; exact absurd hw (hnw p d e))
    (createNodes_few hge hr1 (by rw [hc]; rfl) hfew) (fun p d e hw => absurd hw (hnw p d e))
  refine ⟨r.1, ?_⟩
  unfold FM.clear
  simp only [FM.call, hd, Option.map_some, Option.bind_some]
  exact congrArg (Option.map (·.1)) hr2

theorem nodes_setInput (c : Conf (NodeId K) V A) (n : NodeId K) (i : Nat) (v : V) : (c.setInput (M := M) n i v).1.nodes = c.nodes := by
  simp only [Conf.setInput]
  split <;> rfl

theorem nodes_setAtom (c : Conf (NodeId K) V A) (n : NodeId K) (i : Nat) (v : A) : (c.setAtom (M := M) n i v).1.nodes = c.nodes := by
  simp only [Conf.setAtom]
  split <;> rfl

theorem nodes_setModamt (c : Conf (NodeId K) V A) (p : Engine.ParamId (NodeId K)) (v : Option V) : (c.setModamt (M := M) p v).1.nodes = c.nodes := by
  cases p with
  | atom n i => rfl
  | input n i =>
    simp only [Conf.setModamt]
    repeat' split
    all_goals rfl

theorem loadParam_nodes {b : Bool} (l : List ((NodeId K × Nat) × V × Option V)) {s s' : FM K V A M σ P B} (h : l.foldlM (loadParam T a0 run E b) s = some s') :
    s'.world.conf.nodes = s.world.conf.nodes := by
  induction l generalizing s with
  | nil => cases h; rfl
  | cons e l ih =>
    rw [List.foldlM_cons] at h
    obtain ⟨s1, h1, h2⟩ := Option.bind_eq_some_iff.1 h
    rw [ih h2]
    simp only [loadParam, FM.call, World.step, Option.map_some, Option.bind_some, Option.some.injEq] at h1
    rw [← h1]
    simp only [conf_sendAll, nodes_setModamt, nodes_setInput]

theorem loadAtom_nodes (l : List ((NodeId K × Nat) × A)) {s s' : FM K V A M σ P B} (h : l.foldlM (loadAtom T a0 run) s = some s') :
    s'.world.conf.nodes = s.world.conf.nodes := by
  induction l generalizing s with
  | nil => cases h; rfl
  | cons e l ih =>
    rw [List.foldlM_cons] at h
    obtain ⟨s1, h1, h2⟩ := Option.bind_eq_some_iff.1 h
    rw [ih h2]
    simp only [loadAtom, FM.call, World.step, Option.map_some, Option.some.injEq] at h1
    rw [← h1]
    simp only [conf_sendAll, nodes_setAtom]

theorem loadPats_isSome (hp : ∀ p q, (E.patLoad p q).isSome) (l : List (Option PR × Nat)) (s : FM K V A M σ P B) : ∃ s', l.foldlM (loadPat E) s = some s' := by
  induction l generalizing s with
  | nil => exact ⟨s, rfl⟩
  | cons e l ih =>
    rw [List.foldlM_cons]
    obtain ⟨s1, h1⟩ : ∃ s1, loadPat E s e = some s1 := by
      unfold loadPat
      split
      · exact ⟨_, rfl⟩
      · obtain ⟨p, hq⟩ := Option.isSome_iff_exists.1 (hp (s.patOf E e.2) ‹_›)
        rw [hq]; exact ⟨_, rfl⟩
    rw [h1]; exact ih s1

theorem loadFuns_isSome (hp : ∀ p q, (E.funLoad p q).isSome) (l : List (Option BR × Nat)) (s : FM K V A M σ P B) : ∃ s', l.foldlM (loadFun E) s = some s' := by
  induction l generalizing s with
  | nil => exact ⟨s, rfl⟩
  | cons e l ih =>
    rw [List.foldlM_cons]
    obtain ⟨s1, h1⟩ : ∃ s1, loadFun E s e = some s1 := by
      unfold loadFun
      split
      · exact ⟨_, rfl⟩
      · obtain ⟨p, hq⟩ := Option.isSome_iff_exists.1 (hp (s.funOf E e.2) ‹_›)
        rw [hq]; exact ⟨_, rfl⟩
    rw [h1]; exact ih s1

theorem load_isSome (hp : ∀ p q, (E.patLoad p q).isSome) (hb : ∀ p q, (E.funLoad p q).isSome) (s : FM K V A M σ P B) (r : PatchRepr K V A PR BR) :
    ∃ s', s.load T a0 run E r = some s' := by
  obtain ⟨s1, e1, -⟩ := loadParams_spec (T := T) (a0 := a0) (run := run) (E := E) base_any.toSets True (decide (r.version > 1)) r.params s
  obtain ⟨s2, e2, -⟩ := loadAtoms_spec (T := T) (a0 := a0) (run := run) base_any.toSets True r.atoms s1
  unfold FM.load
  rw [e1, Option.bind_some, e2, Option.bind_some]
  simp only
  obtain ⟨s3, h3⟩ := loadPats_isSome hp r.patterns.zipIdx
    (FM.mk (r.cells.foldl loadCell s2.grid) s2.world (r.props.foldl (fun ps e => Map.insert ps e.1 e.2) s2.props) s2.monitored s2.pats s2.funs s2.engines)
  obtain ⟨s4, h4⟩ := loadFuns_isSome hb r.blockFuns.zipIdx s3
  exact ⟨s4, by rw [h3]; exact h4⟩

theorem load_nodes {s s' : FM K V A M σ P B} {r : PatchRepr K V A PR BR} (h : s.load T a0 run E r = some s') :
    s'.world.conf.nodes = s.world.conf.nodes := by
  unfold FM.load at h
  obtain ⟨s1, h1, h⟩ := Option.bind_eq_some_iff.1 h
  obtain ⟨s2, h2, h⟩ := Option.bind_eq_some_iff.1 h
  obtain ⟨s3, h3, h⟩ := Option.bind_eq_some_iff.1 h
  obtain ⟨-, a2, -⟩ := loadPats_spec r.patterns 0 _ _ h3
  obtain ⟨-, b2, -⟩ := loadFuns_spec r.blockFuns 0 _ _ h
  rw [b2, a2]
  exact (loadAtom_nodes _ h2).trans (loadParam_nodes _ h1)

/-- Loading a patch that was saved does not panic if `sync` of its grid is below the limits. -/
theorem fromRepr_isSome {s d : FM K V A M σ P B} (hs : Inv T a0 run s) (hd : Inv T a0 run d)
    (hw : s.grid.w ≤ 256) (hh : s.grid.h ≤ 256) (hdw : s.grid.w ≤ d.grid.w) (hdh : s.grid.h ≤ d.grid.h)
    (hp : ∀ p q, (E.patLoad p q).isSome) (hb : ∀ p q, (E.funLoad p q).isSome)
    (hc : s.grid.WithinCapacity) (hf : FewNodes s.grid) (h32 : ∀ p d e, s.grid.Wire p d e → e.dstInput ≠ 32) :
    ∃ r, d.fromRepr T a0 run E (s.toRepr E).2 = some r := by
  obtain ⟨s1, h1⟩ := clear_isSome (E := E) hd.grid hd.reached
  obtain ⟨s2, h2⟩ := load_isSome (T := T) (a0 := a0) (run := run) hp hb s1 (s.toRepr E).2
  have hC := clear_stage hd.grid hd.reached h1
  have hi1 := (inv_clear hd h1)
  have hi2 := inv_load hi1 (repr_typed hs.grid) h2
  have hnodes : SameNodes s.grid s2.grid := by
    intro x y c hc
    rw [(load_stage h2).grid, repr_cells]
    exact load_nodeCells hs.grid hC.grid hC.empty hw hh (by rw [hC.size.1]; exact hdw) (by rw [hC.size.2]; exact hdh) x y c hc
  have hf2 : FewNodes s2.grid := by
    intro l hl hm
    refine hf l hl (fun n hn => ?_)
    obtain ⟨n', h, h'⟩ := hm n hn
    exact ⟨n', (hnodes.onGrid n').1 h, h'⟩
  have h0 : s2.world.conf.ids = [] := by rw [Conf.ids, load_nodes h2]; exact hC.ids
  obtain ⟨r, h3⟩ := sync_isSome (E := E) hi2.grid hi2.reached (hnodes.capacity.2 hc) (createNodes_few hi2.grid hi2.reached h0 hf2)
    (fun p d e hw => h32 p d e ((hnodes.wire p d e).1 hw))
  refine ⟨r, ?_⟩
  unfold FM.fromRepr
  rw [h1, Option.bind_some, h2, Option.bind_some, h3]

end HexoDSP.Patch
