import Verif.Lemmas.Monitored
import Verif.Props.PatchTimed
/-!
# The cell that is watched (C136)
-/

set_option linter.unusedSectionVars false

namespace HexoDSP.MonitoredProps
open HexoDSP.Patch HexoDSP.PatchProps HexoDSP.PatchTimedProps HexoDSP.EngineSpec HexoDSP.NodeConfProps HexoDSP.Play HexoDSP.ParamProps HexoDSP.FlowProps
open HexoDSP.Matrix (MatrixError Cell)
open HexoDSP.Engine

section
variable {K V A M σ P PR B BR : Type} [DecidableEq K]
variable [Add V] [Mul V] [Sub V] [Div V] [NatCast V] [OfNat V 0]
variable {T : NodeTable (NodeId K) V A} {a0 : A} {run : σ → CallIn (NodeId K) V A → σ × (Nat → Block V)} {E : Env K V A P PR B BR}
variable {s s1 s2 : FM K V A M σ P B} {h : Hand K}

/-- What the engine was told is what the block shows. -/
theorem shows_of_final (hT : ∀ n, T.inCount n ≤ 32) (hO : ∀ n, T.outCount n ≤ 64) {t : Track (NodeId K) V A} {now : Playing (NodeId K) V A}
    (hf : Clocked T a0 run h now s1.world t) (hg : FOp.Gentle h (.poll : FOp K V A P PR B BR))
    {e2 : Option (MatrixError (NodeId K))} (h2 : s1.step T a0 run E .poll = some (s2, e2)) {w3 : World (NodeId K) V A M σ} {nf : Nat}
    {res : BlockResult (NodeId K) V A} (hp : s2.world.step T a0 run (.process nf) = some (w3, some res)) :
    ((final t).mon = none → res.monitor = []) ∧
    (∀ n ins outs, (final t).mon = some (n, ins, outs) → n ∈ (final t).order →
      ∃ c ∈ res.calls, c.node = n ∧ ∀ i blk, (i, blk) ∈ res.monitor ↔ Shows ins outs c i blk) ∧
    res.calls.map (fun c => c.node) = (final t).order ∧
    (∀ n ∈ (final t).order, (s1.world.conf.instanceOf n).isSome) := by
  simp only [FM.step] at h2
  obtain ⟨s1', g1, g2⟩ := Option.map_eq_some_iff.1 h2
  simp only [Prod.mk.injEq] at g2
  obtain ⟨w, out, hw, rfl⟩ := call_spec g1
  obtain ⟨rfl, -⟩ := g2
  have hk := hand_poll (s := s1) hf hg hw
  have hm := monitor_shows_ports hT hO hk.1 hp
  rw [hk.2.2] at hm
  refine ⟨hm.1, hm.2.1, ?_, ?_⟩
  · have := (block_is_dataflow hT (timed_follows hk.1) hp).2.order
    rwa [hk.2.2] at this
  · intro n hn
    have hl := playing_live hT (timed_follows hk.1) rfl (n := n) (by rw [hk.2.2]; exact hn)
    rwa [(audio_facts (Or.inl rfl) hw t).2.2] at hl

/-- **C136** After a `sync` that succeeds, the watched cell is the cell the grid has at the place of the cell that was watched before, with the ports it has now, and the next
block that is computed with the new grid feeds the monitor with exactly the signals of that cell; if the cell is empty, or if the place is outside of the grid, with
nothing. Missing from the full statement ("the monitor shows the watched cell at all times, and nothing unless asked"): see `empty_cell_still_shown` and
`shown_unasked`. -/
theorem sync_shows_watched_partial (hT : ∀ n, T.inCount n ≤ 32) (hO : ∀ n, T.outCount n ≤ 64) (hs : Timely T a0 run E s h)
    (h1 : s.step T a0 run E .sync = some (s1, none)) (hr : Room s1) (hg : FOp.Gentle h (.poll : FOp K V A P PR B BR))
    {e2 : Option (MatrixError (NodeId K))} (h2 : s1.step T a0 run E .poll = some (s2, e2)) {w3 : World (NodeId K) V A M σ} {nf : Nat}
    {res : BlockResult (NodeId K) V A} (hp : s2.world.step T a0 run (.process nf) = some (w3, some res)) :
    (∀ c, s.grid.get s.monitored.x s.monitored.y = some c → s1.monitored = c ∧ ShowsCell c res) ∧
    (s.grid.get s.monitored.x s.monitored.y = none → s1.monitored = s.monitored ∧ res.monitor = []) := by
  obtain ⟨hi, t, hf⟩ := timely_clocked hs
  simp only [FM.step] at h1
  obtain ⟨⟨s1', r⟩, g1, g2⟩ := Option.map_eq_some_iff.1 h1
  simp only [Prod.mk.injEq] at g2
  obtain ⟨rfl, g2⟩ := g2
  have hr' : r = .ok () := by
    cases r with
    | ok u => rfl
    | error e => simp [errOf] at g2
  subst hr'
  obtain ⟨t', f', hord, hmon⟩ := sync_monitors (base_still h) (clocked_still h t.now) hi.grid hi.reached g1 hr hf
  obtain ⟨m1, m2, -, -⟩ := shows_of_final hT hO f' hg h2 hp
  constructor
  · intro c hc
    simp only [hc] at hmon
    refine ⟨hmon.1, ?_⟩
    unfold ShowsCell
    cases hn : c.nodeId with
    | none => exact m1 (by rw [hmon.2, monOf, hn]; rfl)
    | some n => exact m2 n _ _ (by rw [hmon.2, monOf, hn]; rfl) (hord n ⟨_, _, c, hc, hn⟩)
  · intro hc
    simp only [hc] at hmon
    exact ⟨hmon.1, m1 hmon.2⟩

/-- **C136** `monitor_cell` with a cell whose node plays: it is the watched cell, and the next block computed after the message has arrived feeds the monitor with exactly
the signals of that cell. -/
theorem watch_shows_partial (hT : ∀ n, T.inCount n ≤ 32) (hO : ∀ n, T.outCount n ≤ 64) (hs : Timely T a0 run E s h) {c : Cell (NodeId K)} {n : NodeId K}
    (hn : c.nodeId = some n) {e1 : Option (MatrixError (NodeId K))} (h1 : s.step T a0 run E (.monitor c) = some (s1, e1)) (hr : Room s1)
    (hg : FOp.Gentle h (.poll : FOp K V A P PR B BR)) {e2 : Option (MatrixError (NodeId K))} (h2 : s1.step T a0 run E .poll = some (s2, e2))
    {w3 : World (NodeId K) V A M σ} {nf : Nat} {res : BlockResult (NodeId K) V A} (hp : s2.world.step T a0 run (.process nf) = some (w3, some res))
    (hplays : n ∈ res.calls.map (·.node)) : s1.monitored = c ∧ ShowsCell c res := by
  obtain ⟨hi, t, hf⟩ := timely_clocked hs
  simp only [FM.step, Option.some.injEq, Prod.mk.injEq] at h1
  obtain ⟨rfl, -⟩ := h1
  refine ⟨rfl, ?_⟩
  have hst : s.world.step T a0 run (.monitor n [c.in1, c.in2, c.in3] [c.out1, c.out2, c.out3]) = some ((s.monitorCell c).world, none) := by
    simp only [FM.monitorCell, hn]; rfl
  have hconf := (monitorCell_world (T := T) (a0 := a0) (run := run) s c).2
  have hq := queue_by (op := .monitor n [c.in1, c.in2, c.in3] [c.out1, c.out2, c.out3]) ⟨rfl, rfl⟩ hst
  have hlt := hr.1
  have hcare : Careful T s.world (.monitor n [c.in1, c.in2, c.in3] [c.out1, c.out2, c.out3] : EOp (NodeId K) V A M) :=
    careful_by trivial ⟨rfl, rfl⟩ (fun _ _ _ e => nomatch e) (by omega)
  have f1 := clocked_still h t.now _ _ (.monitor n [c.in1, c.in2, c.in3] [c.out1, c.out2, c.out3]) _ _ hf trivial hcare hst
  obtain ⟨-, m2, m3, m4⟩ := shows_of_final hT hO f1 hg h2 hp
  have hmem := hplays
  rw [m3] at hmem
  have hinst : (s.world.conf.instanceOf n).isSome := by rw [← hconf]; exact m4 n hmem
  unfold ShowsCell
  rw [hn]
  refine m2 n _ _ ?_ hmem
  show (final (Track.mk _ _)).mon = _
  simp only [asks, if_pos hinst]
  rw [final_snoc]
  rfl

end

/-! ## Concrete cases and violations -/

/-- The signals the monitor is fed with in a block of 4 frames: number and first sample. -/
def fed (s : ExS) : Option (List (Nat × Int)) :=
  (s.world.step PatchProps.exT 0 PatchProps.exRun (.process 4)).bind (fun r => r.2.map (fun b => b.monitor.map (fun p => (p.1, p.2 0))))

def isMonitor : ExOp → Bool
  | .monitor _ => true
  | _ => false

/-- The cell at (0, 1) of the patch of C18. -/
def exCell : Cell (NodeId Bool) := { PatchProps.cell ⟨true, 2⟩ none none none (some 1) none none with y := 1 }

/-- The patch of C18 plays. -/
def exBefore : List ExOp := PatchProps.exOps

/-- The cell at (0, 1) is watched and gets an output. -/
def exWatch : List ExOp := exBefore ++ [.monitor exCell, .poll, .place 0 1 (PatchProps.cell ⟨true, 2⟩ none (some 0) none (some 1) none none)]

def exOff : List ExOp := exWatch ++ [.sync, .monitor (Cell.empty none), .poll]

/-- The hypotheses of `watch_shows_partial` are met: the node of the cell plays, its input is shown afterwards. -/
example : ∃ x1 x2 x3 : ExT, Timely PatchProps.exT 0 PatchProps.exRun exE x1.1 x1.2.1 ∧ fed x1.1 = some [(5, 108)] ∧
    exGentle x1 (.monitor exCell) = some x2 ∧ exGentle x2 .poll = some x3 ∧ FOp.Gentle x2.2.1 (.poll : ExOp) ∧ fed x3.1 = some [(0, 425)] := by
  have h : ((exGo exTNew exBefore).bind (fun x => (exGentle x (.monitor exCell)).bind (fun y => (exGentle y .poll).map (fun z => (fed x.1, fed z.1))))) =
      some (some [(5, 108)], some [(0, 425)]) := by decide +kernel
  obtain ⟨x1, h1, h2⟩ := Option.bind_eq_some_iff.1 h
  obtain ⟨x2, h3, h4⟩ := Option.bind_eq_some_iff.1 h2
  obtain ⟨x3, h5, h6⟩ := Option.map_eq_some_iff.1 h4
  simp only [Prod.mk.injEq] at h6
  obtain ⟨a, b⟩ := go_timely _ (.new 2 3 ()) exTNew_covers h1
  exact ⟨x1, x2, x3, a, h6.1, h3, h5, (exGentle_ok (exGentle_ok b h3).1 h5).2.2.1, h6.2⟩

/-- The hypotheses of `sync_shows_watched_partial` are met: the watched cell has got an output, which is shown after `sync`. -/
example : ∃ x1 x2 x3 : ExT, Timely PatchProps.exT 0 PatchProps.exRun exE x1.1 x1.2.1 ∧ x1.1.monitored = exCell ∧
    exGentle x1 .sync = some x2 ∧ exGentle x2 .poll = some x3 ∧ FOp.Gentle x2.2.1 (.poll : ExOp) ∧ fed x3.1 = some [(0, 425), (4, 527)] := by
  have h : ((exGo exTNew exWatch).bind (fun x => (exGentle x .sync).bind (fun y => (exGentle y .poll).map (fun z => (x.1.monitored, fed z.1))))) =
      some (exCell, some [(0, 425), (4, 527)]) := by decide +kernel
  obtain ⟨x1, h1, h2⟩ := Option.bind_eq_some_iff.1 h
  obtain ⟨x2, h3, h4⟩ := Option.bind_eq_some_iff.1 h2
  obtain ⟨x3, h5, h6⟩ := Option.map_eq_some_iff.1 h4
  simp only [Prod.mk.injEq] at h6
  obtain ⟨a, b⟩ := go_timely _ (.new 2 3 ()) exTNew_covers h1
  exact ⟨x1, x2, x3, a, h6.1, h3, h5, (exGentle_ok (exGentle_ok b h3).1 h5).2.2.1, h6.2⟩

/-- **C136** Watching an empty cell does not switch the monitor off: it goes on showing the cell that was watched before, though all messages have arrived. -/
theorem empty_cell_still_shown : ∃ x : ExT, Timely PatchProps.exT 0 PatchProps.exRun exE x.1 x.2.1 ∧ x.1.world.queue.length = 0 ∧ x.1.monitored = Cell.empty none ∧
    fed x.1 = some [(0, 425), (4, 527)] := by
  have h : ((exGo exTNew exOff).map (fun x => (x.1.world.queue.length, x.1.monitored, fed x.1))) =
      some (0, Cell.empty none, some [(0, 425), (4, 527)]) := by decide +kernel
  obtain ⟨x, h1, h2⟩ := Option.map_eq_some_iff.1 h
  simp only [Prod.mk.injEq] at h2
  exact ⟨x, (go_timely _ (.new 2 3 ()) exTNew_covers h1).1, h2.1, h2.2.1, h2.2.2⟩

/-- **C136** Nobody has called `monitor_cell`, but the cell in the upper left corner is watched after the first `sync`, and shown. -/
theorem shown_unasked : ∃ (ops : List ExOp) (x : ExT), (∀ op ∈ ops, isMonitor op = false) ∧ exGo exTNew ops = some x ∧
    x.1.monitored.nodeId = some ⟨true, 0⟩ ∧ fed x.1 = some [(5, 108)] := by
  have h : ((exGo exTNew exBefore).map (fun x => (x.1.monitored.nodeId, fed x.1))) = some (some ⟨true, 0⟩, some [(5, 108)]) := by decide +kernel
  obtain ⟨x, h1, h2⟩ := Option.map_eq_some_iff.1 h
  simp only [Prod.mk.injEq] at h2
  exact ⟨exBefore, x, by decide, h1, h2.1, h2.2⟩

end HexoDSP.MonitoredProps
