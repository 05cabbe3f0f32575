import Verif.Lemmas.PatchTimed
import Verif.Spec.Monitored
/-! What `sync` tells the engine to monitor. -/

set_option linter.unusedSectionVars false

namespace HexoDSP.Patch
open HexoDSP.EngineSpec HexoDSP.NodeConfProps HexoDSP.Play HexoDSP.MatrixEngineProps
open HexoDSP.Matrix (Matrix Cell Edge MatrixError SameGrid)
open HexoDSP.Engine

variable {K V A M σ P PR B BR : Type} [DecidableEq K]
variable [Add V] [Mul V] [Sub V] [Div V] [NatCast V] [OfNat V 0]
variable {T : NodeTable (NodeId K) V A} {a0 : A} {run : σ → CallIn (NodeId K) V A → σ × (Nat → Block V)} {E : Env K V A P PR B BR}
variable {ok : EOp (NodeId K) V A M → Prop} {F : World (NodeId K) V A M σ → Track (NodeId K) V A → Prop}

/-- What the engine has to monitor for a cell. -/
def monOf (c : Cell (NodeId K)) : Option (NodeId K × List (Option Nat) × List (Option Nat)) :=
  c.nodeId.map (fun n => (n, [c.in1, c.in2, c.in3], [c.out1, c.out2, c.out3]))

theorem instance_sync {w w1 : World (NodeId K) V A M σ} {order : List (NodeId K)} {es : List (Conn (NodeId K))} {co : Bool} {out} (hr : Reached T a0 run w)
    (h : w.step T a0 run (.sync order es co) = some (w1, out)) {n : NodeId K} (hn : n ∈ w.conf.ids) : (w1.conf.instanceOf n).isSome := by
  simp only [World.step] at h
  obtain ⟨⟨c', p, h'⟩, hb, heq⟩ := Option.map_eq_some_iff.1 h
  simp only [Prod.mk.injEq] at heq
  obtain ⟨u, hu⟩ := instanceOf_eq (rebuilt_buildProg (wf_reached hr) hb) hn
  have hconf : w1.conf = c' := by rw [← heq.1]; simp [conf_send]
  rw [hconf, hu]; rfl

theorem sync_monitors (hb : Base ok) (hF : Closed T a0 run ok F) {s s' : FM K V A M σ P B} (hg : GridOk s.grid) (hr : Reached T a0 run s.world)
    (h : s.sync T a0 run E = some (s', .ok ())) (hroom : Room s') {t : Track (NodeId K) V A} (ht : F s.world t) :
    ∃ t', F s'.world t' ∧ (∀ n, OnGrid s.grid n → n ∈ (final t').order) ∧
      match s.grid.get s.monitored.x s.monitored.y with
      | none => s'.monitored = s.monitored ∧ (final t').mon = none
      | some c => s'.monitored = c ∧ (final t').mon = monOf c := by
  have hgr : (s.createNodes E).grid = s.grid := rfl
  have hmo : (s.createNodes E).monitored = s.monitored := rfl
  obtain ⟨h1, -, hids, -⟩ := createNodes_way (T := T) (a0 := a0) (run := run) (E := E) hb hg hr True
  have hr1 := reached_way hr h1
  have hleg := fun order ho hsm => legal_sync (T := T) (a0 := a0) (run := run) (E := E) (order := order) hg hr ho hsm
  have h0 := h
  unfold FM.sync at h
  simp only at h
  generalize hs1 : s.createNodes E = s1 at h hgr hmo h1 hids hr1 hleg
  have hcap : s.grid.WithinCapacity := Matrix.capacity_of_sync hg.wfs.toWF (by
    intro hn; rw [hgr, hn] at h; cases h)
  obtain ⟨g, r0, hs, hsame, hwf, hed, hres⟩ := Matrix.sync_spec hg.wfs.toWF hcap
  rw [hgr, hs] at h
  have hwire : g.edges.map connOf = wiring s.grid := by rw [hed, wiring, List.map_map]; rfl
  rcases hres with ⟨hl, rfl, -⟩ | ⟨hl, -, L, rfl, hnd, hmem, hbef⟩
  · simp only [Option.some.injEq, Prod.mk.injEq] at h
    exact absurd h.2 (by simp)
  · simp only at h
    obtain ⟨s3, h3, h4⟩ := Option.map_eq_some_iff.1 h
    simp only [Prod.mk.injEq] at h4
    obtain ⟨rfl, -⟩ := h4
    simp only [FM.call, hwire] at h3
    obtain ⟨⟨w2, out⟩, hstep, rfl⟩ := Option.map_eq_some_iff.1 h3
    have ho : OrderOf s.grid L := ⟨hnd, hmem, hbef⟩
    set s2 : FM K V A M σ P B := FM.mk g w2 s1.props s1.monitored s1.pats s1.funs s1.engines with hs2
    obtain ⟨hm, -⟩ := remonitor_world (T := T) (a0 := a0) (run := run) s2
    have q1 : w2.queue.length ≤ s2.remonitor.world.queue.length := way_queue (way_monitor (small := True) hb hm)
    have q2 := queue_by (op := .sync L (wiring s.grid) true) trivial hstep
    have hlt := hroom.1
    have hlen : s2.remonitor.world.conf.nodes.length = s1.world.conf.nodes.length := by
      have := congrArg List.length (ids_sync hr1 hstep)
      rw [conf_monitor hm]
      simpa [Conf.ids] using this
    have hl := hleg L ho (by have := hroom.2; omega)
    obtain ⟨t1, ht1⟩ := way_follows hF trivial h1 (by omega) t ht
    obtain ⟨-, a2, a3⟩ := agree_sync hr1 hstep t1
    have ht2 := hF _ _ _ _ _ ht1 (hb.sync _ _ _) (careful_by (op := .sync L (wiring s.grid) true) trivial trivial (by
      rintro o es c e
      simp only [EOp.sync.injEq] at e
      obtain ⟨rfl, rfl, -⟩ := e
      exact hl) (by omega)) hstep
    have hmon : (final (t1.step T s1.world.conf (.sync L (wiring s.grid) true : EOp (NodeId K) V A M))).mon = none := by
      simp only [Track.step, asks]
      rw [final_snoc]
      rfl
    have hget : s2.grid.get s2.monitored.x s2.monitored.y = s.grid.get s.monitored.x s.monitored.y := by
      show g.get s1.monitored.x s1.monitored.y = _
      rw [hmo, hsame.get]
    have hord : ∀ n, OnGrid s.grid n → n ∈ (final (t1.step T s1.world.conf (.sync L (wiring s.grid) true : EOp (NodeId K) V A M))).order := by
      intro n hn; rw [a2]; exact (hmem n).2 hn
    have hrem : s2.remonitor = match s.grid.get s.monitored.x s.monitored.y with
      | none => s2
      | some c => s2.monitorCell c := by
      unfold FM.remonitor; rw [hget]; cases s.grid.get s.monitored.x s.monitored.y <;> rfl
    rw [hrem] at hlt hm ⊢
    cases hc : s.grid.get s.monitored.x s.monitored.y with
    | none => exact ⟨_, ht2, hord, hmo, hmon⟩
    | some c =>
      simp only [hc] at hlt hm ⊢
      cases hn : c.nodeId with
      | none =>
        refine ⟨_, ?_, hord, rfl, by rw [hmon, monOf, hn]; rfl⟩
        simp only [FM.monitorCell, hn]
        exact ht2
      | some n =>
        have hst : w2.step T a0 run (.monitor n [c.in1, c.in2, c.in3] [c.out1, c.out2, c.out3]) = some ((s2.monitorCell c).world, none) := by
          simp only [FM.monitorCell, hn]; rfl
        have hq := queue_by (op := .monitor n [c.in1, c.in2, c.in3] [c.out1, c.out2, c.out3]) ⟨rfl, rfl⟩ hst
        have hcare : Careful T w2 (.monitor n [c.in1, c.in2, c.in3] [c.out1, c.out2, c.out3] : EOp (NodeId K) V A M) :=
          careful_by trivial ⟨rfl, rfl⟩ (fun _ _ _ e => nomatch e) (by omega)
        have hinst : (w2.conf.instanceOf n).isSome := instance_sync hr1 hstep (hids n ⟨_, _, c, hc, hn⟩)
        obtain ⟨k1, -⟩ := final_monitor (T := T) (M := M) (n := n) (i := [c.in1, c.in2, c.in3]) (o := [c.out1, c.out2, c.out3])
          (t1.step T s1.world.conf (.sync L (wiring s.grid) true : EOp (NodeId K) V A M)) w2.conf
        refine ⟨_, hF _ _ _ _ _ ht2 (hb.monitor _ _ _) hcare hst, fun m hm => by rw [k1]; exact hord m hm, rfl, ?_⟩
        simp only [monOf, hn, Option.map_some]
        show (final (Track.mk _ _)).mon = _
        simp only [asks, if_pos hinst]
        rw [final_snoc]
        rfl

end HexoDSP.Patch
