import Verif.Lemmas.Status
/-! The status values (LED and phase) shown for the nodes. -/

set_option linter.unusedSectionVars false

namespace HexoDSP.StatusProps
open HexoDSP.Engine EngineSpec StatusSpec Status

variable {N V A M σ : Type} [DecidableEq N] [Add V] [Mul V] [Sub V] [Div V] [NatCast V] [OfNat V 0]
variable {T : NodeTable N V A} {a0 : A} {run : σ → CallIn N V A → σ × (Nat → Block V)} {ops : List (EOp N V A M)} {w : World N V A M σ}
  {vals : List V} {l : Record N V}

/-- **C111** The audio thread never leaves the table: in any block after any history, whatever the nodes store. -/
theorem storing_never_panics (h : Lit T a0 run ops w vals l) (shown : List (Shown V)) :
    ∃ vals1, showBlock vals w.exec.prog.prog shown = some vals1 := by
  have hi := inv_lit h
  refine showBlock_some hi.len (fun o ho => ?_) shown
  exact hi.few.exec.1 (o.idx, o.node) (List.mem_map.2 ⟨o, ho, rfl⟩)

/-- **C111** A node that does not exist shows 0. -/
theorem unknown_is_zero (h : Lit T a0 run ops w vals l) {n : N} (hn : n ∉ created ops) :
    w.conf.ledValueFor vals n = some 0 ∧ w.conf.phaseValueFor vals n = some 0 := by
  have hi := inv_lit h
  have hu := (uniqueIndexFor_none hi.wf n).2 (by rw [hi.ids]; exact hn)
  simp [Conf.ledValueFor, Conf.phaseValueFor, hu]

theorem uniqueIndex_created (h : Lit T a0 run ops w vals l) {n : N} (hn : n ∈ created ops) :
    w.conf.uniqueIndexFor n = some ((created ops).idxOf n) := by
  have hi := inv_lit h
  exact (hi.wf.idx n _).2 (by rw [hi.ids]; exact idxOf_get hn)

/-- **C111** The English property ("the value shown for a node can be asked for at any time and is the one the node stored last") is false. Asking
panics for every node that was created when there were 256 already, and for no other. -/
theorem asking_panics_iff (h : Lit T a0 run ops w vals l) (n : N) :
    (w.conf.ledValueFor vals n = none ↔ n ∈ created ops ∧ 256 ≤ (created ops).idxOf n) ∧
    (w.conf.phaseValueFor vals n = none ↔ n ∈ created ops ∧ 256 ≤ (created ops).idxOf n) := by
  by_cases hn : n ∈ created ops
  · have hu := uniqueIndex_created h hn
    have hl := (inv_lit h).len
    simp only [Conf.ledValueFor, Conf.phaseValueFor, hu, List.getElem?_eq_none_iff, hl, hn, true_and]
    omega
  · obtain ⟨h1, h2⟩ := unknown_is_zero h hn
    simp [h1, h2, hn]

/-- **C111** What holds: as long as the patch was not cleared and has at most 256 nodes, the values shown for a node are the ones its last call stored
(0 if it stored none yet), whatever else happened: programs uploaded, messages on their way, other nodes storing theirs. -/
theorem shown_is_stored_partial (h : Lit T a0 run ops w vals l) (hd : EOp.deleteNodes ∉ ops) (hs : (created ops).length ≤ 256) (n : N) :
    w.conf.ledValueFor vals n = some (l n).1 ∧ w.conf.phaseValueFor vals n = some (l n).2 := by
  obtain ⟨_, ht⟩ := tab_lit h hd hs
  by_cases hn : n ∈ created ops
  · have hu := uniqueIndex_created h hn
    simp only [Conf.ledValueFor, Conf.phaseValueFor, hu]
    exact ht.here _ n (idxOf_get hn)
  · rw [ht.out n hn]
    exact unknown_is_zero h hn

/-! ### Clearing, and concrete cases -/

def exT : NodeTable Nat Int Nat := ⟨fun _ => 0, fun _ => 0, fun _ => 0, fun _ _ => 0, fun _ _ => 0⟩
def exRun : Unit → CallIn Nat Int Nat → Unit × (Nat → Block Int) := fun _ _ => ((), fun _ _ => 0)

/-- Any number of nodes can be created. -/
theorem many_nodes (k : Nat) : ∃ (w : World Nat Int Nat Unit Unit) (vals : List Int) (l : Record Nat Int),
    Lit exT 0 exRun ((List.range k).map .createNode) w vals l ∧ created ((List.range k).map (EOp.createNode (N := Nat) (V := Int) (A := Nat) (M := Unit))) = List.range k := by
  induction k with
  | zero => exact ⟨_, _, _, .new (), rfl⟩
  | succ k ih =>
    obtain ⟨w, vals, l, h, hc⟩ := ih
    have hi := inv_lit h
    have hn : w.conf.uniqueIndexFor k = none := (uniqueIndexFor_none hi.wf k).2 (by rw [hi.ids, hc]; simp)
    have hp : Polite w (.createNode k) := by simp [Polite, Allocated, hn]
    refine ⟨{ w with conf := w.conf.createNode k }, vals, l, ?_, ?_⟩
    · rw [List.range_succ, List.map_append]
      exact .call h hp rfl
    · rw [List.range_succ, List.map_append]
      show created (_ ++ [_]) = _
      rw [created_snoc _ _ (by simp), hc]

/-- **C111** With 257 nodes in the patch, asking for the LED of the last one panics. -/
theorem node_257_panics : ∃ (w : World Nat Int Nat Unit Unit) (vals : List Int) (l : Record Nat Int),
    Lit exT 0 exRun ((List.range 257).map .createNode) w vals l ∧ w.conf.ledValueFor vals 256 = none ∧ (w.conf.ledValueFor vals 255).isSome := by
  obtain ⟨w, vals, l, h, hc⟩ := many_nodes 257
  have hx : ∀ n, n < 257 → (List.range 257).idxOf n = n := by
    intro n hn
    have := (List.nodup_range (n := 257)).idxOf_getElem n (by simpa using hn)
    simpa using this
  refine ⟨w, vals, l, h, ((asking_panics_iff h 256).1).2 ?_, ?_⟩
  · rw [hc, hx 256 (by omega)]; simp
  · rw [Option.isSome_iff_ne_none]
    intro he
    have := ((asking_panics_iff h 255).1).1 he
    rw [hc, hx 255 (by omega)] at this
    omega

/-- Node 4 runs and stores 7; the patch is cleared; node 9 is created. -/
def exOps : List (EOp Nat Int Nat Unit) := [.createNode 4, .sync [4] [] false, .poll, .process 8, .deleteNodes, .createNode 9]

set_option maxRecDepth 100000 in
/-- **C111** After the patch was cleared a new node, which never ran, shows the values of a node that is gone. -/
theorem stale_after_clear : ∃ (w : World Nat Int Nat Unit Unit) (vals : List Int) (l : Record Nat Int),
    Lit exT 0 exRun exOps w vals l ∧ l 9 = (0, 0) ∧ w.conf.ledValueFor vals 9 = some 7 ∧ w.conf.phaseValueFor vals 9 = some 3 := by
  refine ⟨_, _, _, .call (ops := [.createNode 4, .sync [4] [] false, .poll, .process 8, .deleteNodes])
    (.call (ops := [.createNode 4, .sync [4] [] false, .poll, .process 8])
      (.block (ops := [.createNode 4, .sync [4] [] false, .poll]) (shown := [⟨some 7, some 3⟩])
        (.call (ops := [.createNode 4, .sync [4] [] false]) (.call (ops := [.createNode 4]) (.call (ops := []) (.new ()) ?_ rfl) ?_ rfl) ?_ rfl)
        rfl rfl rfl) ?_ rfl) ?_ rfl, ?_, ?_, ?_⟩ <;> trivial

set_option maxRecDepth 100000 in
/-- The history of `stale_after_clear` up to the clearing meets the hypotheses of `shown_is_stored_partial`: node 4 shows 7 and 3. -/
example : ∃ (w : World Nat Int Nat Unit Unit) (vals : List Int) (l : Record Nat Int),
    Lit exT 0 exRun [.createNode 4, .sync [4] [] false, .poll, .process 8] w vals l ∧
    EOp.deleteNodes ∉ [.createNode 4, .sync [4] [] false, .poll, (.process 8 : EOp Nat Int Nat Unit)] ∧ l 4 = (7, 3) ∧
    w.conf.ledValueFor vals 4 = some 7 := by
  refine ⟨_, _, _, (.block (ops := [.createNode 4, .sync [4] [] false, .poll]) (shown := [⟨some 7, some 3⟩])
        (.call (ops := [.createNode 4, .sync [4] [] false]) (.call (ops := [.createNode 4]) (.call (ops := []) (.new ()) ?_ rfl) ?_ rfl) ?_ rfl)
        rfl rfl rfl), ?_, ?_, ?_⟩ <;> first | trivial | decide | rfl | simp

end HexoDSP.StatusProps
