import Verif.Lemmas.Robust2
/-! **C112** What the audio thread survives. -/

set_option linter.unusedSectionVars false

namespace HexoDSP.RobustProps
open Engine EngineSpec RobustSpec Robust

variable {N V A M σ : Type} [DecidableEq N] [Add V] [Mul V] [Sub V] [Div V] [NatCast V] [OfNat V 0]
  {T : NodeTable N V A} {a0 : A} {run : σ → CallIn N V A → σ × (Nat → Block V)} {w : World N V A M σ}

/-- **C112** (part) Taking the messages never panics, as long as no new program was refused by a full queue. The programs may name nodes that
do not exist, nodes twice, and connections that are not there; there may be any number of nodes; and any other update may have been refused. -/
theorem taking_never_panics_partial (h : Keeping T a0 run Room w) : ∃ r, w.step T a0 run .poll = some r := by
  obtain ⟨k, h1, -⟩ := (fits_keeping h).queue
  obtain ⟨e, s, h2, -, -⟩ := applyAll_ok h1 (s := w.shared) rfl (whole_keeping h).ready
  exact ⟨_, by simp only [World.step, h2, Option.map_some]; rfl⟩

/-- **C112** After any history at all, a block panics for one of five reasons and no other: it has no frames, or more than 128; a parameter is still
moving, or has just arrived, which the running program does not have; or a signal is monitored for which the running program has no buffer. -/
theorem block_panics_iff (h : Keeping T a0 run Free w) (nf : Nat) : w.step T a0 run (.process nf) = none ↔
    nf = 0 ∨ 128 < nf ∨ (∃ x ∈ w.exec.targetRefresh, w.exec.prog.inp.length ≤ x.1) ∨
      (∃ x ∈ w.exec.smoothers, x.2.done = false ∧ w.exec.prog.inp.length ≤ x.1) ∨
      ∃ k idx, w.exec.monitorIdx[k]? = some idx ∧ idx ≠ 99999 ∧ monitored w.exec.prog k idx = none := by
  simp only [World.step, Option.map_eq_none_iff]
  exact process_none (whole_keeping h).ready

/-- **C112** If no parameter is set and nothing is monitored, blocks of 1 to 128 frames never panic, whatever else is called, in whatever order, with
whatever arguments, and whichever programs and updates are refused. -/
theorem idle_block_never_panics (h : Keeping T a0 run Still w) {nf : Nat} (h1 : 1 ≤ nf) (h2 : nf ≤ 128) : ∃ r, w.step T a0 run (.process nf) = some r := by
  cases hs : w.step T a0 run (.process nf) with
  | some r => exact ⟨r, rfl⟩
  | none =>
    simp only [World.step, Option.map_eq_none_iff] at hs
    obtain ⟨⟨i1, i2, i3⟩, -⟩ := idle_keeping h
    rcases (process_none (whole_keeping h).ready).1 hs with e | e | ⟨x, hx, -⟩ | ⟨x, hx, hd, -⟩ | ⟨k, idx, hk, hn, -⟩
    · omega
    · omega
    · rw [i2] at hx; cases hx
    · rw [i1 x hx] at hd; cases hd
    · exact absurd (i3 idx (List.mem_of_getElem? hk)) hn

/-! ## Where the full statement fails, and examples -/

/-- One node type with one input, one output and one setting. -/
def exT : NodeTable Nat Int Nat := ⟨fun _ => 1, fun _ => 1, fun _ => 1, fun _ _ => 0, fun _ _ => 0⟩
def exRun : Unit → CallIn Nat Int Nat → Unit × (Nat → Block Int) := fun _ _ => ((), fun _ _ => 7)

/-- Runs a concrete history and checks the rule. -/
def keepRun (P : World Nat Int Nat Unit Unit → EOp Nat Int Nat Unit → Bool) : World Nat Int Nat Unit Unit → List (EOp Nat Int Nat Unit) → Option (World Nat Int Nat Unit Unit)
  | w, [] => some w
  | w, op :: ops => if Polite w op ∧ P w op then (w.step exT 0 exRun op).bind (fun r => keepRun P r.1 ops) else none

theorem keeping_of_run {P : World Nat Int Nat Unit Unit → EOp Nat Int Nat Unit → Bool} {Q : World Nat Int Nat Unit Unit → EOp Nat Int Nat Unit → Prop}
    (hPQ : ∀ w op, P w op = true → Q w op) (ops : List (EOp Nat Int Nat Unit)) :
    ∀ {w w' : World Nat Int Nat Unit Unit}, Keeping exT 0 exRun Q w → keepRun P w ops = some w' → Keeping exT 0 exRun Q w' := by
  induction ops with
  | nil => intro w w' h e; cases e; exact h
  | cons op ops ih =>
    intro w w' h e
    unfold keepRun at e
    split at e
    · rename_i hp
      cases hs : w.step exT 0 exRun op with
      | none => rw [hs] at e; cases e
      | some r =>
        rw [hs] at e
        exact ih (.call (out := r.2) h hp.1 (hPQ w op hp.2) hs) e
    · cases e

def roomB (w : World Nat Int Nat Unit Unit) : EOp Nat Int Nat Unit → Bool
  | .sync _ _ _ => decide (w.queue.length < queueCapacity)
  | _ => true

theorem roomB_ok (w : World Nat Int Nat Unit Unit) (op : EOp Nat Int Nat Unit) (h : roomB w op = true) : Room w op := by
  cases op with
  | sync a b c => exact of_decide_eq_true (p := w.queue.length < queueCapacity) h
  | _ => trivial

def stillB (_ : World Nat Int Nat Unit Unit) : EOp Nat Int Nat Unit → Bool
  | .setInput _ _ _ => false
  | .monitor _ _ _ => false
  | _ => true

theorem stillB_ok (w : World Nat Int Nat Unit Unit) (op : EOp Nat Int Nat Unit) (h : stillB w op = true) : Still w op := by
  cases op <;> trivial

/-- A node is created while 512 MIDI events wait, so that the program with it is refused. Then its setting is changed. -/
def exLost : List (EOp Nat Int Nat Unit) :=
  .createNode 0 :: List.replicate 512 (.injectMidi ()) ++ [.sync [0] [] false, .poll, .process 4, .setAtom 0 0 5]

set_option maxRecDepth 100000 in
theorem exLost_runs : (keepRun stillB (World.new ()) exLost).isSome = true := by decide +kernel

set_option maxRecDepth 100000 in
/-- **C112** (negation) A program is refused because the queue is full; later a setting of its node is changed. Taking that message panics on the
audio thread. -/
theorem lost_program_panics : ∃ w : World Nat Int Nat Unit Unit, Keeping exT 0 exRun Free w ∧ w.queue.length < queueCapacity ∧ w.step exT 0 exRun .poll = none := by
  refine ⟨(keepRun stillB (World.new ()) exLost).get exLost_runs, keeping_of_run (P := stillB) (fun _ _ _ => trivial) exLost (.new ()) (Option.some_get _).symm, ?_, ?_⟩
  · have h : decide (((keepRun stillB (World.new ()) exLost).get exLost_runs).queue.length < queueCapacity) = true := by decide +kernel
    exact of_decide_eq_true h
  · have h : (((keepRun stillB (World.new ()) exLost).get exLost_runs).step exT 0 exRun .poll).isNone = true := by decide +kernel
    exact Option.isNone_iff_eq_none.1 h

/-- A history with a program that names a node that does not exist, names a node twice, connects nodes against the order and to ports they do not have. -/
def exWild : List (EOp Nat Int Nat Unit) :=
  [.createNode 0, .createNode 1, .sync [1, 7, 0, 1] [⟨0, 0, 1, 0⟩, ⟨1, 0, 0, 0⟩, ⟨7, 0, 0, 0⟩, ⟨0, 3, 1, 5⟩] true, .setAtom 1 0 5, .deleteNodes, .createNode 3,
   .setAtom 3 0 1, .sync [3, 3] [⟨3, 0, 3, 0⟩] true, .setAtom 3 0 2]

theorem exWild_runs : (keepRun (fun w op => roomB w op && stillB w op) (World.new ()) exWild).isSome = true := by decide +kernel

def exWildW : World Nat Int Nat Unit Unit := (keepRun (fun w op => roomB w op && stillB w op) (World.new ()) exWild).get exWild_runs

/-- The hypotheses of `taking_never_panics_partial` are met by that history, and five messages wait. -/
example : Keeping exT 0 exRun Room exWildW ∧ exWildW.queue.length = 5 :=
  ⟨keeping_of_run (P := fun w op => roomB w op && stillB w op) (fun w op h => roomB_ok w op (by simp only [Bool.and_eq_true] at h; exact h.1)) exWild (.new ())
    (Option.some_get _).symm, by decide +kernel⟩

theorem exBlock_runs : (keepRun stillB (World.new ()) (exWild ++ [.poll])).isSome = true := by decide +kernel

/-- The hypotheses of `idle_block_never_panics` are met by that history, and the next block runs the node once, with its last setting. -/
example : ∃ w : World Nat Int Nat Unit Unit, Keeping exT 0 exRun Still w ∧
    ((w.step exT 0 exRun (.process 4)).bind (fun x => x.2)).map (fun r => r.calls.map (fun c => (c.node, c.atoms))) = some [(3, [2])] :=
  ⟨_, keeping_of_run (P := stillB) stillB_ok (exWild ++ [.poll]) (.new ()) (Option.some_get exBlock_runs).symm, by decide +kernel⟩

def exGone : List (EOp Nat Int Nat Unit) := [.setSlope 400, .createNode 0, .sync [0] [] false, .poll, .setInput 0 0 5, .poll, .deleteNodes, .poll]

theorem exGone_runs : (keepRun (fun _ _ => true) (World.new ()) exGone).isSome = true := by decide +kernel

/-- One of the reasons of `block_panics_iff`: a parameter is moving when its program is replaced by one without it. -/
example : ∃ w : World Nat Int Nat Unit Unit, Keeping exT 0 exRun Free w ∧ ∃ x ∈ w.exec.smoothers, x.2.done = false ∧ w.exec.prog.inp.length ≤ x.1 := by
  refine ⟨(keepRun (fun _ _ => true) (World.new ()) exGone).get exGone_runs,
    keeping_of_run (P := fun _ _ => true) (fun _ _ _ => trivial) _ (.new ()) (Option.some_get exGone_runs).symm, ?_⟩
  have h : ((keepRun (fun _ _ => true) (World.new ()) exGone).get exGone_runs).exec.smoothers.any
      (fun x => !x.2.done && decide (((keepRun (fun _ _ => true) (World.new ()) exGone).get exGone_runs).exec.prog.inp.length ≤ x.1)) = true := by decide +kernel
  obtain ⟨x, hx, hp⟩ := List.any_eq_true.1 h
  simp only [Bool.and_eq_true, Bool.not_eq_true', decide_eq_true_eq] at hp
  exact ⟨x, hx, hp.1, hp.2⟩

end HexoDSP.RobustProps
