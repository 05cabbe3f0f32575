import Verif.Lemmas.Many
/-! Every node of a patch runs in every block. -/

set_option linter.unusedSectionVars false

namespace HexoDSP.ManyProps
open HexoDSP.Engine EngineSpec Many

variable {N V A M σ : Type} [DecidableEq N] [OfNat V 0] [Add V] [Mul V] [Sub V] [Div V] [NatCast V]

/-- **C98** The English property ("however many nodes a patch has, each of them runs in each block") is false: after any history of calls at all, a block
runs at most 256 nodes. -/
theorem at_most_256_nodes_run {T : NodeTable N V A} {a0 : A} {run : σ → CallIn N V A → σ × (Nat → Block V)} {st : σ}
    {ops : List (EOp N V A M)} {w w1 : World N V A M σ} {nframes : Nat} {r : BlockResult N V A}
    (hw : (World.new st).runOps T a0 run ops = some w) (hp : w.step T a0 run (.process nframes) = some (w1, some r)) :
    r.calls.length ≤ 256 := by
  have hf := few_runOps ops (fewWorld_new st) hw
  simp only [World.step] at hp
  cases hb : w.exec.process run w.shared.heap w.st nframes with
  | none => simp [hb] at hp
  | some x =>
    simp only [hb, Option.map_some, Option.some.injEq, Prod.mk.injEq] at hp
    have hc := (calls_process (r := x.2.2.2) hb).1
    have hl := congrArg List.length hc
    rw [hp.2] at hl
    simp only [List.length_map] at hl
    rw [hl]
    exact hf.exec.length

/-- **C98** So of any list of more than 256 nodes at least one does not run, in any block after any history of calls. -/
theorem some_node_left_out {T : NodeTable N V A} {a0 : A} {run : σ → CallIn N V A → σ × (Nat → Block V)} {st : σ}
    {ops : List (EOp N V A M)} {w w1 : World N V A M σ} {nframes : Nat} {r : BlockResult N V A}
    (hw : (World.new st).runOps T a0 run ops = some w) (hp : w.step T a0 run (.process nframes) = some (w1, some r))
    {order : List N} (hnd : order.Nodup) (hl : 256 < order.length) : ∃ n ∈ order, ∀ c ∈ r.calls, c.node ≠ n := by
  by_contra hc
  push Not at hc
  have hsub : order ⊆ r.calls.map (fun c => c.node) := by
    intro n hn
    obtain ⟨c, h1, h2⟩ := hc n hn
    exact List.mem_map.2 ⟨c, h1, h2⟩
  have h1 := (List.subperm_of_subset hnd hsub).length_le
  have h2 := at_most_256_nodes_run hw hp
  rw [List.length_map] at h1
  omega

/-- **C98** (which nodes run) A patch is uploaded, the audio thread takes it over and renders a block. A node of the patch runs if and only if no node before
it in the order of the patch was created a multiple of 256 nodes before or after it. -/
theorem runs_iff {T : NodeTable N V A} {a0 : A} {run : σ → CallIn N V A → σ × (Nat → Block V)} {st : σ}
    {ops : List (EOp N V A M)} {w w1 w2 w3 : World N V A M σ} {a b : List N} {n : N} {es : List (Conn N)} {copyOld : Bool}
    {o1 o2 : Option (BlockResult N V A)} {nframes : Nat} {r : BlockResult N V A}
    (hw : Ran T a0 run (World.new st) ops w) (hq : w.queue.length < queueCapacity)
    (hnd : (a ++ n :: b).Nodup) (hmem : ∀ m ∈ a ++ n :: b, m ∈ created ops)
    (hs : w.step T a0 run (.sync (a ++ n :: b) es copyOld) = some (w1, o1)) (hp : w1.step T a0 run .poll = some (w2, o2))
    (hx : w2.step T a0 run (.process nframes) = some (w3, some r)) :
    (∃ c ∈ r.calls, c.node = n) ↔ ∀ m ∈ a, (created ops).idxOf m % 256 ≠ (created ops).idxOf n % 256 := by
  have hwf := wf_ran hw confWF_new
  have hids : w.conf.ids = created ops := ids_ran hw confWF_new
  simp only [World.step] at hs hp hx
  cases hb : w.conf.buildProg T a0 w.shared.heap (a ++ n :: b) es with
  | none => simp [hb] at hs
  | some x =>
    simp only [hb, Option.map_some, Option.some.injEq, Prod.mk.injEq] at hs
    have hqueue : w1.queue = w.queue ++ [.newProg (x.1.fillProg x.2.1) copyOld] := by
      rw [← hs.1]
      unfold World.send
      rw [if_pos hq]
    cases hy : w1.exec.applyAll w1.shared w1.queue with
    | none => simp [hy] at hp
    | some y =>
      simp only [hy, Option.map_some, Option.some.injEq, Prod.mk.injEq] at hp
      have hprog : y.1.prog.prog = x.2.1.prog := by
        rw [hqueue] at hy
        rw [prog_applyAll_last _ _ _ (e1 := y.1) (s1 := y.2) hy, prog_fillProg]
      cases hz : w2.exec.process run w2.shared.heap w2.st nframes with
      | none => simp [hz] at hx
      | some z =>
        simp only [hz, Option.map_some, Option.some.injEq, Prod.mk.injEq] at hx
        have hc := (calls_process (r := z.2.2.2) hz).1
        rw [hx.2, ← hp.1] at hc
        simp only at hc
        rw [hprog] at hc
        have := buildProg_runs (p := x.2.1) (h' := x.2.2) hwf hnd (by rw [hids]; exact hmem) hb
        rw [hids, ← hc] at this
        rw [← this]
        simp only [List.mem_map]

/-- **C98** What holds: in a patch of at most 256 nodes every node runs, in every block rendered after the patch was taken over. -/
theorem every_node_runs_partial {T : NodeTable N V A} {a0 : A} {run : σ → CallIn N V A → σ × (Nat → Block V)} {st : σ}
    {ops : List (EOp N V A M)} {w w1 w2 w3 : World N V A M σ} {order : List N} {es : List (Conn N)} {copyOld : Bool}
    {o1 o2 : Option (BlockResult N V A)} {nframes : Nat} {r : BlockResult N V A}
    (hw : Ran T a0 run (World.new st) ops w) (hq : w.queue.length < queueCapacity) (hsmall : (created ops).length ≤ 256)
    (hnd : order.Nodup) (hmem : ∀ m ∈ order, m ∈ created ops)
    (hs : w.step T a0 run (.sync order es copyOld) = some (w1, o1)) (hp : w1.step T a0 run .poll = some (w2, o2))
    (hx : w2.step T a0 run (.process nframes) = some (w3, some r)) : ∀ n ∈ order, ∃ c ∈ r.calls, c.node = n := by
  intro n hn
  obtain ⟨a, b, rfl⟩ := List.append_of_mem hn
  rw [runs_iff hw hq hnd hmem hs hp hx]
  intro m hm he
  have hmc := hmem m (by simp [hm])
  have hnc := hmem n (by simp)
  have h1 := List.idxOf_lt_length_iff.2 hmc
  have h2 := List.idxOf_lt_length_iff.2 hnc
  rw [Nat.mod_eq_of_lt (by omega), Nat.mod_eq_of_lt (by omega)] at he
  have := idxOf_inj hmc hnc he
  subst this
  rw [List.nodup_append] at hnd
  exact hnd.2.2 m hm m (by simp) rfl

/-! ### The hypotheses are met -/

def exT : NodeTable Nat Int Nat := ⟨fun _ => 0, fun _ => 0, fun _ => 0, fun _ _ => 0, fun _ _ => 0⟩
def exRun : Unit → CallIn Nat Int Nat → Unit × (Nat → Block Int) := fun _ _ => ((), fun _ _ => 0)

/-- A patch of `n` nodes, uploaded and taken over. -/
def exOps (n : Nat) : List (EOp Nat Int Nat Unit) := (List.range n).map .createNode ++ [.sync (List.range n) [] false, .poll]

/-- How many nodes run in the next block. -/
def exCalls (n : Nat) : Option Nat :=
  ((World.new ()).runOps exT 0 exRun (exOps n)).bind (fun w =>
    (w.step exT 0 exRun (.process 1)).bind (fun r => r.2.map (fun r => r.calls.length)))

set_option maxRecDepth 100000 in
/-- A patch of 257 nodes runs: 256 of them are called. -/
example : exCalls 257 = some 256 := by decide +kernel

/-- A patch of three nodes, created in another order than they run, meets the hypotheses of `every_node_runs_partial` and `runs_iff`. -/
example : ∃ (w w1 w2 w3 : World Nat Int Nat Unit Unit) (r : BlockResult Nat Int Nat),
    Ran exT 0 exRun (World.new ()) [.createNode 7, .createNode 3, .createNode 5] w ∧ w.queue.length < queueCapacity ∧
    (created [.createNode 7, .createNode 3, (.createNode 5 : EOp Nat Int Nat Unit)]).length ≤ 256 ∧
    w.step exT 0 exRun (.sync [3, 5, 7] [] true) = some (w1, none) ∧ w1.step exT 0 exRun .poll = some (w2, none) ∧
    w2.step exT 0 exRun (.process 64) = some (w3, some r) ∧ r.calls.map (fun c => c.node) = [3, 5, 7] := by
  refine ⟨_, _, _, _, _, ran_of_politeRun _ _ _ rfl, by decide, by decide, rfl, rfl, rfl, rfl⟩

end HexoDSP.ManyProps
