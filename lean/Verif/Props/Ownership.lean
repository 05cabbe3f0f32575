import Verif.Lemmas.Owner3
import Verif.Props.NodeConf
/-!
# Ownership of the sample buffers (C51)

The audio thread works on raw pointers; the buffers of a program are freed by the destructor of the
program. Programs are exchanged while the audio runs, and the exchange swaps input buffers between the
old and the new program.
-/

set_option linter.unusedSectionVars false

namespace HexoDSP.OwnershipProps
open HexoDSP.Engine HexoDSP.EngineSpec HexoDSP.NodeConfProps

variable {N V A M σ : Type} [DecidableEq N]
variable [Add V] [Mul V] [Sub V] [Div V] [NatCast V] [OfNat V 0]
variable {T : NodeTable N V A} {a0 : A} {run : σ → CallIn N V A → σ × (Nat → Block V)}
variable {w : World N V A M σ}

theorem account_reached (h : Reached T a0 run w) : Account w := by
  obtain ⟨st, ops, hr⟩ := h
  exact account_ran T a0 run hr confWF_new (account_new st)

/-- **C51** Every buffer ever allocated is at every moment in exactly one place: the running program, a
program waiting in the message queue, a program waiting for the drop thread, or the list of freed
buffers. Nothing is lost (no leak) and nothing is in two places (no sharing, no double free). -/
theorem buffers_accounted (h : Reached T a0 run w) : (buffers w).Perm (List.range w.shared.heap.next) := by
  rw [List.perm_iff_count]
  intro b
  rw [(account_reached h).once b, List.range_eq_range', count_range']
  simp

theorem buffers_nodup (h : Reached T a0 run w) : (buffers w).Nodup :=
  (buffers_accounted h).nodup_iff.2 List.nodup_range

/-- **C51** No buffer is freed twice. -/
theorem never_freed_twice (h : Reached T a0 run w) : w.shared.heap.freed.Nodup :=
  (List.nodup_append.1 (buffers_nodup h)).2.1

/-- **C51** No buffer of the running program has been freed, and none belongs to another program that is
still around. -/
theorem running_buffers_live (h : Reached T a0 run w) (b : BufId) (hb : b ∈ w.exec.prog.owned) :
    b ∉ w.shared.heap.freed ∧ (∀ p ∈ w.shared.drops, b ∉ p.owned) ∧ (∀ m ∈ w.queue, b ∉ m.owned) := by
  have h0 := buffers_nodup h
  have hd := (List.nodup_append.1 h0).2.2
  have h1 := (List.nodup_append.1 h0).1
  have hd1 := (List.nodup_append.1 h1).2.2
  have h2 := (List.nodup_append.1 h1).1
  have hd2 := (List.nodup_append.1 h2).2.2
  refine ⟨fun hf => hd b (by simp [hb]) b hf rfl, fun p hp hbp => ?_, fun m hm hbm => ?_⟩
  · exact hd1 b (by simp [hb]) b (List.mem_flatMap.2 ⟨p, hp, hbp⟩) rfl
  · exact hd2 b hb b (List.mem_flatMap.2 ⟨m, hm, hbm⟩) rfl

/-- **C51** The buffers a program in flight owns are its own too: programs in the queues share no
buffer with each other or with themselves. -/
theorem queued_buffers_live (h : Reached T a0 run w) (m : Msg N V A M) (hm : m ∈ w.queue) (b : BufId)
    (hb : b ∈ m.owned) : b ∉ w.shared.heap.freed ∧ m.owned.Nodup := by
  have h0 := buffers_nodup h
  have hmem : b ∈ w.queue.flatMap Msg.owned := List.mem_flatMap.2 ⟨m, hm, hb⟩
  refine ⟨fun hf => (List.nodup_append.1 h0).2.2 b (by simp only [List.mem_append]; exact Or.inl (Or.inr hmem)) b hf rfl, ?_⟩
  have h1 := (List.nodup_append.1 ((List.nodup_append.1 (List.nodup_append.1 h0).1).1)).2.1
  exact (List.nodup_flatMap.1 h1).1 m hm

/-- **C51** The audio thread neither reads nor writes a buffer that the running program does not own:
the outcome of a block (what the nodes are given, what the monitor gets, the new node states and program)
is the same for every other contents `k` of all other buffers, and these keep their contents. Together
with `running_buffers_live`: no use after free. -/
theorem block_uses_only_running_buffers (h : Reached T a0 run w) (nf : Nat) {w' : World N V A M σ}
    {r : Option (BlockResult N V A)} (hs : w.step T a0 run (.process nf) = some (w', r)) (k : Heap V)
    (hk : ∀ b ∈ w.exec.prog.owned, k.data b = w.shared.heap.data b) :
    (∃ k', World.step T a0 run { w with shared := { w.shared with heap := k } } (.process nf) =
        some ({ w' with shared := { w.shared with heap := k' } }, r) ∧
      ∀ b ∈ w.exec.prog.owned, k'.data b = w'.shared.heap.data b) ∧
    (∀ b, b ∉ w.exec.prog.owned → w'.shared.heap.data b = w.shared.heap.data b) := by
  have hacc := account_reached h
  simp only [World.step] at hs ⊢
  cases hp : w.exec.process run w.shared.heap w.st nf with
  | none => simp [hp] at hs
  | some x =>
    simp only [hp, Option.map_some, Option.some.injEq, Prod.mk.injEq] at hs
    obtain ⟨rfl, rfl⟩ := hs
    have hrel := process_rel run hacc.refs (h := w.shared.heap) (k := k) (fun b hb => (hk b hb).symm) w.st nf
    rw [hp] at hrel
    obtain ⟨y, hy, e1, e2, e3⟩ := hrel.some_left
    refine ⟨⟨y.2.1, ?_, fun b hb => (e2 b hb).symm⟩, ?_⟩
    · rw [hy]
      obtain ⟨x1, x2, x3, x4⟩ := x
      obtain ⟨y1, y2, y3, y4⟩ := y
      simp only [Prod.mk.injEq] at e1 e3
      obtain ⟨rfl, rfl⟩ := e3
      subst e1
      rfl
    · exact (process_touches run (e' := x.1) (h' := x.2.1) (st' := x.2.2.1) (r := x.2.2.2) hp).1.data

/-- **C51** When both queues are empty, everything that is not part of the running program has been
freed: nothing leaks. -/
theorem idle_frees_everything_else (h : Reached T a0 run w) (hq : w.queue = []) (hd : w.shared.drops = [])
    (b : Nat) (hb : b < w.shared.heap.next) (hn : b ∉ w.exec.prog.owned) : b ∈ w.shared.heap.freed := by
  have := (buffers_accounted h).mem_iff.2 (List.mem_range.2 hb)
  simpa [buffers, hq, hd, hn] using this

/-! ## A concrete history -/

/-- Two programs, the second exchanged for the first while it runs, the first one dropped. -/
def exOps2 : List (EOp Nat Int Nat Unit) :=
  exOps ++ [.sync [0, 1, 2] [⟨1, 0, 0, 0⟩, ⟨2, 1, 1, 0⟩] true, .poll, .process 4, .createNode 3,
    .sync [0, 1, 2, 3] [⟨1, 0, 0, 0⟩, ⟨3, 1, 1, 0⟩] true, .poll, .process 3]

def exW2 : World Nat Int Nat Unit Unit := (politeRun exT 0 exRun (World.new ()) exOps2).get (by decide +kernel)

example : Reached exT 0 exRun exW2 ∧ exW2.shared.heap.next = 12 + 16 ∧ exW2.shared.drops.length = 2 ∧
    exW2.exec.prog.owned.length = 16 ∧ 2 ∈ exW2.exec.prog.owned ∧
    (exW2.step exT 0 exRun (.process 5)).isSome = true :=
  ⟨⟨(), exOps2, ran_of_politeRun _ _ _ (Option.some_get _).symm⟩, by decide +kernel, by decide +kernel, by decide +kernel,
    by decide +kernel, by decide +kernel⟩

end HexoDSP.OwnershipProps
