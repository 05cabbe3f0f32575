import Verif.Model.Engine
import Verif.Spec.GraphOrdering
/-!
# Vocabulary for the properties of the node engine
-/

namespace HexoDSP.EngineSpec
open HexoDSP.Engine

/-- Index `g` lies in the half open region `r`. -/
def Within (r : Nat × Nat) (g : Nat) : Prop := r.1 ≤ g ∧ g < r.2

instance (r : Nat × Nat) (g : Nat) : Decidable (Within r g) := inferInstanceAs (Decidable (_ ∧ _))

/-- Every node has at most one region; the regions of different nodes are disjoint and together they
cover exactly `0 .. total`. -/
def Tiles {N : Type} (region : N → Option (Nat × Nat)) (total : Nat) : Prop :=
  (∀ g, g < total ↔ ∃ n r, region n = some r ∧ Within r g) ∧
  (∀ g n m r s, region n = some r → region m = some s → Within r g → Within s g → n = m)

/-- The calls are executions of the nodes, one after the other: each node gets the state its predecessor
left, and what it computes is what ends up in its output buffers. -/
def Runs {N V A σ : Type} (run : σ → CallIn N V A → σ × (Nat → Block V)) (st : σ) :
    List (Call N V A) → σ → Prop
  | [], st' => st' = st
  | c :: cs, st' =>
    c.outputs = (List.range c.oldOut.length).map (run st c.toCallIn).2 ∧
    Runs run (run st c.toCallIn).1 cs st'

/-! ## Histories -/

section
variable {N V A M σ : Type} [DecidableEq N]

/-- Node `n` has been created in the configurator. -/
def Allocated (c : Conf N V A) (n : N) : Prop := (c.uniqueIndexFor n).isSome

instance (c : Conf N V A) (n : N) : Decidable (Allocated c n) := inferInstanceAs (Decidable (_ = true))

/-- The one rule for callers of the engine: a node is not created twice. (`Matrix` checks this,
`src/matrix.rs:1275`, `1281`.) -/
def Polite (w : World N V A M σ) : EOp N V A M → Prop
  | .createNode n => ¬ Allocated w.conf n
  | _ => True

/-- What the matrix guarantees when it rebuilds the program: at most 256 nodes exist, every node of the
order exists and occurs once, and the source of every connection comes before its destination. -/
structure Legal (c : Conf N V A) (order : List N) (es : List (Conn N)) : Prop where
  small : c.nodes.length ≤ 256
  nodup : order.Nodup
  alloc : ∀ n ∈ order, Allocated c n
  before : ∀ e ∈ es, GraphOrdering.Before order e.src e.dst

variable [Add V] [Mul V] [Sub V] [Div V] [NatCast V] [OfNat V 0]

/-- World `w'` is reached from `w` by the calls `ops`, none of which panics. In between, what is outside the engine (the sound card, the keyboard, the
threads that edit patterns, samples and code) may change the state the nodes work on, at any time and in any way. -/
inductive Ran (T : NodeTable N V A) (a0 : A) (run : σ → CallIn N V A → σ × (Nat → Block V)) :
    World N V A M σ → List (EOp N V A M) → World N V A M σ → Prop
  | nil (w : World N V A M σ) : Ran T a0 run w [] w
  | cons {w w1 w2 : World N V A M σ} {op : EOp N V A M} {out : Option (BlockResult N V A)}
      {ops : List (EOp N V A M)} :
      Polite w op → w.step T a0 run op = some (w1, out) → Ran T a0 run w1 ops w2 →
      Ran T a0 run w (op :: ops) w2
  | outside {w w1 : World N V A M σ} {ops : List (EOp N V A M)} (st : σ) : Ran T a0 run { w with st := st } ops w1 → Ran T a0 run w ops w1

/-- The world is reached from a fresh engine by some history of calls. -/
def Reached (T : NodeTable N V A) (a0 : A) (run : σ → CallIn N V A → σ × (Nat → Block V))
    (w : World N V A M σ) : Prop := ∃ st ops, Ran T a0 run (World.new st) ops w

/-- All sample buffers somebody is responsible for: those of the running program, those of programs on
their way to the audio thread, those of programs on their way to the drop thread, and those that were
given back. -/
def buffers (w : World N V A M σ) : List BufId :=
  w.exec.prog.owned ++ w.queue.flatMap Msg.owned ++ w.shared.drops.flatMap NodeProg.owned ++
    w.shared.heap.freed

end

end HexoDSP.EngineSpec
