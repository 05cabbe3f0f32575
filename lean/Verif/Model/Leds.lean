import Verif.Model.Engine
/-!
# The lights of the nodes

Every node has two numbers for the user interface, its LED and its phase. They lie in 512 atomic floats that the two threads share
(`src/nodes/node_conf.rs:22`, `285-291`). Here they are added to the engine of `Verif/Model/Engine.lean`. A node does not read them, so that a
step of the engine writes them at the end of a block; what a reader sees in the middle of a block is `LWorld.during`.
-/

namespace HexoDSP.Engine

variable {N V A M σ : Type} [DecidableEq N]

/-- What a node has written into `ctx_vals[0]` and `ctx_vals[1]` in a block (`src/dsp/mod.rs:255`), if anything. -/
structure Lights (V : Type) where
  led : Option V
  phase : Option V
  deriving DecidableEq, Repr

/-- The nodes, with a list of what they write. -/
def logged (run : σ → CallIn N V A → σ × (Nat → Block V) × Lights V) :
    σ × List (Lights V) → CallIn N V A → (σ × List (Lights V)) × (Nat → Block V) :=
  fun s c => (((run s.1 c).1, s.2 ++ [(run s.1 c).2.2]), (run s.1 c).2.1)

/-- The engine and `node_ctx_values` (`src/nodes/node_conf.rs:255`, `src/nodes/node_exec.rs:75`). -/
structure LWorld (N V A M σ : Type) where
  world : World N V A M (σ × List (Lights V))
  ctx : List V

/-- `src/nodes/node_conf.rs:285-291`. -/
def LWorld.new [OfNat V 0] (st : σ) : LWorld N V A M σ := { world := World.new (st, []), ctx := List.replicate 512 0 }

/-- Write into a slot. -/
def setSlot (ctx : List V) (i : Nat) : Option V → List V
  | none => ctx
  | some v => ctx.set i v

/-- `src/nodes/node_exec.rs:459`, `476`: node `op` gets the slots `ctx_idx` and `ctx_idx + 1`. -/
def lightUp (ctx : List V) (x : NodeOp N × Lights V) : Option (List V) :=
  let i := x.1.idx * 2
  if i + 2 ≤ ctx.length then some (setSlot (setSlot ctx i x.2.led) (i + 1) x.2.phase) else none

section
variable [Add V] [Mul V] [Sub V] [Div V] [NatCast V] [OfNat V 0]

/-- One call: only a block (`src/nodes/node_exec.rs:446-478`) writes. -/
def LWorld.step (T : NodeTable N V A) (a0 : A) (run : σ → CallIn N V A → σ × (Nat → Block V) × Lights V)
    (w : LWorld N V A M σ) : EOp N V A M → Option (LWorld N V A M σ × Option (BlockResult N V A))
  | .process nf =>
    (({ w.world with st := (w.world.st.1, []) } : World N V A M (σ × List (Lights V))).step T a0 (logged run) (.process nf)).bind (fun r =>
      ((w.world.exec.prog.prog.zip r.1.st.2).foldlM lightUp w.ctx).map (fun ctx => ({ world := r.1, ctx := ctx }, r.2)))
  | op => (w.world.step T a0 (logged run) op).map (fun r => ({ w with world := r.1 }, r.2))

/-- What the other thread can read while a block runs: `k` nodes have written their lights (`src/nodes/node_exec.rs:456-478`). -/
def LWorld.during (T : NodeTable N V A) (a0 : A) (run : σ → CallIn N V A → σ × (Nat → Block V) × Lights V)
    (w : LWorld N V A M σ) (nf k : Nat) : Option (LWorld N V A M σ) :=
  (({ w.world with st := (w.world.st.1, []) } : World N V A M (σ × List (Lights V))).step T a0 (logged run) (.process nf)).bind (fun r =>
    (((w.world.exec.prog.prog.zip r.1.st.2).take k).foldlM lightUp w.ctx).map (fun ctx => { w with ctx := ctx }))

end

/-- `src/nodes/node_conf.rs:592-598` `led_value_for`; `none` is a panic. -/
def LWorld.ledValueFor [OfNat V 0] (w : LWorld N V A M σ) (n : N) : Option V :=
  match w.world.conf.uniqueIndexFor n with
  | none => some 0
  | some i => w.ctx[i * 2]?

/-- `src/nodes/node_conf.rs:579-585` `phase_value_for`; `none` is a panic. -/
def LWorld.phaseValueFor [OfNat V 0] (w : LWorld N V A M σ) (n : N) : Option V :=
  match w.world.conf.uniqueIndexFor n with
  | none => some 0
  | some i => w.ctx[i * 2 + 1]?

end HexoDSP.Engine
