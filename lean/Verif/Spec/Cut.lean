import Verif.Spec.Timed
/-!
# The sound of a patch, frame by frame

What a patch sounds like when time is not cut into blocks: all nodes are run once for every frame, on
what their sources give in that frame. Nothing here mentions blocks, buffers or programs.
-/

namespace HexoDSP.EngineSpec
open HexoDSP.Engine

/-- What a node is given in one frame. -/
structure FrameIn (V A : Type) where
  inConnected : Nat
  outConnected : Nat
  atoms : List A
  params : List V
  inputs : List V

/-- Nodes that work frame by frame: a state each, and what a frame does to it and gives at the outputs. -/
abbrev FrameNodes (N V A S : Type) := N → S → FrameIn V A → S × (Nat → V)

variable {N V A M S : Type} [DecidableEq N]

/-- The frame `f` of what a node is given for a block. -/
def frameOf (c : CallIn N V A) (f : Nat) : FrameIn V A :=
  ⟨c.inConnected, c.outConnected, c.atoms, c.params.map (fun b => b f), c.inputs.map (fun b => b f)⟩

/-- The state of a node in a block before frame `f`. -/
def frameState (K : FrameNodes N V A S) (c : CallIn N V A) (s : S) : Nat → S
  | 0 => s
  | f + 1 => (K c.node (frameState K c s f) (frameOf c f)).1

/-- Such nodes run for a block: frame after frame; what the output buffers hold beyond the block stays. -/
def frameRun [OfNat V 0] (K : FrameNodes N V A S) (st : N → S) (c : CallIn N V A) : (N → S) × (Nat → Block V) :=
  (fun m => if m = c.node then frameState K c (st m) c.nframes else st m,
   fun k f => if f < c.nframes then (K c.node (frameState K c (st c.node) f) (frameOf c f)).2 k
              else c.oldOut.getD k (fun _ => 0) f)

/-- What node `n` is given in a frame in which the parameters are `par` and the outputs of the nodes are
`out`: the data flow of the connections. -/
structure FrameOK [Add V] [Mul V] (T : NodeTable N V A) (pl : Playing N V A) (par out : N → Nat → V) (n : N)
    (fi : FrameIn V A) : Prop where
  params : fi.params = (List.range (T.inCount n)).map (par n)
  atoms : fi.atoms = (List.range (T.atCount n)).map (pl.atom n)
  nInputs : fi.inputs.length = T.inCount n
  unfed : ∀ k, k < T.inCount n → Unfed T pl.wires n k → fi.inputs[k]? = some (par n k)
  direct : ∀ k e, Feeds T pl.wires n k e → pl.amt n k = none → fi.inputs[k]? = some (out e.src e.srcOut)
  modulated : ∀ k e a, Feeds T pl.wires n k e → pl.amt n k = some a →
    fi.inputs[k]? = some (par n k + a * out e.src e.srcOut)
  inFlags : ∀ k, fi.inConnected.testBit k = true ↔ ∃ e ∈ pl.wires, Plugged T e ∧ e.dst = n ∧ e.dstIn = k
  outFlags : ∀ k, fi.outConnected.testBit k = true ↔ ∃ e ∈ pl.wires, Plugged T e ∧ e.src = n ∧ e.srcOut = k

/-- `X n k t` is what output `k` of node `n` gives in frame `t`, and `Z n t` the state of the node before that
frame, for `len` frames: the patch `pl` played frame by frame, from the states `st`, with the parameters
`par n i t`. -/
structure Sounds [Add V] [Mul V] (T : NodeTable N V A) (pl : Playing N V A) (K : FrameNodes N V A S)
    (par : N → Nat → Nat → V) (len : Nat) (st : N → S) (Z : N → Nat → S) (X : N → Nat → Nat → V) : Prop where
  start : ∀ n ∈ pl.order, Z n 0 = st n
  frame : ∀ n ∈ pl.order, ∀ t, t < len → ∃ fi : FrameIn V A,
    FrameOK T pl (fun m i => par m i t) (fun m k => X m k t) n fi ∧
    Z n (t + 1) = (K n (Z n t) fi).1 ∧ ∀ k, k < T.outCount n → X n k t = (K n (Z n t) fi).2 k

variable [Add V] [Mul V] [Sub V] [Div V] [NatCast V] [OfNat V 0]

/-- A world plays some blocks of the given lengths, one after the other, with nothing in between. -/
inductive Cut {σ : Type} (T : NodeTable N V A) (a0 : A) (run : σ → CallIn N V A → σ × (Nat → Block V)) :
    World N V A M σ → List (Nat × BlockResult N V A) → World N V A M σ → Prop
  | nil (w : World N V A M σ) : Cut T a0 run w [] w
  | cons {w w1 w2 : World N V A M σ} {nf : Nat} {r : BlockResult N V A} {rs : List (Nat × BlockResult N V A)} :
      w.step T a0 run (.process nf) = some (w1, some r) → Cut T a0 run w1 rs w2 → Cut T a0 run w ((nf, r) :: rs) w2

/-- The number of frames of the blocks. -/
def total : List (Nat × BlockResult N V A) → Nat
  | [] => 0
  | b :: bs => b.1 + total bs

/-- What is heard at output `k` of node `n` in frame `f`, counted from the first frame of the first block. -/
def heard (n : N) (k : Nat) : List (Nat × BlockResult N V A) → Nat → Option V
  | [], _ => none
  | b :: bs, f =>
    if f < b.1 then
      ((b.2.calls.find? (fun c => decide (c.node = n))).bind (fun c => c.outputs[k]?)).map (fun blk => blk f)
    else heard n k bs (f - b.1)

end HexoDSP.EngineSpec
