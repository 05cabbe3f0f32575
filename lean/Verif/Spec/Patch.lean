import Verif.Model.Patch
import Verif.Spec.Matrix
import Verif.Spec.Playing
/-!
# Vocabulary for patches and for what the matrix plays (C18, C76, C77, C78)
-/

namespace HexoDSP.Patch
open HexoDSP.Matrix (Matrix Cell Edge MatrixError positions)
open HexoDSP.Engine (NodeId World EOp Conf Conn NodeTable CallIn Block Value)
open HexoDSP.EngineSpec

variable {K V A M σ P PR B BR : Type} [DecidableEq K]

/-- Instances and ports are `u8` numbers. -/
structure CellOk (c : Cell (NodeId K)) : Prop where
  inst : ∀ n, c.nodeId = some n → n.inst < 256
  ports : ∀ p ∈ [c.out1, c.out2, c.out3, c.in1, c.in2, c.in3], ∀ i, p = some i → i < 256

/-- The arguments of the call fit the types of the code. -/
def FOp.Typed : FOp K V A P PR B BR → Prop
  | .place _ _ c => CellOk c
  | .placeCell c => CellOk c
  | .placeMultiple cs => ∀ c ∈ cs, CellOk c
  | .fromRepr r => ∀ c ∈ r.cells, ∀ n, c.nodeId = some n → n.inst < 256
  | _ => True

/-- Iterating over a `HashMap` visits its entries in some order. -/
structure EnvOk (E : Env K V A P PR B BR) : Prop where
  shP : ∀ l, (E.shP l).Perm l
  shA : ∀ l, (E.shA l).Perm l
  shS : ∀ l, (E.shS l).Perm l

/-- There is room in the message queue, and there are no more nodes than the engine has room for. -/
def Room (s : FM K V A M σ P B) : Prop := s.world.queue.length < Engine.queueCapacity ∧ s.world.conf.nodes.length ≤ 256

/-- The node ids that sit in cells. -/
def OnGrid {N : Type} [DecidableEq N] (m : Matrix N) (n : N) : Prop := ∃ x y c, m.get x y = some c ∧ c.nodeId = some n

/-- The grid asks for at most 256 nodes: an instance in a cell asks for itself and for all instances of its node type with lower numbers. -/
def FewNodes (m : Matrix (NodeId K)) : Prop :=
  ∀ l : List (NodeId K), l.Nodup → (∀ n ∈ l, ∃ n', OnGrid m n' ∧ n.kind = n'.kind ∧ n.inst ≤ n'.inst) → l.length ≤ 256

section
variable [Add V] [Mul V] [Sub V] [Div V] [NatCast V] [OfNat V 0]
variable (T : NodeTable (NodeId K) V A) (a0 : A) (run : σ → CallIn (NodeId K) V A → σ × (Nat → Block V)) (E : Env K V A P PR B BR)

/-- Something outside the engine (the sound card, the keyboard, the threads that edit patterns, samples and code) has changed the state the nodes work on. -/
def FM.outside (s : FM K V A M σ P B) (st : σ) : FM K V A M σ P B := { s with world := { s.world with st := st } }

/-- States reached from a new matrix by calls that do not panic, and by what happens outside the engine; after each of them `Q` holds. -/
inductive Reach (Q : FM K V A M σ P B → Prop) : FM K V A M σ P B → Prop
  | new (w h : Nat) (st : σ) : Reach Q (FM.new w h st)
  | step {s s' : FM K V A M σ P B} {op : FOp K V A P PR B BR} {err : Option (MatrixError (NodeId K))} :
      Reach Q s → op.Typed → s.step T a0 run E op = some (s', err) → Q s' → Reach Q s'
  | outside {s : FM K V A M σ P B} (st : σ) : Reach Q s → Q (s.outside st) → Reach Q (s.outside st)

/-- Calls that make no new program: everything but `clear`, `from_repr`, a `sync` that succeeds, and a modulation amount that appears or disappears. -/
def FOp.Keeps (s : FM K V A M σ P B) (err : Option (MatrixError (NodeId K))) : FOp K V A P PR B BR → Prop
  | .clear => False
  | .fromRepr _ => False
  | .sync => err ≠ none
  | .setModamt (.input n i) v => (s.world.conf.getModamt (.input n i)).isSome ∧ v.isSome
  | _ => True

/-- Calls after which the grid of `s0` still plays. -/
inductive Since (Q : FM K V A M σ P B → Prop) (s0 : FM K V A M σ P B) : FM K V A M σ P B → Prop
  | refl : Since Q s0 s0
  | step {s s' : FM K V A M σ P B} {op : FOp K V A P PR B BR} {err : Option (MatrixError (NodeId K))} :
      Since Q s0 s → op.Typed → s.step T a0 run E op = some (s', err) → op.Keeps s err → Q s' → Since Q s0 s'
  | outside {s : FM K V A M σ P B} (st : σ) : Since Q s0 s → Q (s.outside st) → Since Q s0 (s.outside st)

/-- Calls that make a new program if they succeed. -/
def FOp.Uploads (s : FM K V A M σ P B) : FOp K V A P PR B BR → Prop
  | .sync => True
  | .clear => True
  | .fromRepr _ => True
  | .setModamt (.input n i) v => ¬ ((s.world.conf.getModamt (.input n i)).isSome ∧ v.isSome)
  | _ => False

end

/-- One block of audio computes the grid `m` with the values of `c`. -/
structure GridFlow [Add V] [Mul V] (T : NodeTable (NodeId K) V A) (m : Matrix (NodeId K)) (c : Conf (NodeId K) V A) (nf : Nat)
    (cs : List (Engine.Call (NodeId K) V A)) : Prop where
  /-- every node on the grid runs once -/
  once : (cs.map (·.node)).Nodup
  nodes : ∀ n, n ∈ cs.map (·.node) ↔ OnGrid m n
  /-- after the nodes that lead to it -/
  before : ∀ a b, m.Leads a b → GraphOrdering.Before (cs.map (·.node)) a b
  /-- a wire: the input is what the source has put out in this block, or the parameter plus amount times that -/
  wire : ∀ p d e, m.Wire p d e → e.dstInput < T.inCount e.dst → e.srcOut < T.outCount e.src →
    (∀ p' d' e', m.Wire p' d' e' → e'.dst = e.dst → e'.dstInput = e.dstInput → (p', d') = (p, d)) →
    ∃ k ∈ cs, k.node = e.dst ∧ ∃ s ∈ cs, s.node = e.src ∧ ∃ x y par, s.outputs[e.srcOut]? = some y ∧ k.inputs[e.dstInput]? = some x ∧
      k.params[e.dstInput]? = some par ∧
      match c.getModamt (.input e.dst e.dstInput) with
      | none => x = y
      | some a => ∀ f, f < nf → x f = par f + a * y f
  /-- an input without a wire is the parameter -/
  free : ∀ k ∈ cs, ∀ i, i < T.inCount k.node →
    (∀ p d e, m.Wire p d e → e.srcOut < T.outCount e.src → ¬ (e.dst = k.node ∧ e.dstInput = i)) → k.inputs[i]? = k.params[i]?
  /-- the atoms are those set last, or the defaults -/
  atoms : ∀ k ∈ cs, ∀ i, i < T.atCount k.node → k.atoms[i]? = some (atomIn T c k.node i)

/-- Pattern `i` is one of the first 128, or all from 128 up to it were asked for at some time. -/
def SavedPat (s : FM K V A M σ P B) (i : Nat) : Prop := ∀ j, 128 ≤ j → j ≤ i → (s.pats.lookup j).isSome

/-- Block function `i` is one of the first 32, or all from 32 up to it were asked for at some time. -/
def SavedFun (s : FM K V A M σ P B) (i : Nat) : Prop := ∀ j, 32 ≤ j → j ≤ i → j ∈ s.engines

/-- What `d` has of the patch `s` after loading it; `old` is the state before. -/
structure SamePatch (T : NodeTable (NodeId K) V A) (E : Env K V A P PR B BR) (s old d : FM K V A M σ P B) : Prop where
  /-- the same cells with nodes -/
  cells : ∀ x y c, c.nodeId ≠ none → (d.grid.get x y = some c ↔ s.grid.get x y = some c)
  /-- the same values of inputs, up to the conversion to the user's unit and back -/
  param : ∀ n i v, s.world.conf.getParam (.input n i) = some (.num v) →
    d.world.conf.getParam (.input n i) = some (.num (E.norm n i (E.denorm n i v)))
  paramUnset : ∀ n i, s.world.conf.getParam (.input n i) = none →
    d.world.conf.getParam (.input n i) = none ∨ d.world.conf.getParam (.input n i) = some (.num (T.normDef n i))
  /-- the same atoms -/
  atom : ∀ n i v, s.world.conf.getParam (.atom n i) = some v → d.world.conf.getParam (.atom n i) = some v
  atomUnset : ∀ n i, s.world.conf.getParam (.atom n i) = none →
    d.world.conf.getParam (.atom n i) = none ∨ d.world.conf.getParam (.atom n i) = some (.atom (T.atomDef n i))
  /-- the same modulation amounts of the inputs that have a value -/
  amount : ∀ n i, s.world.conf.getParam (.input n i) ≠ none → d.world.conf.getModamt (.input n i) = s.world.conf.getModamt (.input n i)
  amountUnset : ∀ n i, s.world.conf.getParam (.input n i) = none → d.world.conf.getModamt (.input n i) = none
  /-- the same properties -/
  props : ∀ k, d.getProp k = s.getProp k
  /-- the patterns that are set; the others stay as they were -/
  pats : ∀ i, SavedPat s i → E.patUnset (s.patOf E i) = false → E.patLoad (old.patOf E i) (E.patRepr (s.patOf E i)) = some (d.patOf E i)
  patsUnset : ∀ i, ¬ (SavedPat s i ∧ E.patUnset (s.patOf E i) = false) → d.patOf E i = old.patOf E i
  /-- the block functions that are set; the others stay as they were -/
  funs : ∀ i, SavedFun s i → E.funUnset (s.funOf E i) = false → E.funLoad (old.funOf E i) (E.funSave (s.funOf E i)) = some (d.funOf E i)
  funsUnset : ∀ i, ¬ (SavedFun s i ∧ E.funUnset (s.funOf E i) = false) → d.funOf E i = old.funOf E i

end HexoDSP.Patch
