import Verif.Model.SynthConstructor
import Verif.Spec.Playing
import Mathlib.Logic.Relation
/-!
# Vocabulary for constructed networks (C37, C74, C75)

What the user has built is a number of nodes, each with a list of operations. A call of `upload` or `update_params` reads a node, then the nodes it reads
from, and so on; the nodes read since the last `clear` are what the constructor knows.
-/

namespace HexoDSP.Synth
open HexoDSP.Table
open HexoDSP.EngineSpec

variable {V A M σ : Type}

/-! ## What the builders make -/

/-- The builders of a node offer the names of its inputs, settings and outputs and no others. -/
def OpOk (id : NodeId) : COp V → Prop
  | .set name _ => (id.inp name).isSome
  | .setMod name _ _ => (id.inp name).isSome
  | .setting name _ => ∃ pid, id.inpParam name = some pid ∧ pid.isAtom = true
  | .input p src out => (id.inp p).isSome ∧ (src.1.out out).isSome

/-- The lists of operations are made by builders; list `r` belongs to a node `own r`. -/
structure Typed (own : Nat → NodeId) (st : Store V) : Prop where
  node : ∀ r, own r ≠ .nop
  ops : ∀ r, ∀ op ∈ st r, OpOk (own r) op
  src : ∀ r p src out, COp.input p src out ∈ st r → src.1 = own src.2

/-! ## What is read by a call -/

/-- The nodes a list of operations reads from. -/
def sources : List (COp V) → List (NodeId × Nat)
  | [] => []
  | .input _ src _ :: ops => src :: sources ops
  | _ :: ops => sources ops

/-- A node that was read, with its operations at that time. `only`: read by `update_params`. -/
structure Visit (V : Type) where
  node : NodeId
  ops : List (COp V)
  only : Bool

/-- The nodes read by a call, in order: the node itself, then what its sources read. `none`: the sources are nested deeper than the call stack. -/
def visits (st : Store V) (only : Bool) : Nat → NodeId × Nat → Option (List (Visit V))
  | 0, _ => none
  | fuel + 1, n => ((sources (st n.2)).mapM (visits st only fuel)).map (fun l => ⟨n.1, st n.2, only⟩ :: l.flatten)

/-- The list `m.2` is read by a call that reads the list `n.2`. -/
def ReadsFrom (st : Store V) (n m : NodeId × Nat) : Prop := m ∈ sources (st n.2)

/-! ## What is known -/

/-- The last value `f` gives for an element of the list. -/
def lastOf {α β : Type} (f : α → Option β) (l : List α) : Option β := l.foldl (fun b a => (f a).or b) none

/-- The operation connects input `p`. -/
def COp.wire (p : String) : COp V → Option (NodeId × String)
  | .input q src out => if q = p then some (src.1, out) else none
  | _ => none

/-- The operation sets parameter `p` of node `n`: the (normalised) value and modulation amount. -/
def COp.value (E : Env V A) (n : NodeId) (p : String) : COp V → Option (A × Option V)
  | .set q v => if q = p then (n.inpParam p).map (fun pid => (E.param (E.norm pid v), none)) else none
  | .setMod q v ma => if q = p then (n.inpParam p).map (fun pid => (E.param (E.norm pid v), some ma)) else none
  | .setting q i => if q = p then some (E.setting i, none) else none
  | .input _ _ _ => none

/-- The nodes known. -/
def known (seen : List (Visit V)) : List NodeId := seen.map (·.node)

/-- Where input `p` of node `n` is connected to: the last connection made to it; `update_params` makes none. -/
def wireOf (seen : List (Visit V)) (n : NodeId) (p : String) : Option (NodeId × String) :=
  lastOf (COp.wire p) ((seen.filter (fun v => decide (v.node = n) && !v.only)).flatMap (·.ops))

/-- What parameter `p` of node `n` was set to last. -/
def valueOf (E : Env V A) (seen : List (Visit V)) (n : NodeId) (p : String) : Option (A × Option V) :=
  lastOf (COp.value E n p) ((seen.filter (fun v => decide (v.node = n))).flatMap (·.ops))

/-- Node `n` reads from node `m`. -/
def Reads (seen : List (Visit V)) (n m : NodeId) : Prop := ∃ p out, wireOf seen n p = some (m, out)

/-- The known nodes form a cycle. -/
def Cyclic (seen : List (Visit V)) : Prop := ∃ n, Relation.TransGen (Reads seen) n n

/-- The connection `e` is known. -/
def Wired (seen : List (Visit V)) (e : Engine.Conn NodeId) : Prop :=
  ∃ p out, wireOf seen e.dst p = some (e.src, out) ∧ e.dst.inp p = some e.dstIn ∧ e.src.out out = some e.srcOut

/-- Iterating over a `HashMap` visits its entries in some order, and reading back what was stored as a parameter gives the value. -/
structure EnvOk (E : Env V A) : Prop where
  shN : ∀ l, (E.shN l).Perm l
  shE : ∀ l, (E.shE l).Perm l
  shP : ∀ l, (E.shP l).Perm l
  f : ∀ v, E.f (E.param v) = v

/-! ## Histories -/

section
variable [Add V] [Mul V] [Sub V] [Div V] [NatCast V] [OfNat V 0] [DecidableEq V] [DecidableEq A]
variable (T : Engine.NodeTable NodeId V A) (a0 : A) (run : σ → Engine.CallIn NodeId V A → σ × (Nat → Engine.Block V)) (E : Env V A)

/-- Something outside the engine has changed the state the nodes work on. -/
def SC.outside (s : SC V A M σ) (st : σ) : SC V A M σ := { s with world := { s.world with st := st } }

/-- Histories of calls with networks made by the builders; `seen` is what was read since the last `clear`, and `P` holds after every call. If
`update_params` finds that a new program is needed then it uploads the network. -/
inductive Hist (fuel : Nat) (P : SC V A M σ → Prop) : SC V A M σ → List (Visit V) → Prop
  | new (st : σ) : Hist fuel P (SC.new st) []
  | upload {s s' : SC V A M σ} {seen : List (Visit V)} {st : Store V} {own : Nat → NodeId} {r : Nat} {res : Except SynthError Unit} :
      Hist fuel P s seen → Typed own st → s.upload T a0 run E fuel st (own r, r) = some (s', res) → P s' →
      Hist fuel P s' (seen ++ (visits st false fuel (own r, r)).getD [])
  | updated {s s' : SC V A M σ} {seen : List (Visit V)} {st : Store V} {own : Nat → NodeId} {r : Nat} :
      Hist fuel P s seen → Typed own st → s.updateParams T a0 run E fuel st (own r, r) = some (s', .ok false) → P s' →
      Hist fuel P s' (seen ++ (visits st true fuel (own r, r)).getD [])
  | uploaded {s s' : SC V A M σ} {seen : List (Visit V)} {st : Store V} {own : Nat → NodeId} {r : Nat} {res : Except SynthError Bool} :
      Hist fuel P s seen → Typed own st → s.updateParams T a0 run E fuel st (own r, r) = some (s', res) → (∀ b, res = .ok b → b = true) → P s' →
      Hist fuel P s' (seen ++ (visits st true fuel (own r, r)).getD [] ++ (visits st false fuel (own r, r)).getD [])
  | clear {s s' : SC V A M σ} {seen : List (Visit V)} : Hist fuel P s seen → s.clear T a0 run = some s' → P s' → Hist fuel P s' []
  | audio {s s' : SC V A M σ} {seen : List (Visit V)} {op : SOp V} : Hist fuel P s seen →
      (op = .poll ∨ (∃ n, op = .process n) ∨ op = .dropOne) → s.step T a0 run E fuel op = some s' → P s' → Hist fuel P s' seen
  | outside {s : SC V A M σ} {seen : List (Visit V)} (st : σ) : Hist fuel P s seen → P (s.outside st) → Hist fuel P (s.outside st) seen

/-- There is room in the message queue, and there are no more nodes than the engine has room for. -/
def Room (s : SC V A M σ) : Prop := s.world.queue.length < Engine.queueCapacity ∧ s.world.conf.nodes.length ≤ 256

/-- Calls after which the uploaded network still plays: `update_params` that needs no new program, and what the other threads do. `more` is what was
read by them. -/
inductive Since (fuel : Nat) (P : SC V A M σ → Prop) (s0 : SC V A M σ) : SC V A M σ → List (Visit V) → Prop
  | refl : Since fuel P s0 s0 []
  | updated {s s' : SC V A M σ} {more : List (Visit V)} {st : Store V} {own : Nat → NodeId} {r : Nat} :
      Since fuel P s0 s more → Typed own st → s.updateParams T a0 run E fuel st (own r, r) = some (s', .ok false) → P s' →
      Since fuel P s0 s' (more ++ (visits st true fuel (own r, r)).getD [])
  | audio {s s' : SC V A M σ} {more : List (Visit V)} {op : SOp V} : Since fuel P s0 s more →
      (op = .poll ∨ (∃ n, op = .process n) ∨ op = .dropOne) → s.step T a0 run E fuel op = some s' → P s' → Since fuel P s0 s' more
  | outside {s : SC V A M σ} {more : List (Visit V)} (st : σ) : Since fuel P s0 s more → P (s.outside st) → Since fuel P s0 (s.outside st) more

end

/-- The network `net` plays with the values of `seen`. -/
structure Playback (T : Engine.NodeTable NodeId V A) (E : Env V A) (net seen : List (Visit V)) (pl : Playing NodeId V A) : Prop where
  /-- every known node once -/
  nodup : pl.order.Nodup
  nodes : ∀ n, n ∈ pl.order ↔ n ∈ known net
  /-- sources first -/
  before : ∀ n m, Reads net n m → GraphOrdering.Before pl.order m n
  /-- the known connections, one per input -/
  wires : ∀ e, e ∈ pl.wires ↔ Wired net e
  once : (pl.wires.map (fun e => (e.dst, e.dstIn))).Nodup
  /-- the values set last, or the defaults -/
  param : ∀ n p i, n.inp p = some i → pl.param n i = ((valueOf E seen n p).map (fun x => E.f x.1)).getD (T.normDef n i)
  setting : ∀ n p pid i, n.inpParam p = some pid → engineParam pid = .atom n i →
    pl.atom n i = ((valueOf E seen n p).map (·.1)).getD (T.atomDef n i)
  /-- the modulation amounts set last -/
  amount : ∀ n p i, n.inp p = some i → pl.amt n i = (valueOf E seen n p).bind (·.2)

/-- The engine knows the numbers of inputs and outputs of the nodes (`rebuild_node_ports` asks `NodeInfo`). -/
structure TableOk (T : Engine.NodeTable NodeId V A) : Prop where
  inCount : ∀ n, T.inCount n = (NodeInfo.fromNodeId n).inCount
  outCount : ∀ n, T.outCount n = (NodeInfo.fromNodeId n).outCount
  atCount : ∀ n, T.atCount n = (NodeInfo.fromNodeId n).atCount

/-- One block of audio computes the network `net` with the values of `seen`. -/
structure NetFlow [Add V] [Mul V] (T : Engine.NodeTable NodeId V A) (E : Env V A) (net seen : List (Visit V)) (nf : Nat) (cs : List (Engine.Call NodeId V A)) : Prop where
  /-- every known node runs once -/
  once : (cs.map (·.node)).Nodup
  nodes : ∀ n, n ∈ cs.map (·.node) ↔ n ∈ known net
  /-- after the nodes it reads from -/
  before : ∀ n m, Reads net n m → GraphOrdering.Before (cs.map (·.node)) m n
  /-- a connected input without a modulation amount is what the source has put out in this block -/
  direct : ∀ c ∈ cs, ∀ p i m out, c.node.inp p = some i → wireOf net c.node p = some (m, out) → (valueOf E seen c.node p).bind (·.2) = none →
    ∃ s ∈ cs, s.node = m ∧ ∃ o x, m.out out = some o ∧ s.outputs[o]? = some x ∧ c.inputs[i]? = some x
  /-- a connected input with a modulation amount is the parameter plus amount times that output -/
  modulated : ∀ c ∈ cs, ∀ p i m out a, c.node.inp p = some i → wireOf net c.node p = some (m, out) →
    (valueOf E seen c.node p).bind (·.2) = some a → ∃ s ∈ cs, s.node = m ∧ ∃ o x par y, m.out out = some o ∧ s.outputs[o]? = some y ∧
      c.params[i]? = some par ∧ c.inputs[i]? = some x ∧ ∀ f, f < nf → x f = par f + a * y f
  /-- the settings are those made last, or the defaults -/
  settings : ∀ c ∈ cs, ∀ p pid i, c.node.inpParam p = some pid → engineParam pid = .atom c.node i →
    c.atoms[i]? = some (((valueOf E seen c.node p).map (·.1)).getD (T.atomDef c.node i))
  /-- an input that is not connected is the parameter -/
  free : ∀ c ∈ cs, ∀ p i, c.node.inp p = some i → wireOf net c.node p = none → c.inputs[i]? = c.params[i]?

end HexoDSP.Synth
