import Verif.Spec.Engine
/-!
# What the engine should play

A reference machine without buffers, port indices, messages or two threads. It remembers what the user
asked for (`Playing`), delays it until the audio thread polls (`Track.pending`), and says what one block
must then compute (`Flow`).
-/

namespace HexoDSP.EngineSpec
open HexoDSP.Engine

/-- What is being played: the nodes in their order, the connections, the modulation amounts, atoms and
parameter values, and the node that is monitored with the three inputs and three outputs to show. -/
structure Playing (N V A : Type) where
  order : List N
  wires : List (Conn N)
  amt : N → Nat → Option V
  atom : N → Nat → A
  param : N → Nat → V
  mon : Option (N × List (Option Nat) × List (Option Nat)) := none

/-- Something the user asked for. `store`: a parameter value is remembered for a node that is not in the engine yet. -/
inductive Update (N V A : Type) where
  | program (p : Playing N V A)
  | clear
  | param (n : N) (i : Nat) (v : V)
  | store (n : N) (i : Nat) (v : V)
  | atom (n : N) (i : Nat) (a : A)
  | amount (n : N) (i : Nat) (v : V)
  | monitor (n : N) (ins outs : List (Option Nat))

/-- What was asked for and has not reached the audio thread yet, and what is playing now. -/
structure Track (N V A : Type) where
  pending : List (Update N V A)
  now : Playing N V A

section
variable {N V A M σ : Type} [DecidableEq N]

/-- An update takes effect. A modulation amount can be changed without a new program only where there
is one. A new program ends monitoring. -/
def Playing.update (p : Playing N V A) : Update N V A → Playing N V A
  | .program q => q
  | .clear => { p with order := [], wires := [], mon := none }
  | .param n i v => { p with param := fun m j => if m = n ∧ j = i then v else p.param m j }
  | .store n i v => { p with param := fun m j => if m = n ∧ j = i then v else p.param m j }
  | .atom n i a => { p with atom := fun m j => if m = n ∧ j = i then a else p.atom m j }
  | .amount n i v =>
    { p with amt := fun m j => if m = n ∧ j = i then (p.amt m j).map (fun _ => v) else p.amt m j }
  | .monitor n ins outs => { p with mon := some (n, ins, outs) }

/-- Atom value of a configuration: what was set, else the default. -/
def atomIn (T : NodeTable N V A) (c : Conf N V A) (n : N) (i : Nat) : A :=
  match c.getParam (.atom n i) with
  | some (.atom a) => a
  | _ => T.atomDef n i

/-- Parameter value of a configuration: what was set, else the default. -/
def paramIn (T : NodeTable N V A) (c : Conf N V A) (n : N) (i : Nat) : V :=
  match c.getParam (.input n i) with
  | some (.num v) => v
  | _ => T.normDef n i

/-- What a call asks for. A changed amount that needs a new program (`set_param_modamt` returns true) is
played after the next `sync` only. Only a node that was there at the last `sync` can be
monitored, and only its parameters move when they are changed. -/
def asks (T : NodeTable N V A) (c : Conf N V A) : EOp N V A M → List (Update N V A)
  | .deleteNodes => [.clear]
  | .setInput n i v => if (c.instanceOf n).isSome ∧ i < T.inCount n then [.param n i v] else [.store n i v]
  | .setAtom n i a => [.atom n i a]
  | .setModamt (.input n i) (some v) => if (c.getModamt (.input n i)).isSome then [.amount n i v] else []
  | .sync order es _ =>
    [.program { order := order, wires := es, amt := fun n i => c.getModamt (.input n i),
                atom := atomIn T c, param := paramIn T c }]
  | .monitor n ins outs => if (c.instanceOf n).isSome then [.monitor n ins outs] else []
  | _ => []

/-- One call of the reference machine. -/
def Track.step (T : NodeTable N V A) (c : Conf N V A) (t : Track N V A) : EOp N V A M → Track N V A
  | .poll => { pending := [], now := t.pending.foldl Playing.update t.now }
  | op => { t with pending := t.pending ++ asks T c op }

/-- Nothing is played. -/
def Track.new (T : NodeTable N V A) : Track N V A :=
  { pending := [],
    now := { order := [], wires := [], amt := fun _ _ => none, atom := T.atomDef, param := T.normDef } }

/-- What is played once all messages have reached the audio thread. -/
def final (t : Track N V A) : Playing N V A := t.pending.foldl Playing.update t.now

/-- Both ends of the connection exist. -/
def Plugged (T : NodeTable N V A) (e : Conn N) : Prop :=
  e.dstIn < T.inCount e.dst ∧ e.srcOut < T.outCount e.src

instance (T : NodeTable N V A) (e : Conn N) : Decidable (Plugged T e) := inferInstanceAs (Decidable (_ ∧ _))

/-- Connection `e` is the one that feeds input `k` of node `n`: the last one made to it. -/
def Feeds (T : NodeTable N V A) (es : List (Conn N)) (n : N) (k : Nat) (e : Conn N) : Prop :=
  Plugged T e ∧ e.dst = n ∧ e.dstIn = k ∧
  ∃ pre post, es = pre ++ e :: post ∧ ∀ e' ∈ post, Plugged T e' → ¬ (e'.dst = n ∧ e'.dstIn = k)

/-- Input `k` of node `n` is not connected. -/
def Unfed (T : NodeTable N V A) (es : List (Conn N)) (n : N) (k : Nat) : Prop :=
  ∀ e ∈ es, Plugged T e → ¬ (e.dst = n ∧ e.dstIn = k)

/-- The calls of the nodes in one block of `nf` frames are the data flow of `pl`. -/
structure Flow [Add V] [Mul V] (T : NodeTable N V A) (pl : Playing N V A) (nf : Nat)
    (cs : List (Call N V A)) : Prop where
  /-- every node runs once, in order -/
  order : cs.map (fun c => c.node) = pl.order
  frames : ∀ c ∈ cs, c.nframes = nf
  nParams : ∀ c ∈ cs, c.params.length = T.inCount c.node
  nInputs : ∀ c ∈ cs, c.inputs.length = T.inCount c.node
  nOutputs : ∀ c ∈ cs, c.outputs.length = T.outCount c.node
  nAtoms : ∀ c ∈ cs, c.atoms.length = T.atCount c.node
  atoms : ∀ c ∈ cs, ∀ k, k < T.atCount c.node → c.atoms[k]? = some (pl.atom c.node k)
  /-- an unconnected input is the parameter -/
  unfed : ∀ c ∈ cs, ∀ k, k < T.inCount c.node → Unfed T pl.wires c.node k → c.inputs[k]? = c.params[k]?
  /-- a connected input without a modulation amount is the output its source produced in this block -/
  direct : ∀ c ∈ cs, ∀ k e, Feeds T pl.wires c.node k e → pl.amt c.node k = none →
    ∃ s ∈ cs, s.node = e.src ∧ c.inputs[k]? = s.outputs[e.srcOut]?
  /-- a connected input with a modulation amount is the parameter plus amount times that output -/
  modulated : ∀ c ∈ cs, ∀ k e a, Feeds T pl.wires c.node k e → pl.amt c.node k = some a →
    ∃ s ∈ cs, s.node = e.src ∧ ∃ x par out, c.inputs[k]? = some x ∧ c.params[k]? = some par ∧
      s.outputs[e.srcOut]? = some out ∧ ∀ f, f < nf → x f = par f + a * out f
  /-- the connected flags -/
  inFlags : ∀ c ∈ cs, ∀ k, c.inConnected.testBit k = true ↔
    ∃ e ∈ pl.wires, Plugged T e ∧ e.dst = c.node ∧ e.dstIn = k
  outFlags : ∀ c ∈ cs, ∀ k, c.outConnected.testBit k = true ↔
    ∃ e ∈ pl.wires, Plugged T e ∧ e.src = c.node ∧ e.srcOut = k

variable [Add V] [Mul V] [Sub V] [Div V] [NatCast V] [OfNat V 0]

/-- A call as the matrix makes it: nodes are created once, a new program is legal, three inputs and three
outputs are monitored, and if the call asks for something then there is room in the message queue. -/
structure Careful (T : NodeTable N V A) (w : World N V A M σ) (op : EOp N V A M) : Prop where
  polite : Polite w op
  room : asks T w.conf op ≠ [] → w.queue.length < queueCapacity
  legal : ∀ order es co, op = .sync order es co → Legal w.conf order es
  watch : ∀ n ins outs, op = .monitor n ins outs → ins.length = 3 ∧ outs.length = 3

/-- A history of careful calls, with the reference machine running alongside. -/
inductive Follows (T : NodeTable N V A) (a0 : A) (run : σ → CallIn N V A → σ × (Nat → Block V)) :
    World N V A M σ → Track N V A → Prop
  | new (st : σ) : Follows T a0 run (World.new st) (Track.new T)
  | call {w w' : World N V A M σ} {t : Track N V A} {op : EOp N V A M} {out : Option (BlockResult N V A)} :
      Follows T a0 run w t → Careful T w op → w.step T a0 run op = some (w', out) →
      Follows T a0 run w' (t.step T w.conf op)
  | outside {w : World N V A M σ} {t : Track N V A} (st : σ) : Follows T a0 run w t → Follows T a0 run { w with st := st } t

end

end HexoDSP.EngineSpec
