import Mathlib.Data.Rat.Defs
/-!
# What it means that a reset forgets

`src/dsp/mod.rs:715-719`: a node is told the sample rate and is reset; "Reset any internal state of the node."
-/

namespace HexoDSP.Reset

/-- A node as the one who runs it sees it: a new node, the rendering of a block `B` with what is written to the outputs `O` (`none`: a panic), the reset,
and the telling of a sample rate. -/
structure Machine (S B O : Type) where
  new : S
  block : S → B → Option (S × O)
  reset : S → S
  rate : S → ℚ → S

/-- What happens to a node. -/
inductive Ev (B : Type) where
  | block (b : B)
  | reset
  | rate (r : ℚ)

variable {S B O : Type}

/-- A history of a node: the node after it and what it wrote, block after block. -/
def Machine.run (m : Machine S B O) : S → List (Ev B) → Option (S × List O)
  | s, [] => some (s, [])
  | s, .block b :: es =>
    match m.block s b with
    | none => none
    | some (s, o) => (m.run s es).map (fun r => (r.1, o :: r.2))
  | s, .reset :: es => m.run (m.reset s) es
  | s, .rate r :: es => m.run (m.rate s r) es

/-- What is heard of a history. -/
def Machine.plays (m : Machine S B O) (s : S) (es : List (Ev B)) : Option (List O) := (m.run s es).map Prod.snd

/-- The sample rate told last, if any; `o` is the one told before the history. -/
def lastRate (o : Option ℚ) : List (Ev B) → Option ℚ
  | [] => o
  | .block _ :: es => lastRate o es
  | .reset :: es => lastRate o es
  | .rate r :: es => lastRate (some r) es

/-- A new node that was told that sample rate. -/
def Machine.tell (m : Machine S B O) : Option ℚ → S
  | none => m.new
  | some r => m.rate m.new r

/-- After any past, a reset node plays, whatever comes, as a new node does that knows the same sample rate. -/
def Machine.Forgets (m : Machine S B O) : Prop :=
  ∀ (past : List (Ev B)) (s : S) (heard : List O), m.run m.new past = some (s, heard) →
    ∀ future : List (Ev B), m.plays s (.reset :: future) = m.plays (m.tell (lastRate none past)) future

/-- The requirement on a part from the crate `synfx_dsp` that is made by `new`, told a sample rate by `rate` and reset by `reset`: `knows` says which sample
rate it knows, and a reset makes a part as new that knows the same. -/
structure Renews {P : Type} (new : P) (rate : P → ℚ → P) (reset : P → P) (knows : P → Option ℚ → Prop) : Prop where
  start : knows new none
  told : ∀ p o r, knows p o → knows (rate p r) (some r)
  renew : ∀ p o, knows p o → reset p = match o with
    | none => new
    | some r => rate new r
  again : ∀ p o, knows p o → knows (reset p) o

end HexoDSP.Reset
