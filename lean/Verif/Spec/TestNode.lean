import Verif.Model.TestNode
/-! What the output `tsig` of the test node is meant to be: a pulse each time the button is pressed. -/

namespace HexoDSP.TestNodeSpec
open HexoDSP.TestNode

variable {P : Type}

/-- A pulse generator is started in some blocks (at their first frame) and not in others. -/
inductive Step where
  | block (start : Bool) (nframes : Nat)
  | reset
  | rate (srate : ℚ)

/-- `k` frames of the generator. -/
def frames (E : Ext P) (s : P) : Nat → P × List ℚ
  | 0 => (s, [])
  | k + 1 => ((frames E (E.next s).2 k).1, (E.next s).1 :: (frames E (E.next s).2 k).2)

/-- The signal of the generator. -/
def signal (E : Ext P) (s : P) : List Step → List ℚ
  | [] => []
  | .block b k :: l => (frames E (if b then E.trigger s else s) k).2 ++ signal E (frames E (if b then E.trigger s else s) k).1 l
  | .reset :: l => signal E (E.reset s) l
  | .rate x :: l => signal E (E.rate s x) l

/-- The button is down. -/
def Down (a : Arg) : Bool := decide (0 < int a.trig)

/-- The generator starts in every block in which the button is down and was not down in the block before (`was`). -/
def everyPress (was : Bool) : List Ev → List Step
  | [] => []
  | .block a :: l => .block (!was && Down a) a.nframes :: everyPress (Down a) l
  | .reset :: l => .reset :: everyPress was l
  | .rate x :: l => .rate x :: everyPress was l

/-- The generator starts in the first block in which the button is down, and never again; `done`: it has been down. -/
def firstPress (done : Bool) : List Ev → List Step
  | [] => []
  | .block a :: l => .block (!done && Down a) a.nframes :: firstPress (done || Down a) l
  | .reset :: l => .reset :: firstPress done l
  | .rate x :: l => .rate x :: firstPress done l

/-- The blocks of a history. -/
def blocks : List Ev → List Arg
  | [] => []
  | .block a :: l => a :: blocks l
  | _ :: l => blocks l

/-- Once the button was let go it is not pressed again. -/
def PressedOnce (l : List Ev) : Prop :=
  ∀ (i j k : Nat) (a b c : Arg), i < j → j < k → (blocks l)[i]? = some a → (blocks l)[j]? = some b → (blocks l)[k]? = some c → Down a = true → Down b = false → Down c = false

end HexoDSP.TestNodeSpec
