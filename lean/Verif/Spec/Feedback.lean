import Verif.Model.Feedback
/-!
# What a feedback delay is expected to do
-/

namespace HexoDSP.FeedbackSpec
open HexoDSP.Feedback

variable {V : Type} [OfNat V 0] [Mul V]

/-- The signal `x` delayed by `d` samples, silence before: its value at sample `n`. -/
def delayed (d : Nat) (x : List V) (n : Nat) : V := if n < d then 0 else (x[n - d]?).getD 0

/-- The signals of one block: the volume at the reader and the signal at the writer. -/
structure Block (V : Type) where
  vol : List V
  sig : List V

/-- Reader and writer process the same number of frames, at most 128. -/
def Block.Ok (b : Block V) : Prop := b.vol.length = b.sig.length ∧ b.sig.length ≤ 128

/-- Blocks in which the reader runs before the writer. -/
def readerFirst (i : Nat) (bs : List (Block V)) : List (Op V) := bs.flatMap (fun b => [.read i b.vol, .write i b.sig])

/-- Blocks in which the writer runs before the reader. -/
def writerFirst (i : Nat) (bs : List (Block V)) : List (Op V) := bs.flatMap (fun b => [.write i b.sig, .read i b.vol])

/-- The whole written signal. -/
def signal (bs : List (Block V)) : List V := bs.flatMap Block.sig

/-- The volume over the whole time. -/
def volume (bs : List (Block V)) : List V := bs.flatMap Block.vol

/-- What is heard of instance `i` among the outputs. -/
def heard (i : Nat) (out : List (Nat × V)) : List V := out.filterMap (fun x => if x.1 = i then some x.2 else none)

/-- The instance an operation is about. -/
def inst : Op V → Nat
  | .newWr i => i
  | .newRd i => i
  | .write i _ => i
  | .read i _ => i

end HexoDSP.FeedbackSpec
