import Verif.Model.Noise
/-! What a noise node plays, said by the sequence of numbers of its generator. -/

namespace HexoDSP.NoiseSpec
open HexoDSP.Noise

variable {S : Type}

/-- The state of a generator after `k` numbers. -/
def after (R : Rng S) (s : S) : Nat → S
  | 0 => s
  | k + 1 => (R.next (after R s k)).1

/-- The `k`-th number of the generator seeded with `x`, counted from 0. -/
def draw (R : Rng S) (x k : Nat) : ℚ := (R.next (after R (R.seed x) k)).2

/-- A number between 0 and 1 brought to the range of the mode, attenuated and moved. -/
def shape (mode : Int) (f : Frame) (x : ℚ) : ℚ := (if mode = 0 then 2 * x - 1 else x) * f.atv + f.offs

/-- The frames of one block; `k` numbers were used before. -/
def blockOut (R : Rng S) (x : Nat) (mode : Int) : Nat → List Frame → List ℚ
  | _, [] => []
  | k, f :: fs => shape mode f (draw R x k) :: blockOut R x mode (k + 1) fs

/-- What the node plays: one number in each frame, from the first one again after a reset. -/
def plays (R : Rng S) (x : Nat) : Nat → List Ev → List ℚ
  | _, [] => []
  | _, .reset :: es => plays R x 0 es
  | k, .block mode fs :: es => blockOut R x mode k fs ++ plays R x (k + fs.length) es

/-- No block of the history is empty. -/
def NoEmpty (es : List Ev) : Prop := ∀ m fs, Ev.block m fs ∈ es → fs ≠ []

end HexoDSP.NoiseSpec
