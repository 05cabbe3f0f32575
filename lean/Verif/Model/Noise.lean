import Mathlib.Algebra.Order.Field.Rat
import Mathlib.Algebra.Field.Rat
/-!
# Model of `src/dsp/node_noise.rs`

Numbers are rationals. The generator is `Rng` of the crate `synfx_dsp`: an arbitrary machine. It is assumed that `seed` sets its whole state.
The inputs are given after the denormalisation.
-/

namespace HexoDSP.Noise

/-- The generator `synfx_dsp::Rng` (`src/dsp/node_noise.rs:9`). -/
structure Rng (S : Type) where
  seed : (x : Nat) → S
  next : S → S × ℚ

/-- `src/dsp/node_noise.rs:25-28` `struct Noise`. -/
structure Node (S : Type) where
  seed : Nat
  rng : S

/-- The seed of the generator (`src/dsp/node_noise.rs:33` and `79`); `wrapping_add` on `u64`. The product does not overflow: the instance is a byte
(`src/dsp/mod.rs:2355-2360`). -/
def seedOf (inst : Nat) : Nat := (0x193a67f4a8a6d769 + 0x131415 * (inst + 1)) % 18446744073709551616

variable {S : Type}

/-- `src/dsp/node_noise.rs:31-36` `new`. -/
def Node.new (R : Rng S) (inst : Nat) : Node S := { seed := inst, rng := R.seed (seedOf inst) }

/-- `src/dsp/node_noise.rs:78-80` `reset`. -/
def Node.reset (R : Rng S) (n : Node S) : Node S := { n with rng := R.seed (seedOf n.seed) }

/-- The inputs `atv` and `offs` in one frame. -/
structure Frame where
  atv : ℚ
  offs : ℚ
  deriving DecidableEq

/-- `src/dsp/node_noise.rs:104-106` and `110-112`: one frame. -/
def tick (R : Rng S) (mode : Int) (n : Node S) (f : Frame) : Node S × ℚ :=
  let r := R.next n.rng
  if mode = 0 then
    let s := r.2 * 2 - 1
    let s := s * f.atv + f.offs
    ({ n with rng := r.1 }, s)
  else
    let s := r.2 * f.atv + f.offs
    ({ n with rng := r.1 }, s)

/-- The loop over the frames. -/
def loop (R : Rng S) (mode : Int) (n : Node S) : List Frame → Node S × List ℚ
  | [] => (n, [])
  | f :: fs =>
    let r := tick R mode n f
    let rest := loop R mode r.1 fs
    (rest.1, r.2 :: rest.2)

/-- `src/dsp/node_noise.rs:83-118` `process`: the outputs and the value of the LED. The setting `mode` is looked at once for the block. The last index of
an empty block underflows: `none`. -/
def Node.process (R : Rng S) (mode : Int) (n : Node S) (fs : List Frame) : Option (Node S × List ℚ × ℚ) :=
  let r := loop R mode n fs
  match r.2.getLast? with
  | none => none
  | some led => some (r.1, r.2, led)

/-- What happens to a node: a block is rendered, or it is reset. -/
inductive Ev where
  | block (mode : Int) (fs : List Frame)
  | reset

/-- A history of a node: what it plays, frame after frame. -/
def run (R : Rng S) (n : Node S) : List Ev → Option (List ℚ)
  | [] => some []
  | .reset :: es => run R (n.reset R) es
  | .block mode fs :: es =>
    match n.process R mode fs with
    | none => none
    | some (n, out, _) => (run R n es).map (fun rest => out ++ rest)

end HexoDSP.Noise
