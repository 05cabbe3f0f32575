import Verif.Model.BiqFilt
/-! What the biquad filter node is expected to do: a chain of equal filters, one after the other. -/

namespace HexoDSP.BiqFiltSpec
open HexoDSP.BiqFilt

variable {C M X : Type}

/-- A whole signal through one filter with the coefficients `c` that starts with the memory `m`. -/
def response (E : Ext C M X) (c : C) : M → List X → List X
  | _, [] => []
  | m, x :: xs => (E.tick c m x).1 :: response E c (E.tick c m x).2 xs

/-- A whole signal through a chain of filters with the same coefficients, one filter after the other; `mems` are their memories at the start. -/
def chain (E : Ext C M X) (c : C) (mems : List M) (xs : List X) : List X :=
  mems.foldl (fun xs m => response E c m xs) xs

/-- The coefficients for the parameters of a block: type 1 is the resonator, all others are the Butterworth low pass. -/
def design (E : Ext C M X) (srate : ℚ) (b : Block X) : C :=
  if asU8 b.ftype = 1 then E.resonator srate (clampFreq b.freq) b.q else E.butter srate (clampFreq b.freq)

/-- How many filters the signal passes: the order plus one, just one for the resonator. -/
def stages (b : Block X) : Nat := if asU8 b.ftype = 1 then 1 else asU8 b.order + 1

/-- The same type and all parameters within a ten thousandth. -/
def Near (a b : Block X) : Prop :=
  asU8 a.ftype = asU8 b.ftype ∧ |clampFreq b.freq - clampFreq a.freq| ≤ 1/10000 ∧ |b.q - a.q| ≤ 1/10000 ∧ |b.gain - a.gain| ≤ 1/10000

/-- A block differs from all the blocks before: another type than in the last one, or a parameter further than a ten thousandth away from its
values in all of them. -/
def Moved (pre : List (Block X)) (b : Block X) : Prop :=
  (∀ a, pre.getLast? = some a → asU8 a.ftype ≠ asU8 b.ftype) ∨
  (∀ a ∈ pre, |clampFreq b.freq - clampFreq a.freq| > 1/10000) ∨ (∀ a ∈ pre, |b.q - a.q| > 1/10000) ∨ (∀ a ∈ pre, |b.gain - a.gain| > 1/10000)

end HexoDSP.BiqFiltSpec
