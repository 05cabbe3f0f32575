import Verif.Model.Osc
import Mathlib.Algebra.Order.Floor.Ring
import Mathlib.Data.Rat.Floor
/-! What is assumed of the oscillators, and how far they should have turned. -/

namespace HexoDSP.OscSpec
open HexoDSP.Osc

variable {S O C F : Type}

/-- Every function of the oscillator moves the phase by the frequency over the sample rate; a reset puts it to `p0`. -/
structure BTuned (E : Blep S) (phase : S → ℚ) (p0 : ℚ) : Prop where
  sin : ∀ s f r, phase (E.sin s f r).1 = Int.fract (phase s + f * r)
  tri : ∀ s f r, phase (E.tri s f r).1 = Int.fract (phase s + f * r)
  saw : ∀ s f r, phase (E.saw s f r).1 = Int.fract (phase s + f * r)
  pulseNoDc : ∀ s f r w, phase (E.pulseNoDc s f r w).1 = Int.fract (phase s + f * r)
  pulse : ∀ s f r w, phase (E.pulse s f r w).1 = Int.fract (phase s + f * r)
  reset : ∀ s, phase (E.reset s) = p0

/-- The same for the V oscillator, whatever the shape. -/
structure VTuned (E : Vps S O) (phase : S → ℚ) (p0 : ℚ) : Prop where
  next : ∀ s f r d v, phase (E.next s f r d v).1 = Int.fract (phase s + f * r)
  reset : ∀ s, phase (E.reset s) = p0

/-- How far an ideal oscillator has turned after a history: from `p`, at the sample rate `rate`, by the frequency over the sample rate in each frame. -/
def turns (freq : F → ℚ) (p0 : ℚ) : ℚ → ℚ → List (Ev C F) → ℚ
  | p, _, [] => p
  | p, rate, .block _ fs :: es => turns freq p0 (p + (fs.map (fun f => freq f / rate)).sum) rate es
  | _, rate, .reset :: es => turns freq p0 p0 rate es
  | p, _, .rate r :: es => turns freq p0 p r es

/-- The settings of a history exchanged for others. -/
def mapSettings (g : C → C) : List (Ev C F) → List (Ev C F)
  | [] => []
  | .block c fs :: es => .block (g c) fs :: mapSettings g es
  | .reset :: es => .reset :: mapSettings g es
  | .rate r :: es => .rate r :: mapSettings g es

/-- The inputs of a history exchanged for others. -/
def mapInputs (g : F → F) : List (Ev C F) → List (Ev C F)
  | [] => []
  | .block c fs :: es => .block c (fs.map g) :: mapInputs g es
  | .reset :: es => .reset :: mapInputs g es
  | .rate r :: es => .rate r :: mapInputs g es

/-- The settings a history uses. -/
def settings : List (Ev C F) → List C
  | [] => []
  | .block c _ :: es => c :: settings es
  | _ :: es => settings es

/-- `y` is the number from `lo` to `hi` next to `x`. -/
def IsNearest (lo hi x y : ℚ) : Prop := (lo ≤ y ∧ y ≤ hi) ∧ (x ≤ lo → y = lo) ∧ (hi ≤ x → y = hi) ∧ (lo ≤ x → x ≤ hi → y = x)

end HexoDSP.OscSpec
