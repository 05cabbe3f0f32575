import Verif.Model.Env
import Mathlib.Data.List.Pairwise
/-! What is expected of the envelopes and of their graphs. -/

namespace HexoDSP.EnvSpec
open HexoDSP.Env

variable {S F : Type}

/-- Every frame of a history changed by `g`. -/
def mapFrames (g : F → F) : List (Ev F) → List (Ev F)
  | [] => []
  | .block m fs :: es => .block m (fs.map g) :: mapFrames g es
  | .reset :: es => .reset :: mapFrames g es
  | .rate r :: es => .rate r :: mapFrames g es

/-- The frames of a history. -/
def allFrames : List (Ev F) → List F
  | [] => []
  | .block _ fs :: es => fs ++ allFrames es
  | _ :: es => allFrames es

/-- A number brought to the range from 0 to 1: the nearest number in it. -/
def IsNearest (x y : ℚ) : Prop := (0 ≤ y ∧ y ≤ 1) ∧ (x ≤ 0 → y = 0) ∧ (1 ≤ x → y = 1) ∧ (0 ≤ x → x ≤ 1 → y = x)

/-- The factors written on the knob. -/
def Factor (m : Int) (k : ℚ) : Prop := (m = 0 → k = 1) ∧ (m = 1 → k = 10) ∧ (m = 2 → k = 100)

/-- A curve of an envelope: rises from 0 to 1, whatever the shape. -/
structure Curve (curve : ℚ → ℚ → ℚ) : Prop where
  zero : ∀ s, curve 0 s = 0
  one : ∀ s, curve 1 s = 1
  mono : ∀ x y s, 0 ≤ x → x ≤ y → y ≤ 1 → curve x s ≤ curve y s

/-- What an envelope in state `s` plays with fixed parameters for the given gates. -/
def envelope (E : AdsrExt S) (p : Params) (s : S) : List ℚ → List ℚ
  | [] => []
  | g :: gs => (E.tick s g p).2.2.1 :: envelope E p (E.tick s g p).1 gs

end HexoDSP.EnvSpec
