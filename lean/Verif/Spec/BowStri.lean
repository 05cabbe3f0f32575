import Verif.Model.BowStri
/-! What is assumed of the parts of the string. A *level* of a part is a bound on everything it still contains. -/

namespace HexoDSP.BowStriSpec
open HexoDSP.BowStri

variable {D P B : Type}

/-- The delay line gives back nothing louder than what was fed into it; the string filter, if its pole is within the unit circle, has the gain `g` and the body
the gain `h`. -/
structure Tame (E : Ext D P B) (g h : ℚ) (dl : D → ℚ → Prop) (pl : P → ℚ → Prop) (bl : B → ℚ → Prop) : Prop where
  delay : ∀ M, 0 ≤ M → dl E.delay M
  delayReset : ∀ d M, 0 ≤ M → dl (E.delayReset d) M
  read : ∀ d M t, dl d M → |E.read d t| ≤ M
  feed : ∀ d M x, dl d M → |x| ≤ M → dl (E.feed d x) M
  pole : ∀ a M, |a| < 1 → 0 ≤ M → pl (E.pole a (9/10)) M
  poleReset : ∀ p M, pl p M → pl (E.poleReset p) M
  poleNext : ∀ p M x, pl p M → |x| ≤ M → pl (E.poleNext p x).1 M ∧ |(E.poleNext p x).2| ≤ g * M
  body : ∀ M, 0 ≤ M → bl E.body M
  bodyReset : ∀ b M, 0 ≤ M → bl (E.bodyReset b) M
  bodyNext : ∀ b M x, bl b M → |x| ≤ M → bl (E.bodyNext b x).1 M ∧ |(E.bodyNext b x).2| ≤ h * M

/-- In this history the bow never moves faster than `V`, and no sample rate is below 2.6 kHz. -/
def Gentle (V : ℚ) : List Ev → Prop
  | [] => True
  | .block fs :: es => (∀ f ∈ fs, |f.vel| ≤ V) ∧ Gentle V es
  | .reset :: es => Gentle V es
  | .rate r :: es => 2600 ≤ r ∧ Gentle V es

end HexoDSP.BowStriSpec
