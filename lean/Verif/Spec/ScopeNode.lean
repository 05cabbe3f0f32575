import Verif.Model.ScopeNode
/-! # What a scope shows -/

namespace HexoDSP.ScopeNode
open HexoDSP.Scope

/-- The largest and the smallest of some samples. -/
def Extremes (l : List ℚ) (p : ℚ × ℚ) : Prop := p.1 ∈ l ∧ p.2 ∈ l ∧ ∀ x ∈ l, p.2 ≤ x ∧ x ≤ p.1

/-- The samples of signal `b` in the frames `i, i + 1, …, j - 1`. -/
def window (fs : List Frame) (b : Fin 3) (i j : Nat) : List ℚ := ((fs.drop i).take (j - i)).map (fun f => f.sig b)

/-- All frames of a history. -/
def frames (bs : List (Settings × List Frame)) : List Frame := bs.flatMap (·.2)

/-- Samples of a reasonable size. -/
def Quiet (fs : List Frame) : Prop := ∀ f ∈ fs, ∀ b, -99999 ≤ f.sig b ∧ f.sig b ≤ 99999

end HexoDSP.ScopeNode
