import Verif.Model.Reverb
/-! What is expected of the LFO and of the parts of a reverb. -/

namespace HexoDSP.ReverbSpec
open HexoDSP.Reverb

variable {S T F : Type}

/-- The frames of a history. -/
def frames : List (Ev F) → List F
  | [] => []
  | .block fs :: es => fs ++ frames es
  | _ :: es => frames es

/-- The inputs of a history exchanged for others. -/
def mapInputs (g : F → F) : List (Ev F) → List (Ev F)
  | [] => []
  | .block fs :: es => .block (fs.map g) :: mapInputs g es
  | .reset :: es => .reset :: mapInputs g es
  | .rate r :: es => .rate r :: mapInputs g es

/-- The LFO forgets everything at a reset except for the sample rate it was last set to (`rateOf`), and a triangle lies between 0 and 1. -/
structure Forgets (E : Lfo S T) (rateOf : S → ℚ) : Prop where
  reset : ∀ s s', rateOf s = rateOf s' → E.reset s = E.reset s'
  next : ∀ s, 0 ≤ (E.next s).2 ∧ (E.next s).2 ≤ 1

/-- `y` is the number from `lo` to `hi` next to `x`. -/
def IsNearest (lo hi x y : ℚ) : Prop := (lo ≤ y ∧ y ≤ hi) ∧ (x ≤ lo → y = lo) ∧ (hi ≤ x → y = hi) ∧ (lo ≤ x → x ≤ hi → y = x)

/-- A delay line with nothing in it (`empty`) gives nothing for nothing. -/
structure LineSilent (E : Line S) (empty : S → Prop) : Prop where
  new : empty E.new
  rate : ∀ s r, empty s → empty (E.rate s r)
  reset : ∀ s, empty (E.reset s)
  feedback : ∀ s t g, empty s → empty (E.feedback s t g 0).1 ∧ (E.feedback s t g 0).2 = 0
  feedforward : ∀ s t g, empty s → empty (E.feedforward s t g 0).1 ∧ (E.feedforward s t g 0).2 = 0

/-- The same for the reverb; and a crossfade between nothing and nothing is nothing. -/
structure VerbSilent (E : Verb S) (empty : S → Prop) : Prop where
  new : empty E.new
  rate : ∀ s r, empty s → empty (E.rate s r)
  reset : ∀ s, empty (E.reset s)
  process : ∀ s p, empty s → empty (E.process s p 0 0).1 ∧ (E.process s p 0 0).2 = (0, 0)
  crossfade : ∀ m, E.crossfade 0 0 m = 0

/-- The ends of a crossfade. -/
structure Crossfade (E : Verb S) : Prop where
  dry : ∀ a b, E.crossfade a b 0 = a
  wet : ∀ a b, E.crossfade a b 1 = b

/-- The two signals that go into the reverb: the connected ones, or the one that is connected twice. -/
def stereo (f : VFrame) : ℚ × ℚ :=
  (if f.conR ∧ ¬ f.conL then f.inR else f.inL, if f.conL ∧ ¬ f.conR then f.inL else f.inR)

/-- What the reverb itself makes of a history. -/
def tail (E : Verb S) : S → List (Ev VFrame) → List (ℚ × ℚ)
  | _, [] => []
  | s, .block [] :: es => tail E s es
  | s, .block (f :: fs) :: es =>
    (E.process s f.params (stereo f).1 (stereo f).2).2 :: tail E (E.process s f.params (stereo f).1 (stereo f).2).1 (.block fs :: es)
  | s, .reset :: es => tail E (E.reset s) es
  | s, .rate r :: es => tail E (E.rate s r) es
  termination_by _ es => ((es.map (fun e => match e with | .block fs => fs.length + 1 | _ => 1)).sum)

end HexoDSP.ReverbSpec
