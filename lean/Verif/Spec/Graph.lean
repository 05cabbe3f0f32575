import Verif.Model.Graph
/-! What is assumed of the oscillators, and what the pictures are meant to be. -/

namespace HexoDSP.GraphSpec
open HexoDSP.Graph

/-- `reset` forgets what was played: it depends on nothing but how the oscillator was made. `Made` holds of a new oscillator and whatever is done to it. -/
structure BlepOK {O : Type} (E : Blep O) (Made : O → Prop) : Prop where
  new : Made E.new
  reset : ∀ o, Made o → Made (E.reset o)
  sin : ∀ o f i, Made o → Made (E.sin o f i).1
  tri : ∀ o f i, Made o → Made (E.tri o f i).1
  saw : ∀ o f i, Made o → Made (E.saw o f i).1
  pulseNoDc : ∀ o f i w, Made o → Made (E.pulseNoDc o f i w).1
  pulse : ∀ o f i w, Made o → Made (E.pulse o f i w).1
  forget : ∀ o, Made o → E.reset o = E.reset E.new

/-- All wave forms stay between -1 and 1. -/
structure BlepRange {O : Type} (E : Blep O) : Prop where
  sin : ∀ o f i, |(E.sin o f i).2| ≤ 1
  tri : ∀ o f i, |(E.tri o f i).2| ≤ 1
  saw : ∀ o f i, |(E.saw o f i).2| ≤ 1
  pulseNoDc : ∀ o f i w, |(E.pulseNoDc o f i w).2| ≤ 1
  pulse : ∀ o f i w, |(E.pulse o f i w).2| ≤ 1

structure VpsOK {O : Type} (E : Vps O) (Made : O → Prop) : Prop where
  new : Made E.new
  reset : ∀ o, Made o → Made (E.reset o)
  next : ∀ o f i d v, Made o → Made (E.next o f i d v).1
  forget : ∀ o, Made o → E.reset o = E.reset E.new

structure LfoOK {O : Type} (E : Lfo O) (Made : O → Prop) : Prop where
  new : Made (lfoNew E)
  set : ∀ o f r, Made o → Made (E.set (E.reset o) f r)
  next : ∀ o, Made o → Made (E.next o).1
  forget : ∀ o f r, Made o → E.set (E.reset o) f r = E.set (E.reset (lfoNew E)) f r

/-- The last picture of a series is the one a new graph function would draw at once. -/
def OwnPicture {O : Type} (f : Data → Bool → O → Option (O × ℚ)) (new : O) : Prop :=
  ∀ (before : List (Data × Nat)) (gd : Data) (k : Nat), 0 < k →
    ∃ o o' l, pictures f new (before ++ [(gd, k)]) = some (o, l) ∧ points f gd true new k = some (o', l) ∧ l.length = k

end HexoDSP.GraphSpec
