import Verif.Model.Sampl

/-!
# What a sample player should do
-/

namespace HexoDSP.Sampl

/-- The part of a recording that `offs` and `len` choose: it starts at the fraction `offs`
of the recording and is the fraction `len` of the recording long, or ends with the recording. -/
def part (d : List ℚ) (offs len : ℚ) : List ℚ :=
  (d.drop ⌊(d.length : ℚ) * min |offs| (999999 / 1000000)⌋.toNat).take
    ⌊(d.length : ℚ) * min |len| 1 + 1 / 2⌋.toNat

/-- The sound at the position `x` of a recording that is repeated forever,
read forwards or backwards. -/
def soundAt (interp : List ℚ → ℕ → ℚ → ℚ) (reverse : Bool) (d : List ℚ) (x : ℚ) : ℚ :=
  if d = [] then 0
  else if reverse then interp d (d.length - 1 - ⌊x⌋.toNat % d.length) (1 - Int.fract x)
  else interp d (⌊x⌋.toNat % d.length) (Int.fract x)

/-- How far the play head moved in the first `k` frames. -/
def moved (srFactor : ℚ) (fs : List Frame) (k : ℕ) : ℚ :=
  ((fs.take k).map fun f => srFactor * f.speed).sum

/-- The first frame is a trigger, no other one is, and `offs` and `len` stay the same. -/
def OneTrigger (offs len : ℚ) (fs : List Frame) : Prop :=
  (∀ f ∈ fs, f.offs = offs ∧ f.len = len) ∧
  (∀ k f, fs[k]? = some f → f.trig = decide (k = 0))

/-- Both runs one after the other, with the outputs joined. -/
def andThen (a : Option (St × List ℚ)) (g : St → Option (St × List ℚ)) : Option (St × List ℚ) :=
  match a with
  | none => none
  | some (st, out) =>
    match g st with
    | none => none
    | some (st', out') => some (st', out ++ out')

/-- Process blocks one after the other, with the output joined. -/
def session (interp : List ℚ → ℕ → ℚ → ℚ) (checked : Bool) (srate declickMs : ℚ) (k : Knobs) :
    St → List (List Frame) → Option (St × List ℚ)
  | st, [] => some (st, [])
  | st, b :: bs =>
    andThen ((process interp checked srate declickMs k st b).map fun r => (r.1, r.2.1)) fun st' =>
      session interp checked srate declickMs k st' bs

/-- Speeds are not negative: they are frequencies divided by 440. -/
def Forward (fs : List Frame) : Prop := ∀ f ∈ fs, 0 ≤ f.speed

end HexoDSP.Sampl
