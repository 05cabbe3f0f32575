/-!
# What it means that the cutting of time into blocks cannot be heard of one node

A node whose settings do not change is a function from its state and the frames of a block (all its inputs, frame by frame) to its new state and what it
plays, frame by frame. `none` is a panic.
-/

namespace HexoDSP.Cutting

variable {S I O : Type}

/-- A node with fixed settings. -/
abbrev Machine (S I O : Type) := S → List I → Option (S × List O)

/-- The host calls the node block by block: the last state and everything that was played. -/
def play (f : Machine S I O) : S → List (List I) → Option (S × List O)
  | s, [] => some (s, [])
  | s, b :: bs =>
    match f s b with
    | none => none
    | some (s, o) => (play f s bs).map (fun r => (r.1, o ++ r.2))

/-- The frames `fs` come in the blocks `bs`. No block is empty. -/
def Cut (fs : List I) (bs : List (List I)) : Prop := bs.flatten = fs ∧ ∀ b ∈ bs, b ≠ []

/-- However the frames are cut into blocks, the node plays the same and ends in the same state. -/
def Seamless (f : Machine S I O) : Prop :=
  ∀ (s : S) (fs : List I) (bs cs : List (List I)), Cut fs bs → Cut fs cs → play f s bs = play f s cs

/-- A node that cannot panic. -/
def always (f : S → List I → S × List O) : Machine S I O := fun s fs => some (f s fs)

/-- What is assumed of the quantizers of `synfx_dsp`: a quantizer has its keys, playing does not change them, and setting the keys that are set does
nothing. -/
structure KeepsKeys {K Q V : Type} (setKeys : Q → K → Q) (toPitch : Q → V → Q × V) (keys : Q → K) : Prop where
  set : ∀ q k, keys (setKeys q k) = k
  same : ∀ q, setKeys q (keys q) = q
  keep : ∀ q x, keys (toPitch q x).1 = keys q

/-- What is assumed of the trigger of the scope: it has its thresholds, looking at a sample does not change them, and setting the thresholds that are set
does nothing. -/
structure KeepsThreshold {T V : Type} (setThr : T → V → V → T) (check : T → V → Bool × T) (thr : T → V × V) : Prop where
  set : ∀ t a b, thr (setThr t a b) = (a, b)
  same : ∀ t, setThr t (thr t).1 (thr t).2 = t
  keep : ∀ t x, thr (check t x).2 = thr t

end HexoDSP.Cutting
