import Verif.Model.IoNodes
import Verif.Spec.PatchTimed
/-!
# What the nodes between the engine and the sound card should do (C91)
-/

namespace HexoDSP.IoNodes
open HexoDSP.Table HexoDSP.Engine
open HexoDSP.Repr (SAtom)

/-- A node of the type with this name. -/
def Node.Is (n : Node) (name : String) : Prop := (row n.kind).name = name

instance (n : Node) (name : String) : Decidable (n.Is name) := inferInstanceAs (Decidable (_ = _))

/-- The factor of a volume knob at `x`: from -90 dB to 18 dB. -/
noncomputable def volume (G : Gain) (x : ℝ) : ℝ := G.toCoef (-90 + 108 * x)

/-- The factor of a gain knob at `x`: from -24 dB to 24 dB. -/
noncomputable def gain (G : Gain) (x : ℝ) : ℝ := G.toCoef (-24 + 48 * x)

/-- What a block of `nf` frames does: the nodes `amp`, `mix3` and `inp` put out what they should, given what the sound card has recorded (`rec`), and what the
sound card is given (`old` before, `card` after) comes from the last `out` node of the program. -/
structure Sounds (G : Gain) (nf : Nat) (rec old card : Nat → Block ℝ) (cs : List (Call Node ℝ (SAtom ℝ))) : Prop where
  /-- the input, attenuated (negative attenuation is cut off or folded up), times the gain -/
  amp : ∀ c ∈ cs, c.node.Is "amp" → ∃ inp gn att neg sig, c.inputs = [inp, gn, att] ∧ c.atoms = [neg] ∧ c.outputs = [sig] ∧
    ∀ f, f < nf → sig f = inp f * (if atomI neg > 0 then max (att f) 0 else |att f|) * gain G (gn f)
  /-- the sum of the channels, each with its volume, times the output volume -/
  mix3 : ∀ c ∈ cs, c.node.Is "mix3" → ∃ ch1 ch2 ch3 vol1 vol2 vol3 ovol sig, c.inputs = [ch1, ch2, ch3, vol1, vol2, vol3, ovol] ∧ c.outputs = [sig] ∧
    ∀ f, f < nf → sig f = (ch1 f * volume G (vol1 f) + ch2 f * volume G (vol2 f) + ch3 f * volume G (vol3 f)) * volume G (ovol f)
  /-- the recorded signal times the volume -/
  inp : ∀ c ∈ cs, c.node.Is "inp" → ∃ vol sig1 sig2, c.inputs = [vol] ∧ c.outputs = [sig1, sig2] ∧
    ∀ f, f < nf → sig1 f = volume G (vol f) * rec 0 f ∧ sig2 f = volume G (vol f) * rec 1 f
  /-- the last `out` node is heard -/
  out : ∀ pre c post, cs = pre ++ c :: post → c.node.Is "out" → (∀ c' ∈ post, ¬ c'.node.Is "out") →
    ∃ ch1 ch2 vol mono, c.inputs = [ch1, ch2, vol] ∧ c.atoms = [mono] ∧
      ∀ f, f < nf → card 0 f = volume G (vol f) * ch1 f ∧ card 1 f = volume G (vol f) * (if atomI mono > 0 then ch1 f else ch2 f)
  /-- without an `out` node nothing is played -/
  silent : (∀ c ∈ cs, ¬ c.node.Is "out") → card = old
  /-- only these frames of the first two channels are written -/
  keep : ∀ ch f, 2 ≤ ch ∨ nf ≤ f → card ch f = old ch f

/-- The signals `l` and `r` are the grid `m`, with the values of `conf`, playing `input` into both channels of the sound card: they are as long as `input`, and
each block of 128 frames (the last one may be shorter) is computed as the grid says and given to the sound card. Input `i` of node `n` shows the value of its
knob from frame `late n i - 1` on (it is still on its way before). -/
def Heard (G : Gain) (m : Matrix.Matrix Node) (conf : Conf Node ℝ (SAtom ℝ)) (late : Node → Nat → Nat) (input l r : List ℝ) : Prop :=
  l.length = input.length ∧ r.length = input.length ∧ ∀ k, 128 * k < input.length → ∃ cs card,
    Patch.GridFlow (table G) m conf (min 128 (input.length - 128 * k)) cs ∧
    Sounds G (min 128 (input.length - 128 * k)) (fun _ f => input.getD (128 * k + f) 0) (fun _ _ => 0) card cs ∧
    (∀ f, f < min 128 (input.length - 128 * k) → l[128 * k + f]? = some (card 0 f) ∧ r[128 * k + f]? = some (card 1 f)) ∧
    ∀ c ∈ cs, ∀ i, i < (table G).inCount c.node → ∃ blk, c.params[i]? = some blk ∧
      ∀ f, f < min 128 (input.length - 128 * k) → late c.node i ≤ 128 * k + f + 1 → blk f = EngineSpec.paramIn (table G) conf c.node i

end HexoDSP.IoNodes
