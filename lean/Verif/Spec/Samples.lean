import Verif.Model.Samples
/-!
# What a sample file contains
-/

namespace HexoDSP.Samples

variable {F : Type}

/-- `data` is a mono sample made from the file: the sample rate, then the first channel, at most 60 seconds of it. `Frame k s`: the sample
of the first channel in frame `k` is `s`. -/
def FirstChannel {α : Type} (w : Wav F) (samples : List (Option α)) (f : α → F) (rate : F) (data : List F) : Prop :=
  data[0]? = some rate ∧
  data.length = 1 + min (60 * w.rate) ((samples.length + (w.channels - 1)) / w.channels) ∧
  ∀ k, k + 1 < data.length → ∃ s, samples[k * w.channels]? = some (some s) ∧ data[k + 1]? = some (f s)

/-- The data of a WAV file. -/
def Contents (C : Conv F) (w : Wav F) (data : List F) : Prop :=
  match w.format with
  | .float => FirstChannel w w.floats id (C.rate w.rate) data
  | .int => FirstChannel w w.ints C.ofI16 (C.rate w.rate) data

end HexoDSP.Samples
