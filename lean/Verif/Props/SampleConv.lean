import Verif.Model.SampleConv
import Verif.Props.Samples
import Verif.Props.FormFMFloat
/-!
# 16 bit recordings become `f32` numbers without loss (C72)
-/

set_option linter.unusedSectionVars false

namespace HexoDSP.SampleConvProps
open HexoDSP HexoDSP.Samples HexoDSP.SamplesProps HexoDSP.SinSpec HexoDSP.FloatLemmas HexoDSP.FormFMFloatProps

variable {rn : ℚ → ℚ}

/-- **C72** A 16 bit number becomes its part of 32768, without loss: from -1 to below 1, and different numbers stay different and in order. -/
theorem sixteen_bits (hr : Nearest rn) {s : ℤ} (h1 : -32768 ≤ s) (h2 : s ≤ 32767) :
    (conv32 rn).ofI16 s = s / 32768 ∧ -1 ≤ (conv32 rn).ofI16 s ∧ (conv32 rn).ofI16 s < 1 ∧
    ∀ t : ℤ, -32768 ≤ t → t ≤ 32767 → (s < t ↔ (conv32 rn).ofI16 s < (conv32 rn).ofI16 t) := by
  have e : ∀ t : ℤ, -32768 ≤ t → t ≤ 32767 → (conv32 rn).ofI16 t = t / 32768 := fun t a b => by
    have m : |t| ≤ 2 ^ 24 := abs_le.2 ⟨by omega, by omega⟩
    have f := f32_scaled (m := t) (e := -15) m (by norm_num) (by norm_num)
    have g : (t : ℚ) * (2 : ℚ) ^ (-15 : ℤ) = t / 32768 := by norm_num; ring
    have k : F32 32768 := by simpa using int_f32 (m := 32768) (by norm_num)
    show rn (rn t / rn 32768) = _
    rw [rn_fix hr (int_f32 m), rn_fix hr k]
    rw [g] at f
    exact rn_fix hr f
  have q1 : (-32768 : ℚ) ≤ s := by exact_mod_cast h1
  have q2 : (s : ℚ) ≤ 32767 := by exact_mod_cast h2
  refine ⟨e s h1 h2, by rw [e s h1 h2]; linarith, by rw [e s h1 h2]; linarith, fun t a b => ?_⟩
  rw [e s h1 h2, e t a b]
  constructor
  · intro h
    have : (s : ℚ) < t := by exact_mod_cast h
    linarith
  · intro h
    have : (s : ℚ) < t := by linarith
    exact_mod_cast this

/-- **C72** Loading a 16 bit file with a sample rate up to 2^24 gives its sample rate and the numbers of its first channel, each as its part of 32768, exactly and from -1 to below 1. -/
theorem loaded_exactly (hr : Nearest rn) {fs : String → Option (Wav ℚ)} {p : String} {a : String × List ℚ} {w : Wav ℚ} (hw : fs p = some w) (hi : w.format = .int)
    (h16 : ∀ s, some s ∈ w.ints → -32768 ≤ s ∧ s ≤ 32767) (hrate : w.rate ≤ 2 ^ 24) (h : readNow (conv32 rn) fs p = some (.ok a)) :
    a.2[0]? = some (w.rate : ℚ) ∧
    ∀ k, k + 1 < a.2.length → ∃ s : ℤ, w.ints[k * w.channels]? = some (some s) ∧ a.2[k + 1]? = some ((s : ℚ) / 32768) ∧ -1 ≤ (s : ℚ) / 32768 ∧ (s : ℚ) / 32768 < 1 := by
  obtain ⟨w', hw', -, hc⟩ := (SamplesProps.sample_contents (conv32 rn) fs p _ h).1 a rfl
  rw [hw] at hw'
  cases hw'
  unfold Contents at hc
  rw [hi] at hc
  obtain ⟨r, -, c⟩ := hc
  refine ⟨?_, fun k hk => ?_⟩
  · rw [r]
    have := int_f32 (m := w.rate) (by rw [abs_of_nonneg (by omega)]; exact_mod_cast hrate)
    exact congrArg some (rn_fix hr (by exact_mod_cast this))
  · obtain ⟨s, hs, hd⟩ := c k hk
    obtain ⟨b1, b2⟩ := h16 s (List.mem_of_getElem? hs)
    obtain ⟨e, g1, g2, -⟩ := sixteen_bits hr b1 b2
    rw [e] at g1 g2 hd
    exact ⟨s, hs, hd, g1, g2⟩

-- a stereo file
example : ∃ rn, Nearest rn ∧ ∃ a, readNow (conv32 rn) (fun _ => some ⟨2, 44100, .int, [], [some 16384, some 5, some (-32768), some 7]⟩) "x.wav" = some (.ok ("x.wav", a)) ∧
    a = [44100, 1 / 2, -1] := by
  obtain ⟨rn, hr⟩ := nearest_exists
  refine ⟨rn, hr, [rn 44100, (conv32 rn).ofI16 16384, (conv32 rn).ofI16 (-32768)], ?_, ?_⟩
  · rfl
  · have k : F32 44100 := by simpa using int_f32 (m := 44100) (by norm_num)
    rw [rn_fix hr k, (sixteen_bits hr (s := 16384) (by norm_num) (by norm_num)).1, (sixteen_bits hr (s := -32768) (by norm_num) (by norm_num)).1]
    norm_num

end HexoDSP.SampleConvProps
