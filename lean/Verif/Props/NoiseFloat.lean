import Verif.Model.NoiseFloat
import Verif.Props.FormFMFloat
/-!
# Noise and envelopes with `f32` numbers (C152)
-/

set_option linter.unusedSectionVars false

namespace HexoDSP.NoiseFloatProps
open HexoDSP HexoDSP.SinSpec HexoDSP.FloatLemmas HexoDSP.FormFMFloatProps HexoDSP.NoiseFloat

variable {rn : ℚ → ℚ} {S : Type}

/-- **C152** Bipolar noise stays, with the rounding, within the offset plus and minus the attenuation, whatever was played before. -/
theorem bipolar_range (hr : Nearest rn) (R : Noise.Rng S) (h : ∀ s, 0 ≤ (R.next s).2 ∧ (R.next s).2 ≤ 1) (n : Noise.Node S) (f : Noise.Frame) (F : F32 f.atv) :
    rn (f.offs - |f.atv|) ≤ (tick rn R 0 n f).2 ∧ (tick rn R 0 n f).2 ≤ rn (f.offs + |f.atv|) := by
  obtain ⟨h0, h1⟩ := h n.rng
  have e : (tick rn R 0 n f).2 = rn (rn (rn (rn ((R.next n.rng).2 * 2) - 1) * f.atv) + f.offs) := rfl
  rw [e]
  generalize (R.next n.rng).2 = r at *
  have a0 := rn_ge hr f32_zero (show 0 ≤ r * 2 by linarith)
  have a1 := rn_le hr two32 (show r * 2 ≤ 2 by linarith)
  generalize rn (r * 2) = x at *
  have b : |rn (x - 1)| ≤ 1 := rn_abs hr one32 (abs_le.2 ⟨by linarith, by linarith⟩)
  generalize rn (x - 1) = y at *
  have F' : F32 |f.atv| := by
    rcases abs_choice f.atv with g | g <;> rw [g]
    · exact F
    · exact f32_neg F
  have c : |rn (y * f.atv)| ≤ |f.atv| := rn_abs hr F' (by rw [abs_mul]; exact mul_le_of_le_one_left (abs_nonneg _) b)
  obtain ⟨c1, c2⟩ := abs_le.1 c
  exact ⟨rn_mono hr (by linarith), rn_mono hr (by linarith)⟩

/-- **C152** Unipolar noise stays between the offset and the offset plus the attenuation. -/
theorem unipolar_range (hr : Nearest rn) (R : Noise.Rng S) (h : ∀ s, 0 ≤ (R.next s).2 ∧ (R.next s).2 ≤ 1) (n : Noise.Node S) (f : Noise.Frame) (F : F32 f.atv) (G : F32 f.offs)
    {mode : Int} (hm : mode ≠ 0) :
    min f.offs (rn (f.offs + f.atv)) ≤ (tick rn R mode n f).2 ∧ (tick rn R mode n f).2 ≤ max f.offs (rn (f.offs + f.atv)) := by
  obtain ⟨h0, h1⟩ := h n.rng
  have e : (tick rn R mode n f).2 = rn (rn ((R.next n.rng).2 * f.atv) + f.offs) := by simp [tick, hm]
  rw [e]
  generalize (R.next n.rng).2 = r at *
  rcases le_total 0 f.atv with p | p
  · have c0 := rn_ge hr f32_zero (mul_nonneg h0 p)
    have c1 := rn_le hr F (mul_le_of_le_one_left p h1)
    exact ⟨(min_le_left _ _).trans (rn_ge hr G (by linarith)), (rn_mono hr (by linarith)).trans (le_max_right _ _)⟩
  · have c0 := rn_le hr f32_zero (mul_nonpos_of_nonneg_of_nonpos h0 p)
    have c1 := rn_ge hr F (show f.atv ≤ r * f.atv by nlinarith)
    exact ⟨(min_le_right _ _).trans (rn_mono hr (by linarith)), (rn_le hr G (by linarith)).trans (le_max_left _ _)⟩

/-- **C152** The ends and the middle of the range of the random numbers are the ends and the middle of what is played; with the attenuation at 0 only the offset is heard. -/
theorem noise_ends (hr : Nearest rn) (R : Noise.Rng S) (n : Noise.Node S) (f : Noise.Frame) (F : F32 f.atv) (G : F32 f.offs) {mode : Int} (hm : mode ≠ 0) :
    ((R.next n.rng).2 = 0 → (tick rn R 0 n f).2 = rn (f.offs - f.atv) ∧ (tick rn R mode n f).2 = f.offs) ∧
    ((R.next n.rng).2 = 1 → (tick rn R 0 n f).2 = rn (f.offs + f.atv) ∧ (tick rn R mode n f).2 = rn (f.offs + f.atv)) ∧
    ((R.next n.rng).2 = 1 / 2 → (tick rn R 0 n f).2 = f.offs) ∧
    (f.atv = 0 → (tick rn R 0 n f).2 = f.offs ∧ (tick rn R mode n f).2 = f.offs) := by
  have e0 : (tick rn R 0 n f).2 = rn (rn (rn (rn ((R.next n.rng).2 * 2) - 1) * f.atv) + f.offs) := rfl
  have e1 : (tick rn R mode n f).2 = rn (rn ((R.next n.rng).2 * f.atv) + f.offs) := by simp [tick, hm]
  have z := rn_fix hr f32_zero
  have o := rn_fix hr one32
  have m := rn_fix hr neg_one32
  have t := rn_fix hr two32
  have a := rn_fix hr F
  have a' := rn_fix hr (f32_neg F)
  have g := rn_fix hr G
  rw [e0, e1]
  refine ⟨fun h => ?_, fun h => ?_, fun h => ?_, fun h => ?_⟩
  · rw [h]
    simp only [zero_mul, z, zero_sub, m, neg_one_mul, a', zero_add, g, and_true]
    congr 1; ring
  · rw [h]
    rw [one_mul, one_mul, t, show (2 : ℚ) - 1 = 1 by norm_num, o, one_mul, a, add_comm]
    exact ⟨rfl, rfl⟩
  · rw [h, show (1 : ℚ) / 2 * 2 = 1 by norm_num, o, sub_self, z, zero_mul, z, zero_add, g]
  · rw [h, mul_zero, mul_zero, z, zero_add, g]
    exact ⟨rfl, rfl⟩

/-- **C152** An envelope from 0 to 1 makes no signal louder and keeps its sign: at 1 the signal passes as it is, at 0 it is silent. -/
theorem envelope (hr : Nearest rn) (E : Env.AdExt S) (mult : ℚ) (s : S) (f : Env.AdFrame) (F : F32 f.inp) {v : ℚ}
    (hv : v = (E.tick s f.trig (rn (mult * f.atk)) (Env.clamp 0 1 f.ashp) (rn (mult * f.dcy)) (rn (1 - Env.clamp 0 1 f.dshp))).2.1) (h0 : 0 ≤ v) (h1 : v ≤ 1) :
    |(adTick rn E mult s f).2.1| ≤ |f.inp| ∧ 0 ≤ f.inp * (adTick rn E mult s f).2.1 ∧
    (v = 1 → (adTick rn E mult s f).2.1 = f.inp) ∧ (v = 0 → (adTick rn E mult s f).2.1 = 0) := by
  have e : (adTick rn E mult s f).2.1 = rn (f.inp * v) := by rw [hv]; rfl
  rw [e]
  have last : (v = 1 → rn (f.inp * v) = f.inp) ∧ (v = 0 → rn (f.inp * v) = 0) :=
    ⟨fun h => by rw [h, mul_one, rn_fix hr F], fun h => by rw [h, mul_zero, rn_fix hr f32_zero]⟩
  rcases le_total 0 f.inp with p | p
  · have a := rn_ge hr f32_zero (mul_nonneg p h0)
    have b := rn_le hr F (mul_le_of_le_one_right p h1)
    exact ⟨by rw [abs_of_nonneg a, abs_of_nonneg p]; exact b, mul_nonneg p a, last⟩
  · have a := rn_le hr f32_zero (mul_nonpos_of_nonpos_of_nonneg p h0)
    have b := rn_ge hr F (show f.inp ≤ f.inp * v by nlinarith)
    exact ⟨by rw [abs_of_nonpos a, abs_of_nonpos p]; linarith, mul_nonneg_of_nonpos_of_nonpos p a, last⟩

/-- **C152** With exact numbers these are the nodes of C99 (noise) and C102 (envelopes). -/
theorem same_nodes (R : Noise.Rng S) (mode : Int) (n : Noise.Node S) (f : Noise.Frame) (E : Env.AdExt S) (mult : ℚ) (s : S) (g : Env.AdFrame) :
    tick id R mode n f = Noise.tick R mode n f ∧ adTick id E mult s g = Env.adTick E mult s g := ⟨rfl, rfl⟩

-- a generator that counts through four numbers, at half volume around a quarter
example : ∃ rn, Nearest rn ∧ ∃ R : Noise.Rng (Fin 4), (∀ s, 0 ≤ (R.next s).2 ∧ (R.next s).2 ≤ 1) ∧
    -1 / 4 ≤ (tick rn R 0 (Noise.Node.new R 0) ⟨1 / 2, 1 / 4⟩).2 := by
  obtain ⟨rn, hr⟩ := nearest_exists
  let R : Noise.Rng (Fin 4) := ⟨fun _ => 1, fun s => (s + 1, (s.val : ℚ) / 4)⟩
  have h : ∀ s, 0 ≤ (R.next s).2 ∧ (R.next s).2 ≤ 1 := fun s => by
    have : ((s.val : ℕ) : ℚ) ≤ 4 := by exact_mod_cast s.isLt.le
    show 0 ≤ (s.val : ℚ) / 4 ∧ (s.val : ℚ) / 4 ≤ 1
    exact ⟨by positivity, by linarith⟩
  have half : F32 (1 / 2) := by
    have := pow2_f32 (k := -1) (by norm_num) (by norm_num)
    norm_num at this ⊢; exact this
  refine ⟨rn, hr, R, h, ?_⟩
  have := (bipolar_range hr R h (Noise.Node.new R 0) ⟨1 / 2, 1 / 4⟩ half).1
  have k : rn ((1 / 4 : ℚ) - |1 / 2|) = -1 / 4 := by
    have q : (1 / 4 : ℚ) - |1 / 2| = -(1 / 4) := by norm_num [abs_of_pos]
    rw [q, rn_fix hr (f32_neg quarter32)]; norm_num
  exact k ▸ this

end HexoDSP.NoiseFloatProps
