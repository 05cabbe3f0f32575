import Verif.Model.CellPathFloat
import Verif.Props.FormFMFloat
/-!
# The path between two cells with `f32` numbers
-/

set_option linter.unusedSectionVars false

namespace HexoDSP.CellPathFloatProps
open HexoDSP
open HexoDSP.CellDir (Pos)
open HexoDSP.SinSpec HexoDSP.FloatLemmas HexoDSP.FormFMFloatProps

variable {rn : ℚ → ℚ}

theorem nat_f32 {n : ℕ} (h : n ≤ 2 ^ 24) : F32 (n : ℚ) := by
  have := int_f32 (m := n) (by rw [abs_of_nonneg (by omega)]; exact_mod_cast h)
  exact_mod_cast this

/-- A distance is exact below 99999, and not below it otherwise. -/
theorem dist_spec (hr : Nearest rn) {b p : Pos} (b1 : b.1 ≤ 2 ^ 24) (b2 : b.2 ≤ 2 ^ 24) (p1 : p.1 ≤ 2 ^ 24) (p2 : p.2 ≤ 2 ^ 24) :
    (CellDir.sqDist b p < 99999 → CellPathFloat.dist rn b p = (CellDir.sqDist b p : ℤ)) ∧ (99999 ≤ CellDir.sqDist b p → 99999 ≤ CellPathFloat.dist rn b p) := by
  unfold CellPathFloat.dist CellDir.sqDist
  rw [rn_fix hr (nat_f32 b1), rn_fix hr (nat_f32 b2), rn_fix hr (nat_f32 p1), rn_fix hr (nat_f32 p2)]
  have x1 : |(b.1 : ℤ) - p.1| ≤ 2 ^ 24 := abs_le.2 ⟨by omega, by omega⟩
  have y1 : |(b.2 : ℤ) - p.2| ≤ 2 ^ 24 := abs_le.2 ⟨by omega, by omega⟩
  rw [show (b.1 : ℚ) - p.1 = ((b.1 - p.1 : ℤ) : ℚ) by push_cast; rfl, show (b.2 : ℚ) - p.2 = ((b.2 - p.2 : ℤ) : ℚ) by push_cast; rfl]
  generalize (b.1 : ℤ) - p.1 = x at *
  generalize (b.2 : ℤ) - p.2 = y at *
  rw [rn_fix hr (int_f32 x1), rn_fix hr (int_f32 y1)]
  have sq : ∀ z : ℤ, (z : ℚ) ^ 2 = ((z * z : ℤ) : ℚ) := fun z => by push_cast; ring
  rw [sq, sq]
  have xx : 0 ≤ x * x := mul_self_nonneg x
  have yy : 0 ≤ y * y := mul_self_nonneg y
  generalize x * x = u at *
  generalize y * y = v at *
  have fix : ∀ {z : ℤ}, 0 ≤ z → z ≤ 200000 → rn (z : ℚ) = z := fun {z} a c => rn_fix hr (int_f32 (abs_le.2 ⟨by omega, by omega⟩))
  have top : F32 99999 := by simpa using int_f32 (m := 99999) (by norm_num)
  have pos : ∀ {z : ℤ}, 0 ≤ z → 0 ≤ rn (z : ℚ) := fun {z} a => rn_ge hr f32_zero (by exact_mod_cast a)
  have big : ∀ {z : ℤ}, 99999 ≤ z → 99999 ≤ rn (z : ℚ) := fun {z} a => rn_ge hr top (by exact_mod_cast a)
  constructor
  · intro h
    rw [fix xx (by omega), fix yy (by omega), ← Int.cast_add, fix (by omega) (by omega)]
  · intro h
    rcases le_or_gt 99999 u with g | g
    · exact rn_ge hr top (by linarith [big g, pos yy])
    · rcases le_or_gt 99999 v with k | k
      · exact rn_ge hr top (by linarith [big k, pos xx])
      · rw [fix xx (by omega), fix yy (by omega), ← Int.cast_add]
        exact big h

theorem offs_near (d : CellDir) {a p : Pos} (h : d.offsPos a = some p) : p.1 ≤ a.1 + 1 ∧ p.2 ≤ a.2 + 1 := by
  have o : (d.asOffs a.1).1 ≤ 1 ∧ (d.asOffs a.1).2 ≤ 1 := by
    cases d <;> simp only [CellDir.asOffs] <;> (try split) <;> omega
  unfold CellDir.offsPos at h
  simp only at h
  split at h
  · cases h
    constructor <;> simp only <;> omega
  · cases h

/-- The accumulators of the two loops agree. -/
def Rel (x : ℚ × CellDir × Pos) (y : Int × CellDir × Pos) : Prop := x.1 = y.1 ∧ y.1 ≤ 99999 ∧ x.2 = y.2

theorem step_rel (hr : Nearest rn) {a b : Pos} (b1 : b.1 ≤ 2 ^ 24) (b2 : b.2 ≤ 2 ^ 24) (a1 : a.1 < 2 ^ 24) (a2 : a.2 < 2 ^ 24)
    {x : ℚ × CellDir × Pos} {y : Int × CellDir × Pos} (h : Rel x y) (e : Nat) :
    Rel (CellPathFloat.nearerStep rn a b x e) (CellDir.nearerStep a b y e) := by
  unfold CellPathFloat.nearerStep CellDir.nearerStep
  cases ho : (CellDir.ofEdge e).offsPos a with
  | none => exact h
  | some p =>
    obtain ⟨q1, q2⟩ := offs_near _ ho
    obtain ⟨s1, s2⟩ := dist_spec hr b1 b2 (p := p) (by omega) (by omega)
    obtain ⟨r1, r2, r3⟩ := h
    simp only
    rcases lt_or_ge (CellDir.sqDist b p) 99999 with g | g
    · have s := s1 g
      rw [s, r1]
      by_cases c : CellDir.sqDist b p < y.1
      · rw [if_pos c, if_pos (show ((CellDir.sqDist b p : ℤ) : ℚ) < y.1 by exact_mod_cast c)]
        exact ⟨rfl, g.le, rfl⟩
      · rw [if_neg c, if_neg (show ¬ ((CellDir.sqDist b p : ℤ) : ℚ) < y.1 by exact_mod_cast c)]
        exact ⟨r1, r2, r3⟩
    · have s := s2 g
      have y9 : (y.1 : ℚ) ≤ 99999 := by exact_mod_cast r2
      rw [if_neg (show ¬ CellPathFloat.dist rn b p < x.1 by rw [r1]; linarith), if_neg (show ¬ CellDir.sqDist b p < y.1 by omega)]
      exact ⟨r1, r2, r3⟩

theorem fold_rel (hr : Nearest rn) {a b : Pos} (b1 : b.1 ≤ 2 ^ 24) (b2 : b.2 ≤ 2 ^ 24) (a1 : a.1 < 2 ^ 24) (a2 : a.2 < 2 ^ 24) : ∀ (l : List Nat)
    {x : ℚ × CellDir × Pos} {y : Int × CellDir × Pos}, Rel x y → Rel (l.foldl (CellPathFloat.nearerStep rn a b) x) (l.foldl (CellDir.nearerStep a b) y)
  | [], _, _, h => h
  | e :: l, _, _, h => fold_rel hr b1 b2 a1 a2 l (step_rel hr b1 b2 a1 a2 h e)

theorem nearest_near (a b : Pos) (l : List Nat) : ∀ {y : Int × CellDir × Pos}, (y.2.2.1 ≤ a.1 + 1 ∧ y.2.2.2 ≤ a.2 + 1) →
    (l.foldl (CellDir.nearerStep a b) y).2.2.1 ≤ a.1 + 1 ∧ (l.foldl (CellDir.nearerStep a b) y).2.2.2 ≤ a.2 + 1 := by
  induction l with
  | nil => exact fun h => h
  | cons e l ih =>
    intro y h
    refine ih ?_
    unfold CellDir.nearerStep
    cases ho : (CellDir.ofEdge e).offsPos a with
    | none => exact h
    | some p =>
      simp only
      split
      · exact offs_near _ ho
      · exact h

theorem loop_same (hr : Nearest rn) {b : Pos} (b1 : b.1 ≤ 2 ^ 24) (b2 : b.2 ≤ 2 ^ 24) : ∀ (fuel : Nat) (a : Pos), a.1 + fuel ≤ 2 ^ 24 → a.2 + fuel ≤ 2 ^ 24 →
    CellPathFloat.pathLoop rn fuel a b = CellDir.pathLoop fuel a b
  | 0, _, _, _ => rfl
  | fuel + 1, a, h1, h2 => by
    unfold CellPathFloat.pathLoop CellDir.pathLoop
    have r : Rel (CellPathFloat.nearest rn a b) (CellDir.nearest a b) := fold_rel hr b1 b2 (by omega) (by omega) _ ⟨by norm_num, by norm_num, rfl⟩
    have n : (CellDir.nearest a b).2.2.1 ≤ a.1 + 1 ∧ (CellDir.nearest a b).2.2.2 ≤ a.2 + 1 := nearest_near a b _ ⟨by simp, by simp⟩
    obtain ⟨r1, r2, r3⟩ := r
    simp only [r1, r3]
    rw [loop_same hr b1 b2 fuel _ (by omega) (by omega)]
    have c : ((CellDir.nearest a b).1 : ℚ) < 99999 ↔ (CellDir.nearest a b).1 < 99999 := by exact_mod_cast Iff.rfl
    simp only [c]

/-- **C03** The path between two cells does not depend on rounding: computed with `f32` numbers it is the one computed with exact numbers, for all cells up to 16 million. -/
theorem same_path (hr : Nearest rn) {a b : Pos} (a1 : a.1 ≤ 2 ^ 24 - 1024) (a2 : a.2 ≤ 2 ^ 24 - 1024) (b1 : b.1 ≤ 2 ^ 24) (b2 : b.2 ≤ 2 ^ 24) :
    CellPathFloat.pathFromTo rn a b = CellDir.pathFromTo a b := loop_same hr b1 b2 1024 a (by omega) (by omega)

-- a path down two cells
example : ∃ rn, Nearest rn ∧ CellPathFloat.pathFromTo rn (3, 4) (3, 6) = [.B, .B] := by
  obtain ⟨rn, hr⟩ := nearest_exists
  exact ⟨rn, hr, (same_path hr (by norm_num) (by norm_num) (by norm_num) (by norm_num)).trans (by decide)⟩

end HexoDSP.CellPathFloatProps
