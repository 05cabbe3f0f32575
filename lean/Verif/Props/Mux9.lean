import Verif.Spec.Mux9
import Mathlib.Tactic.Linarith
import Mathlib.Tactic.FieldSimp
import Mathlib.Tactic.Ring
/-!
# The multiplexer (C47)
-/

set_option linter.unusedSectionVars false

namespace HexoDSP.Mux9Props
open HexoDSP.Mux HexoDSP.Mux9Spec

variable {T : Type}

theorem triggerStep_spec (check : T → ℚ → Bool × T) (n : Nat) (h1 : 1 ≤ n) (h2 : n ≤ 128) (s : Mux9 T) (hs : s.idx < n) (f : Frame) :
    ∃ s', triggerStep check n s f = some s' ∧ s'.idx < n ∧ s'.rst = (check s.rst f.rst).2 ∧ s'.up = (check s.up f.up).2 ∧
      s'.down = (check s.down f.down).2 ∧
      (s'.idx : Int) = move n s.idx (check s.rst f.rst).1 (check s.up f.up).1 (check s.down f.down).1 := by
  have key : ∀ i : Nat, i < n → ∃ j : Nat, j < n ∧ (if (check s.up f.up).1 then (addU8 i 1).map (fun x => x % n) else some i) = some j ∧
      (j : Int) = if (check s.up f.up).1 then ((i : Int) + 1) % n else i := by
    intro i hi
    cases (check s.up f.up).1 with
    | false => exact ⟨i, hi, by simp, by simp⟩
    | true => exact ⟨(i + 1) % n, Nat.mod_lt _ h1, by simp [addU8]; omega, by simp⟩
  have key2 : ∀ i : Nat, i < n → ∃ j : Nat, j < n ∧ (if (check s.down f.down).1 then (addU8 i n).map (fun x => (x - 1) % n) else some i) = some j ∧
      (j : Int) = if (check s.down f.down).1 then ((i : Int) - 1) % n else i := by
    intro i hi
    cases (check s.down f.down).1 with
    | false => exact ⟨i, hi, by simp, by simp⟩
    | true =>
      refine ⟨(i + n - 1) % n, Nat.mod_lt _ h1, by simp [addU8]; omega, ?_⟩
      simp only [if_true]
      have : ((i + n - 1 : Nat) : Int) = (i : Int) - 1 + n := by omega
      rw [Int.natCast_mod, this, Int.add_emod_right]
  obtain ⟨i0, hi0, e0⟩ : ∃ i0 : Nat, i0 < n ∧ (if (check s.rst f.rst).1 then 0 else s.idx) = i0 := by
    cases (check s.rst f.rst).1
    · exact ⟨s.idx, hs, rfl⟩
    · exact ⟨0, h1, rfl⟩
  obtain ⟨i1, hi1, e1, m1⟩ := key i0 hi0
  obtain ⟨i2, hi2, e2, m2⟩ := key2 i1 hi1
  refine ⟨_, by simp only [triggerStep, e0, e1, e2]; rfl, hi2, rfl, rfl, rfl, ?_⟩
  simp only [move]
  rw [m2, m1]
  have e0' : (if (check s.rst f.rst).1 = true then (0 : Int) else (s.idx : Int)) = i0 := by
    rw [← e0]; split <;> rfl
  rw [e0']

theorem triggerFrames_spec (check : T → ℚ → Bool × T) (n : Nat) (h1 : 1 ≤ n) (h2 : n ≤ 128) (fs : List Frame) : ∀ (s : Mux9 T), s.idx < n →
    ∃ o s', triggerFrames check n s fs = some (o, s') ∧ s'.idx < n ∧
      o = (fs.zip (positions n s.idx ((fires check s.rst (fs.map Frame.rst)).zip
        ((fires check s.up (fs.map Frame.up)).zip (fires check s.down (fs.map Frame.down)))))).map (fun x => x.1.pick x.2.toNat) := by
  induction fs with
  | nil => intro s hs; exact ⟨[], s, rfl, hs, rfl⟩
  | cons f fs ih =>
    intro s hs
    obtain ⟨s1, e1, l1, r1, u1, d1, m1⟩ := triggerStep_spec check n h1 h2 s hs f
    obtain ⟨o, s2, e2, l2, ho⟩ := ih s1 l1
    refine ⟨f.pick s1.idx :: o, s2, by simp only [triggerFrames, e1, e2, Option.map_some], l2, ?_⟩
    simp only [List.map_cons, fires, List.zip_cons_cons, positions]
    rw [← m1, ho, r1, u1, d1]
    simp

theorem positions_range (n : Nat) (h1 : 1 ≤ n) (l : List (Bool × Bool × Bool)) : ∀ (p : Int), 0 ≤ p → p < n →
    ∀ q ∈ positions n p l, 0 ≤ q ∧ q < n := by
  induction l with
  | nil => intro p _ _ q hq; simp [positions] at hq
  | cons x l ih =>
    intro p h0 hn q hq
    obtain ⟨r, u, d⟩ := x
    have hm : 0 ≤ move n p r u d ∧ move n p r u d < n := by
      simp only [move]
      have hpos : (0 : Int) < n := by omega
      have a : ∀ y : Int, 0 ≤ y % n ∧ y % n < n := fun y => ⟨Int.emod_nonneg _ (by omega), Int.emod_lt_of_pos _ hpos⟩
      cases d
      · cases u
        · cases r <;> simp <;> omega
        · simpa using a _
      · simpa using a _
    simp only [positions, List.mem_cons] at hq
    rcases hq with rfl | hq
    · exact hm
    · exact ih _ hm.1 hm.2 q hq

/-- **C47** With `in_cnt` set to `c` (0 to 8, `c + 1` inputs) and `slct` not connected, for every state, triggers and inputs: nothing
panics and each frame outputs the input at the position that results from the triggers fired so far: reset goes to the first, up and
down step cyclically through the `c + 1` inputs. The position at the start of the block is the old one, reduced to the inputs in use. -/
theorem triggers_select (check : T → ℚ → Bool × T) (s : Mux9 T) (c : Nat) (hc : c ≤ 8) (mask : Nat) (hm : mask.testBit 0 = false) (fs : List Frame) :
    ∃ o s', s.process check c mask fs = some (o, s') ∧ s'.idx < c + 1 ∧
      o = (fs.zip (positions (c + 1) ((s.idx : Int) % ((c : Int) + 1)) ((fires check s.rst (fs.map Frame.rst)).zip
        ((fires check s.up (fs.map Frame.up)).zip (fires check s.down (fs.map Frame.down)))))).map (fun x => x.1.ins x.2.toNat) ∧
      ∀ q ∈ positions (c + 1) ((s.idx : Int) % ((c : Int) + 1)) ((fires check s.rst (fs.map Frame.rst)).zip
        ((fires check s.up (fs.map Frame.up)).zip (fires check s.down (fs.map Frame.down)))), 0 ≤ q ∧ q < (c : Int) + 1 := by
  have hmax : addU8 ((c : Int) % 256).toNat 1 = some (c + 1) := by
    have : ((c : Int) % 256).toNat = c := by omega
    rw [this, addU8, if_pos (by omega)]
  have hm' : ¬ (mask &&& 1 = 1) := by
    rw [Nat.and_one_is_mod]
    rw [Nat.testBit_zero] at hm
    simpa using hm
  obtain ⟨o, s', e, l, ho⟩ := triggerFrames_spec check (c + 1) (by omega) (by omega) fs { s with idx := s.idx % (c + 1) } (Nat.mod_lt _ (by omega))
  have hrange := positions_range (c + 1) (by omega) ((fires check s.rst (fs.map Frame.rst)).zip
        ((fires check s.up (fs.map Frame.up)).zip (fires check s.down (fs.map Frame.down)))) ((s.idx : Int) % ((c : Int) + 1))
        (Int.emod_nonneg _ (by omega)) (by have := Int.emod_lt_of_pos (s.idx : Int) (show (0 : Int) < (c : Int) + 1 by omega); omega)
  refine ⟨o, s', by simp only [Mux9.process, hmax, if_neg hm', e], l, ?_, ?_⟩
  · rw [ho]
    have e2 : ((s.idx % (c + 1) : Nat) : Int) = (s.idx : Int) % ((c : Int) + 1) := by simp
    simp only [e2]
    apply List.map_congr_left
    intro x hx
    have := hrange x.2 (List.of_mem_zip hx).2
    simp only [Frame.pick]
    congr 1
    omega
  · intro q hq
    have := hrange q hq
    omega

theorem selectFrames_out (n : Nat) (fs : List Frame) : ∀ s : Mux9 T, (selectFrames n s fs).1 = fs.map (fun f => f.pick (selectIdx n f.slct)) := by
  induction fs with
  | nil => intro s; rfl
  | cons f fs ih => intro s; simp only [selectFrames, ih, List.map_cons]

/-- **C47** With `slct` connected each frame outputs one of the `c + 1` inputs in use, whatever the signal; -/
theorem slct_selects (check : T → ℚ → Bool × T) (s : Mux9 T) (c : Nat) (hc : c ≤ 8) (mask : Nat) (hm : mask.testBit 0 = true) (fs : List Frame) :
    ∃ s', s.process check c mask fs = some (fs.map (fun f => f.ins (selectIdx (c + 1) f.slct)), s') ∧
      ∀ f ∈ fs, selectIdx (c + 1) f.slct < c + 1 := by
  have hmax : addU8 ((c : Int) % 256).toNat 1 = some (c + 1) := by
    have : ((c : Int) % 256).toNat = c := by omega
    rw [this, addU8, if_pos (by omega)]
  have hm' : mask &&& 1 = 1 := by
    rw [Nat.and_one_is_mod]
    rw [Nat.testBit_zero] at hm
    simpa using hm
  refine ⟨(selectFrames (c + 1) { s with idx := s.idx % (c + 1) } fs).2, ?_, ?_⟩
  · simp only [Mux9.process, hmax, if_pos hm']
    congr 1
    refine Prod.ext ?_ rfl
    rw [selectFrames_out]
    apply List.map_congr_left
    intro f _
    simp only [Frame.pick]
    congr 1
    have : selectIdx (c + 1) f.slct < c + 1 := Nat.mod_lt _ (by omega)
    omega
  · intro f _
    exact Nat.mod_lt _ (by omega)

/-- and the range from 0 to 1 (shifted by 0.00001) is divided evenly among the inputs. -/
theorem slct_divides_range (n k : Nat) (hn : n ≤ 9) (hk : k < n) (x : ℚ) (h1 : (k : ℚ) / n + 1 / 100000 ≤ x) (h2 : x < ((k : ℚ) + 1) / n + 1 / 100000) :
    selectIdx n x = k := by
  have hn0 : (0 : ℚ) < n := by exact_mod_cast (by omega : 0 < n)
  have hf : ⌊(n : ℚ) * (x - 1 / 100000)⌋ = (k : Int) := by
    rw [Int.floor_eq_iff]
    constructor
    · have : (k : ℚ) / n ≤ x - 1 / 100000 := by linarith
      rw [div_le_iff₀ hn0] at this
      push_cast
      linarith
    · have : x - 1 / 100000 < ((k : ℚ) + 1) / n := by linarith
      rw [lt_div_iff₀ hn0] at this
      push_cast
      linarith
  unfold selectIdx satU8
  rw [hf, Int.toNat_natCast, Nat.min_eq_left (by omega), Nat.mod_eq_of_lt hk]

/-- **C47** (negation for settings out of range) A count setting of 255 panics. -/
theorem bad_count_panics (check : T → ℚ → Bool × T) (s : Mux9 T) (mask : Nat) (fs : List Frame) :
    s.process check 255 mask fs = none := rfl

/-- A step up from the last of four inputs wraps around to the first, one down comes back. -/
example : (Mux9.process (fun (_ : Unit) x => (decide (x > 3 / 4), ())) { rst := (), up := (), down := (), idx := 3 } 3 0
    [⟨0, 0, 1, 0, fun i => i⟩, ⟨0, 0, 0, 1, fun i => i⟩, ⟨0, 1, 0, 0, fun i => i⟩]).map (fun r => r.1) = some [0, 3, 0] := by
  decide +kernel

/-- The middle of the range selects the third of five inputs. -/
example : selectIdx 5 (1 / 2) = 2 := by decide +kernel

end HexoDSP.Mux9Props
