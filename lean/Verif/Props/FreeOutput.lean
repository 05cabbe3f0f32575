import Verif.Spec.FreeOutput
/-! The last free output of an area. -/

namespace HexoDSP.FreeOutputProps
open HexoDSP.Block FreeOutputSpec

/-- What holds of the variables after the ports `P`. -/
structure Inv (a : Area) (P : Int → Int → Prop) (s : Best) : Prop where
  some : ∀ x y n, s.port = some (x, y, n) → x = s.maxX ∧ y = s.maxY ∧ Free a x y n ∧ Later x y 0 0
  none : s.port = none → s.maxX = 0 ∧ s.maxY = 0
  max : ∀ x y, P x y → NotBefore s.maxX s.maxY x y

theorem inv_port {a : Area} {P : Int → Int → Prop} {s : Best} (h : Inv a P s) {p : Pos} {b : Block} (hb : (p, b) ∈ a.blocks) {row : Nat}
    (hr : row ∈ b.outputRows) :
    Inv a (fun x y => P x y ∨ (x = p.1 ∧ y = p.2 + (row : Int) ∧ a.findPortAt (x + 1, y) false = none)) (a.bestPort p b s row) := by
  simp only [Block.outputRows, List.mem_filter, List.mem_range] at hr
  obtain ⟨hrow, hsome⟩ := hr
  obtain ⟨name, hname⟩ := Option.isSome_iff_exists.1 hsome
  have horig : Later s.maxX s.maxY 0 0 ∨ (s.maxX = 0 ∧ s.maxY = 0) := by
    cases hp : s.port with
    | none => exact Or.inr (h.none hp)
    | some t =>
      obtain ⟨x, y, n⟩ := t
      obtain ⟨h1, h2, -, h3⟩ := h.some x y n hp
      rw [← h1, ← h2]; exact Or.inl h3
  unfold Area.bestPort
  simp only
  split
  · rename_i hf
    have hf' : a.findPortAt (p.1 + 1, p.2 + (row : Int)) false = none := by simpa using hf
    have hfree : Free a p.1 (p.2 + (row : Int)) ((b.outputs.getD row none).getD "") := by
      rw [hname]
      exact ⟨p, b, hb, row, hrow, hname, rfl, rfl, hf'⟩
    split
    · rename_i hy
      refine ⟨?_, fun h => by simp at h, ?_⟩
      · intro x y n e
        simp only [Option.some.injEq, Prod.mk.injEq] at e
        obtain ⟨rfl, rfl, rfl⟩ := e
        refine ⟨rfl, rfl, hfree, ?_⟩
        unfold Later at horig ⊢
        omega
      · rintro x y (hP | ⟨rfl, rfl, -⟩)
        · have := h.max x y hP
          unfold NotBefore at this ⊢
          simp only
          omega
        · exact Or.inr ⟨rfl, Int.le_refl _⟩
    · rename_i hy
      split
      · rename_i hx
        have hm : s.maxY = p.2 + (row : Int) := hx.1.symm
        refine ⟨?_, fun h => by simp at h, ?_⟩
        · intro x y n e
          simp only [Option.some.injEq, Prod.mk.injEq] at e
          obtain ⟨rfl, rfl, rfl⟩ := e
          refine ⟨rfl, rfl, by rw [hm]; exact hfree, ?_⟩
          unfold Later at horig ⊢
          omega
        · rintro x y (hP | ⟨rfl, rfl, -⟩)
          · have := h.max x y hP
            unfold NotBefore at this ⊢
            simp only
            omega
          · exact Or.inr ⟨hx.1, Int.le_refl _⟩
      · rename_i hx
        refine ⟨h.some, h.none, ?_⟩
        rintro x y (hP | ⟨rfl, rfl, -⟩)
        · exact h.max x y hP
        · unfold NotBefore; omega
  · rename_i hf
    refine ⟨h.some, h.none, ?_⟩
    rintro x y (hP | ⟨rfl, rfl, hn⟩)
    · exact h.max x y hP
    · exact absurd (by simp [hn]) hf

theorem inv_rows {a : Area} {p : Pos} {b : Block} (hb : (p, b) ∈ a.blocks) (rows : List Nat) (hsub : ∀ r ∈ rows, r ∈ b.outputRows) :
    ∀ {P : Int → Int → Prop} {s : Best}, Inv a P s →
    Inv a (fun x y => P x y ∨ ∃ row ∈ rows, x = p.1 ∧ y = p.2 + (row : Int) ∧ a.findPortAt (x + 1, y) false = none) (rows.foldl (a.bestPort p b) s) := by
  induction rows with
  | nil =>
    intro P s h
    exact ⟨h.some, h.none, fun x y hp => hp.elim (h.max x y) (fun ⟨_, hr, _⟩ => absurd hr (by simp))⟩
  | cons r rs ih =>
    intro P s h
    have h2 := ih (fun r' hr' => hsub r' (by simp [hr'])) (inv_port h hb (hsub r (by simp)))
    refine ⟨h2.some, h2.none, fun x y hp => h2.max x y ?_⟩
    rcases hp with hp | ⟨r', hr', h3⟩
    · exact Or.inl (Or.inl hp)
    · rcases List.mem_cons.1 hr' with rfl | hr'
      · exact Or.inl (Or.inr h3)
      · exact Or.inr ⟨r', hr', h3⟩

theorem inv_blocks {a : Area} (l : List (Pos × Block)) (hsub : ∀ e ∈ l, e ∈ a.blocks) : ∀ {P : Int → Int → Prop} {s : Best}, Inv a P s →
    Inv a (fun x y => P x y ∨ ∃ e ∈ l, ∃ row ∈ e.2.outputRows, x = e.1.1 ∧ y = e.1.2 + (row : Int) ∧ a.findPortAt (x + 1, y) false = none)
      (a.bestBlocks s l) := by
  unfold Area.bestBlocks
  induction l with
  | nil =>
    intro P s h
    exact ⟨h.some, h.none, fun x y hp => hp.elim (h.max x y) (fun ⟨_, hr, _⟩ => absurd hr (by simp))⟩
  | cons e es ih =>
    intro P s h
    have h2 := ih (fun e' he' => hsub e' (by simp [he'])) (inv_rows (hsub e (by simp)) e.2.outputRows (fun _ h => h) h)
    refine ⟨h2.some, h2.none, fun x y hp => h2.max x y ?_⟩
    rcases hp with hp | ⟨e', he', h3⟩
    · exact Or.inl (Or.inl hp)
    · rcases List.mem_cons.1 he' with rfl | he'
      · exact Or.inl (Or.inr h3)
      · exact Or.inr ⟨e', he', h3⟩

theorem inv_all (a : Area) : Inv a (fun x y => ∃ n, Free a x y n) (a.bestBlocks ⟨0, 0, none⟩ a.blocks) := by
  have h0 : Inv a (fun _ _ => False) ⟨0, 0, none⟩ := ⟨fun _ _ _ h => by simp at h, fun _ => ⟨rfl, rfl⟩, fun _ _ h => h.elim⟩
  have h := inv_blocks a.blocks (fun _ h => h) h0
  refine ⟨h.some, h.none, fun x y ⟨n, p, b, hb, row, hr, hn, hx, hy, hf⟩ => h.max x y (Or.inr ⟨(p, b), hb, row, ?_, hx.symm, hy.symm, hf⟩)⟩
  simp only [Block.outputRows, List.mem_filter, List.mem_range]
  exact ⟨hr, by rw [hn]; rfl⟩

/-- **C110** What is found is a free output, with its name, and there is none further down, nor further to the right in its row. The order in which the
blocks are looked at makes no difference. -/
theorem found_is_last (a : Area) (x y : Int) (n : String) (h : a.findLastUnconnectedOutput = some (x, y, n)) :
    Free a x y n ∧ ∀ x' y' n', Free a x' y' n' → NotBefore x y x' y' := by
  have hi := inv_all a
  obtain ⟨h1, h2, h3, -⟩ := hi.some x y n h
  refine ⟨h3, fun x' y' n' hf => ?_⟩
  rw [h1, h2]
  exact hi.max x' y' ⟨n', hf⟩

/-- **C110** Something is found exactly if there is a free output below the first row, or in the first row to the right of the first column. -/
theorem found_iff_partial (a : Area) : a.findLastUnconnectedOutput ≠ none ↔ ∃ x y n, Free a x y n ∧ Later x y 0 0 := by
  have hi := inv_all a
  constructor
  · intro h
    cases hp : a.findLastUnconnectedOutput with
    | none => exact absurd hp h
    | some t =>
      obtain ⟨x, y, n⟩ := t
      obtain ⟨-, -, h3, h4⟩ := hi.some x y n hp
      exact ⟨x, y, n, h3, h4⟩
  · rintro ⟨x, y, n, hf, hl⟩ hnone
    obtain ⟨h1, h2⟩ := hi.none hnone
    have := hi.max x y ⟨n, hf⟩
    rw [h1, h2] at this
    unfold NotBefore at this
    unfold Later at hl
    omega

/-- A block with one output. -/
def exB : Block := { id := 1, rows := 1, contains := (none, none), expanded := true, typ := "value", lbl := "1", inputs := [none], outputs := [some ""], color := 0 }

/-- **C110** The free output of a block in the first slot is not found. -/
theorem first_slot_overlooked : Free ((Area.new 4 4).setBlockAt (0, 0) exB) 0 0 "" ∧
    ((Area.new 4 4).setBlockAt (0, 0) exB).findLastUnconnectedOutput = none := by
  refine ⟨⟨(0, 0), exB, by decide +kernel, 0, by decide, rfl, rfl, rfl, by decide +kernel⟩, by decide +kernel⟩

example : (((Area.new 4 4).setBlockAt (0, 0) exB).setBlockAt (1, 2) exB).findLastUnconnectedOutput = some (1, 2, "") := by decide +kernel
example : (((Area.new 4 4).setBlockAt (0, 2) exB).setBlockAt (1, 2) { exB with inputs := [some "a"], outputs := [some "x"] }).findLastUnconnectedOutput = some (1, 2, "x") := by decide +kernel

end HexoDSP.FreeOutputProps
