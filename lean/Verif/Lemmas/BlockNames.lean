import Verif.Spec.BlockRun
/-! The names that the compiler makes are all different. -/

set_option linter.dupNamespace false

namespace HexoDSP.Block

theorem toString_nat_inj {n m : Nat} (h : Nat.toDigits 10 n = Nat.toDigits 10 m) : n = m := by
  have h1 := Nat.ofDigitChars_toDigits (b := 10) (n := n) (by decide) (by decide)
  have h2 := Nat.ofDigitChars_toDigits (b := 10) (n := m) (by decide) (by decide)
  rw [h] at h1
  exact h1.symm.trans h2

theorem toList_toString (n : Nat) : (toString n).toList = Nat.toDigits 10 n := by
  rw [← Nat.toList_repr]; rfl

/-- Digits up to the first other character. -/
theorem split_digits {n m : Nat} {c : Char} (hc : c.isDigit = false) {l l' : List Char}
    (h : Nat.toDigits 10 n ++ c :: l = Nat.toDigits 10 m ++ c :: l') : n = m ∧ l = l' := by
  have key : ∀ (d d' : List Char), (∀ x ∈ d, x.isDigit = true) → (∀ x ∈ d', x.isDigit = true) → d ++ c :: l = d' ++ c :: l' →
      d = d' ∧ l = l' := by
    intro d
    induction d with
    | nil =>
      intro d' _ h2 he
      cases d' with
      | nil => simp only [List.nil_append, List.cons.injEq, true_and] at he; exact ⟨rfl, he⟩
      | cons x d' =>
        simp only [List.nil_append, List.cons_append, List.cons.injEq] at he
        have := h2 x List.mem_cons_self
        rw [← he.1, hc] at this
        cases this
    | cons y d ih =>
      intro d' h1 h2 he
      cases d' with
      | nil =>
        simp only [List.nil_append, List.cons_append, List.cons.injEq] at he
        have := h1 y List.mem_cons_self
        rw [he.1, hc] at this
        cases this
      | cons x d' =>
        simp only [List.cons_append, List.cons.injEq] at he
        obtain ⟨h3, h4⟩ := ih d' (fun z hz => h1 z (List.mem_cons_of_mem _ hz)) (fun z hz => h2 z (List.mem_cons_of_mem _ hz)) he.2
        exact ⟨by rw [he.1, h3], h4⟩
  obtain ⟨h1, h2⟩ := key _ _ (fun x hx => Nat.isDigit_of_mem_toDigits (by decide) (by decide) hx)
    (fun x hx => Nat.isDigit_of_mem_toDigits (by decide) (by decide) hx) h
  exact ⟨toString_nat_inj h1, h2⟩

theorem toList_tmpName (n : Nat) (e : String) :
    (tmpName n e).toList = '_' :: 't' :: 'm' :: 'p' :: (Nat.toDigits 10 n ++ '_' :: (e.toList ++ ['_'])) := by
  unfold tmpName
  simp only [String.toList_append, toList_toString]
  simp

theorem tmpName_inj {n m : Nat} {e e' : String} (h : tmpName n e = tmpName m e') : n = m := by
  have := congrArg String.toList h
  rw [toList_tmpName, toList_tmpName] at this
  simp only [List.cons.injEq, true_and] at this
  exact (split_digits (by decide) this).1

theorem idout_inj {n m : Nat} {e e' : String} (h : idout n e = idout m e') : n = m ∧ e = e' := by
  have := congrArg String.toList h
  unfold idout at this
  simp only [String.toList_append, toList_toString, List.append_assoc] at this
  have e1 : "/".toList = ['/'] := rfl
  rw [e1, List.singleton_append, List.singleton_append] at this
  obtain ⟨h1, h2⟩ := split_digits (by decide) this
  exact ⟨h1, String.toList_injective h2⟩

theorem percent_inj {n m : Nat} (h : "%" ++ toString n = "%" ++ toString m) : n = m := by
  have := congrArg String.toList h
  simp only [String.toList_append, toList_toString] at this
  exact toString_nat_inj (List.append_cancel_left this)

theorem percent_head (n : Nat) : ("%" ++ toString n).toList.head? = some '%' := by
  simp [String.toList_append]

theorem tmpName_head (n : Nat) (e : String) : (tmpName n e).toList.head? = some '_' := by
  rw [toList_tmpName]; rfl

theorem tmpName_ne_res (n : Nat) (e : String) : tmpName n e ≠ "_res_" := by
  intro h
  have := congrArg String.toList h
  rw [toList_tmpName] at this
  have e1 : "_res_".toList = ['_', 'r', 'e', 's', '_'] := rfl
  rw [e1] at this
  simp at this

theorem res_head : "_res_".toList.head? = some '_' := rfl

end HexoDSP.Block
