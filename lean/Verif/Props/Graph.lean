import Verif.Spec.Graph
import Mathlib.Tactic.Linarith
import Mathlib.Algebra.Order.Group.Unbundled.Abs
/-! **C114** The pictures of the nodes. -/

set_option linter.unusedSectionVars false

namespace HexoDSP.GraphProps
open Graph GraphSpec

variable {O : Type}

theorem index_bosc : index "bosc" "wtype" = some 3 ∧ index "bosc" "pw" = some 2 := by decide +kernel
theorem index_vosc : index "vosc" "v" = some 3 ∧ index "vosc" "vs" = some 4 ∧ index "vosc" "d" = some 2 ∧ index "vosc" "damt" = some 5 ∧
    index "vosc" "dist" = some 6 := by decide +kernel
theorem index_tslfo : index "tslfo" "time" = some 0 ∧ index "tslfo" "rev" = some 2 := by decide +kernel

/-- A function that never fails, stays among the states `Made`, and whose first point does not depend on the state. -/
structure Tame (f : Data → Bool → O → Option (O × ℚ)) (new : O) (Made : O → Prop) : Prop where
  made : Made new
  step : ∀ gd b o, Made o → ∃ r, f gd b o = some r ∧ Made r.1
  first : ∀ gd o, Made o → f gd true o = f gd true new

theorem Tame.points {f : Data → Bool → O → Option (O × ℚ)} {new : O} {Made : O → Prop} (h : Tame f new Made) (gd : Data) (k : Nat) : ∀ (b : Bool) (o : O), Made o →
    ∃ o' l, Graph.points f gd b o k = some (o', l) ∧ Made o' ∧ l.length = k := by
  induction k with
  | zero => intro b o ho; exact ⟨o, [], rfl, ho, rfl⟩
  | succ k ih =>
    intro b o ho
    obtain ⟨r, hr, hm⟩ := h.step gd b o ho
    obtain ⟨o', l, h1, h2, h3⟩ := ih false r.1 hm
    exact ⟨o', r.2 :: l, by unfold Graph.points; rw [hr, Option.bind_some, h1]; rfl, h2, by simp [h3]⟩

theorem Tame.same {f : Data → Bool → O → Option (O × ℚ)} {new : O} {Made : O → Prop} (h : Tame f new Made) (gd : Data) {k : Nat} (hk : 0 < k) {o : O} (ho : Made o) :
    Graph.points f gd true o k = Graph.points f gd true new k := by
  cases k with
  | zero => omega
  | succ k => unfold Graph.points; rw [h.first gd o ho]

theorem Tame.own {f : Data → Bool → O → Option (O × ℚ)} {new : O} {Made : O → Prop} (h : Tame f new Made) : OwnPicture f new := by
  have key : ∀ (before : List (Data × Nat)) (o : O), Made o → ∀ gd k, 0 < k →
      ∃ o1 o' l, pictures f o (before ++ [(gd, k)]) = some (o1, l) ∧ Graph.points f gd true new k = some (o', l) ∧ l.length = k := by
    intro before
    induction before with
    | nil =>
      intro o ho gd k hk
      obtain ⟨o', l, h1, -, h3⟩ := h.points gd k true o ho
      exact ⟨o', o', l, h1, by rw [← h.same gd hk ho]; exact h1, h3⟩
    | cons p ps ih =>
      intro o ho gd k hk
      obtain ⟨o', l, h1, h2, h3⟩ := h.points p.1 p.2 true o ho
      obtain ⟨o1, o2, l', h4, h5, h6⟩ := ih o' h2 gd k hk
      refine ⟨o1, o2, l', ?_, h5, h6⟩
      cases hl : ps ++ [(gd, k)] with
      | nil => simp at hl
      | cons q qs =>
        rw [List.cons_append, hl]
        unfold pictures
        rw [h1, Option.bind_some, ← hl]
        exact h4
  exact fun before gd k hk => key before new h.made gd k hk

theorem made_warmUp {E : Blep O} {Made : O → Prop} (h : BlepOK E Made) (k : Nat) : ∀ o, Made o → Made (warmUp E o k) := by
  induction k with
  | zero => intro o ho; exact ho
  | succ k ih => intro o ho; exact ih _ (h.tri _ _ _ ho)

/-- **C114** The picture of a band limited oscillator: whatever was drawn before and with whatever settings, it is drawn without a panic and shows the
present settings only. -/
theorem bosc_own {E : Blep O} {Made : O → Prop} (h : BlepOK E Made) : OwnPicture (bosc E) E.new := by
  refine Tame.own (Made := Made) ⟨h.new, fun gd b o ho => ?_, fun gd o ho => ?_⟩
  · unfold bosc
    rw [index_bosc.1, index_bosc.2]
    refine ⟨_, rfl, ?_⟩
    simp only
    have hm : Made (if b then (if ((gd.get 3).map TestNode.int).getD 0 = 1 then warmUp E (E.reset o) 256 else E.reset o) else o) := by
      split
      · split
        · exact made_warmUp h _ _ (h.reset _ ho)
        · exact h.reset _ ho
      · exact ho
    revert hm
    generalize (if b then (if ((gd.get 3).map TestNode.int).getD 0 = 1 then warmUp E (E.reset o) 256 else E.reset o) else o) = o1
    intro hm
    split
    · exact h.sin _ _ _ hm
    · split
      · exact h.tri _ _ _ hm
      · split
        · exact h.saw _ _ _ hm
        · split
          · exact h.pulseNoDc _ _ _ _ hm
          · exact h.pulse _ _ _ _ hm
  · unfold bosc
    rw [h.forget o ho]
    rfl

/-- **C114** The same for the vector phase shaping oscillator. -/
theorem vosc_own {E : Vps O} {Made : O → Prop} (h : VpsOK E Made) : OwnPicture (vosc E) E.new := by
  refine Tame.own (Made := Made) ⟨h.new, fun gd b o ho => ?_, fun gd o ho => ?_⟩
  · unfold vosc
    obtain ⟨i1, i2, i3, i4, i5⟩ := index_vosc
    rw [i1, i2, i3, i4, i5]
    refine ⟨_, rfl, ?_⟩
    simp only
    apply h.next
    split
    · exact h.reset _ ho
    · exact ho
  · unfold vosc
    rw [h.forget o ho]
    rfl

/-- **C114** The same for the low frequency oscillator. -/
theorem tslfo_own {E : Lfo O} {Made : O → Prop} (h : LfoOK E Made) : OwnPicture (tslfo E) (lfoNew E) := by
  refine Tame.own (Made := Made) ⟨h.new, fun gd b o ho => ?_, fun gd o ho => ?_⟩
  · unfold tslfo
    rw [index_tslfo.1, index_tslfo.2]
    cases b with
    | true => exact ⟨_, rfl, h.next _ (h.set _ _ _ ho)⟩
    | false => exact ⟨_, rfl, h.next _ ho⟩
  · unfold tslfo
    rw [index_tslfo.1, index_tslfo.2]
    simp only [if_true]
    rw [h.forget o _ _ ho]

/-- All points of all pictures satisfy what every point satisfies. -/
theorem points_all {f : Data → Bool → O → Option (O × ℚ)} {Q : ℚ → Prop} (hf : ∀ gd b o r, f gd b o = some r → Q r.2) (gd : Data) (k : Nat) :
    ∀ (b : Bool) (o o' : O) (l : List ℚ), points f gd b o k = some (o', l) → ∀ y ∈ l, Q y := by
  induction k with
  | zero => intro b o o' l h y hy; cases h; cases hy
  | succ k ih =>
    intro b o o' l h y hy
    unfold points at h
    cases hr : f gd b o with
    | none => rw [hr] at h; cases h
    | some r =>
      rw [hr, Option.bind_some] at h
      cases hp : points f gd false r.1 k with
      | none => rw [hp] at h; cases h
      | some q =>
        rw [hp] at h
        cases h
        rcases List.mem_cons.1 hy with e | e
        · rw [e]; exact hf gd b o r hr
        · exact ih false r.1 q.1 q.2 hp y e

/-- **C114** The picture of a band limited oscillator keeps a margin of a twentieth at the top and at the bottom. -/
theorem bosc_margin {E : Blep O} (h : BlepRange E) {gd : Data} {b : Bool} {o o' : O} {k : Nat} {l : List ℚ} (hp : points (bosc E) gd b o k = some (o', l)) :
    ∀ y ∈ l, 1/20 ≤ y ∧ y ≤ 19/20 := by
  refine points_all (Q := fun y => 1/20 ≤ y ∧ y ≤ 19/20) (fun gd b o r hr => ?_) gd k b o o' l hp
  unfold bosc at hr
  rw [index_bosc.1, index_bosc.2] at hr
  simp only [Option.some.injEq] at hr
  rw [← hr]
  have key : ∀ s : ℚ, |s| ≤ 1 → 1/20 ≤ (s + 1) * (1/2) * (9/10) + 1/20 ∧ (s + 1) * (1/2) * (9/10) + 1/20 ≤ 19/20 := by
    intro s hs
    obtain ⟨h1, h2⟩ := abs_le.1 hs
    constructor <;> linarith
  apply key
  split
  · exact h.sin _ _ _
  · split
    · exact h.tri _ _ _
    · split
      · exact h.saw _ _ _
      · split
        · exact h.pulseNoDc _ _ _ _
        · exact h.pulse _ _ _ _

/-- **C114** The picture of the vector phase shaping oscillator stays in the picture if its distortion stays between -1 and 1. -/
theorem vosc_inside {E : Vps O} (h : ∀ s a d, |E.distort s a d| ≤ 1) {gd : Data} {b : Bool} {o o' : O} {k : Nat} {l : List ℚ}
    (hp : points (vosc E) gd b o k = some (o', l)) : ∀ y ∈ l, 0 ≤ y ∧ y ≤ 1 := by
  refine points_all (Q := fun y => 0 ≤ y ∧ y ≤ 1) (fun gd b o r hr => ?_) gd k b o o' l hp
  unfold vosc at hr
  obtain ⟨i1, i2, i3, i4, i5⟩ := index_vosc
  rw [i1, i2, i3, i4, i5] at hr
  simp only [Option.some.injEq] at hr
  rw [← hr]
  obtain ⟨h1, h2⟩ := abs_le.1 (h ((E.next (if b then E.reset o else o) 1 (1/128) (clamp (gd.denorm 2) 0 1)
    (E.limitV (clamp (gd.denorm 2) 0 1) (clamp (gd.denorm 3) 0 1 + clamp (gd.denorm 4) 0 20))).2) (gd.denorm 5)
    ((((gd.get 6).map TestNode.int).getD 0) % 256).toNat)
  constructor <;> simp only <;> linarith

theorem lfoFreq {t : ℚ} (h0 : 0 ≤ t) (h1 : t ≤ 1) : 1 ≤ 5 * (1 - t) + t * 1 ∧ 5 * (1 - t) + t * 1 ≤ 5 := by
  constructor <;> linarith

/-- **C114** The first point of the picture of the low frequency oscillator is that of an oscillator that was just reset and set to the present skew and to
a frequency between 1 and 5; the longer the time, the lower the frequency. -/
theorem tslfo_first {E : Lfo O} (hs : ∀ x, 0 ≤ x → x ≤ 1 → 0 ≤ E.sqrt x ∧ E.sqrt x ≤ 1) (hmono : ∀ x y, 0 ≤ x → x < y → E.sqrt x < E.sqrt y) (gd : Data)
    (h0 : 0 ≤ gd.norm 0) (h1 : gd.norm 0 ≤ 1) (o : O) :
    ∃ freq, tslfo E gd true o = some (E.next (E.set (E.reset o) freq (gd.norm 2))) ∧ 1 ≤ freq ∧ freq ≤ 5 ∧
      ∀ gd' : Data, gd.norm 0 < gd'.norm 0 → ∃ freq', tslfo E gd' true o = some (E.next (E.set (E.reset o) freq' (gd'.norm 2))) ∧ freq' < freq := by
  obtain ⟨s0, s1⟩ := hs _ h0 h1
  refine ⟨5 * (1 - E.sqrt (gd.norm 0)) + E.sqrt (gd.norm 0) * 1, ?_, (lfoFreq s0 s1).1, (lfoFreq s0 s1).2, fun gd' hlt => ?_⟩
  · unfold tslfo; rw [index_tslfo.1, index_tslfo.2]; rfl
  · refine ⟨5 * (1 - E.sqrt (gd'.norm 0)) + E.sqrt (gd'.norm 0) * 1, ?_, ?_⟩
    · unfold tslfo; rw [index_tslfo.1, index_tslfo.2]; rfl
    · have := hmono _ _ h0 hlt
      linarith

/-! ## Examples -/

/-- A counter for an oscillator: it starts at 0 and steps by a quarter. -/
def exBlep : Blep ℚ := ⟨0, fun _ => 0, fun o _ _ => (o, 0), fun o _ _ => (o, 1), fun o _ _ => (if o < 1 then o + 1/4 else 0, if |o| ≤ 1 then o else 0),
  fun o _ _ _ => (o, -1), fun o _ _ _ => (o, 1/2)⟩
def exData (w : Int) : Data := ⟨fun _ => some (.setting w), fun _ => 1/2, fun _ => 1/4⟩

example : BlepOK exBlep (fun _ => True) := by
  constructor <;> intros <;> trivial
example : BlepRange exBlep := by
  constructor
  · intro o f i; simp [exBlep]
  · intro o f i; simp [exBlep]
  · intro o f i
    simp only [exBlep]
    split
    · assumption
    · simp
  · intro o f i w; simp [exBlep]
  · intro o f i w; simp only [exBlep]; rw [abs_of_pos] <;> norm_num

/-- A saw, a triangle and a saw again are drawn: the second saw is drawn like the first. -/
example : (pictures (bosc exBlep) exBlep.new [(exData 2, 3)]).map Prod.snd = some [1/2, 49/80, 29/40] ∧
    (pictures (bosc exBlep) exBlep.new [(exData 2, 2), (exData 1, 2), (exData 2, 3)]).map Prod.snd = some [1/2, 49/80, 29/40] := by decide +kernel

def exVps : Vps ℚ := ⟨0, fun _ => 0, fun _ v => v, fun o _ _ d v => (o + 1/4, d + v + o), fun s a _ => if |s * a| ≤ 1 then s * a else 0⟩
example : VpsOK exVps (fun _ => True) ∧ ∀ s a d, |exVps.distort s a d| ≤ 1 := by
  refine ⟨by constructor <;> intros <;> trivial, fun s a d => ?_⟩
  simp only [exVps]
  split
  · assumption
  · simp

def exLfo : Lfo (ℚ × ℚ) := ⟨(0, 0), fun o _ => o, fun o => (0, o.2), fun o f _ => (o.1, f), fun o => ((o.1 + o.2, o.2), o.1), fun x => x⟩
example : LfoOK exLfo (fun _ => True) ∧ (∀ x, 0 ≤ x → x ≤ 1 → 0 ≤ exLfo.sqrt x ∧ exLfo.sqrt x ≤ 1) ∧ (∀ x y, 0 ≤ x → x < y → exLfo.sqrt x < exLfo.sqrt y) :=
  ⟨by constructor <;> intros <;> trivial, fun x h0 h1 => ⟨h0, h1⟩, fun x y _ h => h⟩

end HexoDSP.GraphProps
