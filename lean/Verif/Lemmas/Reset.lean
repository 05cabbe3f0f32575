import Verif.Spec.Reset
/-! # When a reset forgets -/

namespace HexoDSP.Reset
variable {S B O : Type}

/-- Two nodes that answer a block alike. -/
def Both (R : S → S → Prop) : Option (S × O) → Option (S × O) → Prop
  | none, none => True
  | some (s, w), some (t, v) => w = v ∧ R s t
  | _, _ => False

theorem plays_bisim (m : Machine S B O) (R : S → S → Prop) (hb : ∀ s t b, R s t → Both R (m.block s b) (m.block t b))
    (hr : ∀ s t, R s t → R (m.reset s) (m.reset t)) (hs : ∀ s t r, R s t → R (m.rate s r) (m.rate t r)) :
    ∀ (es : List (Ev B)) (s t : S), R s t → m.plays s es = m.plays t es
  | [], _, _, _ => rfl
  | .reset :: es, s, t, h => plays_bisim m R hb hr hs es _ _ (hr s t h)
  | .rate r :: es, s, t, h => plays_bisim m R hb hr hs es _ _ (hs s t r h)
  | .block b :: es, s, t, h => by
    have e := hb s t b h
    simp only [Machine.plays, Machine.run]
    cases es1 : m.block s b with
    | none =>
      cases et1 : m.block t b with
      | none => rfl
      | some q => rw [es1, et1] at e; exact e.elim
    | some p =>
      cases et1 : m.block t b with
      | none => rw [es1, et1] at e; exact e.elim
      | some q =>
        rw [es1, et1] at e
        obtain ⟨hw, hR⟩ := e
        have := plays_bisim m R hb hr hs es p.1 q.1 hR
        simp only [Machine.plays] at this
        simp only
        rw [Option.map_map, Option.map_map]
        rw [show (Prod.snd ∘ fun r : S × List O => (r.1, p.2 :: r.2)) = (fun l => p.2 :: l) ∘ Prod.snd from rfl,
          show (Prod.snd ∘ fun r : S × List O => (r.1, q.2 :: r.2)) = (fun l => q.2 :: l) ∘ Prod.snd from rfl,
          ← Option.map_map, ← Option.map_map, this, hw]

theorem run_keeps (m : Machine S B O) (I : S → Option ℚ → Prop) (hb : ∀ s o b s' w, I s o → m.block s b = some (s', w) → I s' o)
    (hr : ∀ s o, I s o → I (m.reset s) o) (hs : ∀ s o r, I s o → I (m.rate s r) (some r)) :
    ∀ (es : List (Ev B)) (s : S) (o : Option ℚ) (s' : S) (w : List O), I s o → m.run s es = some (s', w) → I s' (lastRate o es)
  | [], s, o, s', w, h, e => by cases e; exact h
  | .reset :: es, s, o, s', w, h, e => run_keeps m I hb hr hs es _ _ _ _ (hr s o h) e
  | .rate r :: es, s, o, s', w, h, e => run_keeps m I hb hr hs es _ _ _ _ (hs s o r h) e
  | .block b :: es, s, o, s', w, h, e => by
    simp only [Machine.run] at e
    cases e1 : m.block s b with
    | none => rw [e1] at e; cases e
    | some p =>
      rw [e1] at e
      simp only at e
      cases e2 : m.run p.1 es with
      | none => rw [e2] at e; cases e
      | some q =>
        rw [e2] at e
        cases e
        exact run_keeps m I hb hr hs es _ _ _ _ (hb s o b p.1 p.2 h e1) e2

/-- `I` holds of a node and the sample rate it knows; `R` relates nodes that play alike. -/
theorem forgets_of (m : Machine S B O) (I : S → Option ℚ → Prop) (R : S → S → Prop) (h0 : I m.new none)
    (hb : ∀ s o b s' w, I s o → m.block s b = some (s', w) → I s' o)
    (hr : ∀ s o, I s o → I (m.reset s) o) (hs : ∀ s o r, I s o → I (m.rate s r) (some r))
    (hR : ∀ s o, I s o → R (m.reset s) (m.tell o))
    (bb : ∀ s t b, R s t → Both R (m.block s b) (m.block t b))
    (br : ∀ s t, R s t → R (m.reset s) (m.reset t)) (bs : ∀ s t r, R s t → R (m.rate s r) (m.rate t r)) : m.Forgets := by
  intro past s heard e future
  exact plays_bisim m R bb br bs future _ _ (hR s _ (run_keeps m I hb hr hs past m.new none s heard h0 e))

theorem both_eq (x : Option (S × O)) : Both Eq x x := by
  cases x with
  | none => trivial
  | some p => exact ⟨rfl, rfl⟩

theorem forgets_eq (m : Machine S B O) (I : S → Option ℚ → Prop) (h0 : I m.new none)
    (hb : ∀ s o b s' w, I s o → m.block s b = some (s', w) → I s' o)
    (hr : ∀ s o, I s o → I (m.reset s) o) (hs : ∀ s o r, I s o → I (m.rate s r) (some r))
    (hR : ∀ s o, I s o → m.reset s = m.tell o) : m.Forgets :=
  forgets_of m I Eq h0 hb hr hs hR (fun s t b h => by subst h; exact both_eq _) (fun s t h => by rw [h]) (fun s t r h => by rw [h])

end HexoDSP.Reset
