import Verif.Spec.Cutting
/-!
# Lemmas about cutting time into blocks
-/

namespace HexoDSP.Cutting

variable {S I O : Type}

/-- A block in two parts. -/
def Splits (f : Machine S I O) : Prop :=
  ∀ (s : S) (xs ys : List I), xs ≠ [] → ys ≠ [] →
    f s (xs ++ ys) = (f s xs).bind (fun r => (f r.1 ys).map (fun q => (q.1, r.2 ++ q.2)))

theorem play_one (f : Machine S I O) (s : S) (b : List I) : play f s [b] = f s b := by
  simp only [play]
  cases f s b with
  | none => rfl
  | some r => simp

theorem play_flatten {f : Machine S I O} (h : Splits f) : ∀ (bs : List (List I)) (b : List I) (s : S), b ≠ [] → (∀ c ∈ bs, c ≠ []) →
    play f s (b :: bs) = f s (b ++ bs.flatten)
  | [], b, s, _, _ => by rw [play_one]; simp
  | c :: bs, b, s, hb, hc => by
    have hc0 := hc c List.mem_cons_self
    have ih := play_flatten h bs c
    rw [List.flatten_cons, h s b (c ++ bs.flatten) hb (by simp [hc0])]
    rw [play.eq_2]
    cases f s b with
    | none => rfl
    | some r =>
      simp only [Option.bind_some]
      rw [ih r.1 hc0 (fun d hd => hc d (List.mem_cons_of_mem _ hd))]

theorem seamless_of_splits {f : Machine S I O} (h : Splits f) : Seamless f := by
  intro s fs bs cs hb hc
  cases bs with
  | nil =>
    cases cs with
    | nil => rfl
    | cons c cs =>
      have h0 := hc.2 c List.mem_cons_self
      have : (c :: cs).flatten = [] := by rw [hc.1, ← hb.1]; rfl
      simp [h0] at this
  | cons b bs =>
    cases cs with
    | nil =>
      have h0 := hb.2 b List.mem_cons_self
      have : (b :: bs).flatten = [] := by rw [hb.1, ← hc.1]; rfl
      simp [h0] at this
    | cons c cs =>
      rw [play_flatten h bs b s (hb.2 b List.mem_cons_self) (fun d hd => hb.2 d (List.mem_cons_of_mem _ hd)),
        play_flatten h cs c s (hc.2 c List.mem_cons_self) (fun d hd => hc.2 d (List.mem_cons_of_mem _ hd)),
        ← List.flatten_cons, ← List.flatten_cons, hb.1, hc.1]

/-- A loop over the frames, as in nearly every node. -/
theorem splits_of_loop {f : Machine S I O} (t : S → I → Option (S × O)) (h0 : ∀ s, f s [] = some (s, []))
    (h1 : ∀ s x xs, f s (x :: xs) = (t s x).bind (fun r => (f r.1 xs).map (fun q => (q.1, r.2 :: q.2)))) :
    ∀ (xs ys : List I) (s : S), f s (xs ++ ys) = (f s xs).bind (fun r => (f r.1 ys).map (fun q => (q.1, r.2 ++ q.2)))
  | [], ys, s => by simp [h0]
  | x :: xs, ys, s => by
    rw [List.cons_append, h1, h1]
    cases t s x with
    | none => rfl
    | some r =>
      simp only [Option.bind_some]
      rw [splits_of_loop t h0 h1 xs ys r.1]
      cases f r.1 xs with
      | none => rfl
      | some q =>
        simp only [Option.bind_some, Option.map_some]
        cases f q.1 ys with
        | none => rfl
        | some p => rfl

theorem seamless_of_loop {f : Machine S I O} (t : S → I → Option (S × O)) (h0 : ∀ s, f s [] = some (s, []))
    (h1 : ∀ s x xs, f s (x :: xs) = (t s x).bind (fun r => (f r.1 xs).map (fun q => (q.1, r.2 :: q.2)))) : Seamless f :=
  seamless_of_splits (fun s xs ys _ _ => splits_of_loop t h0 h1 xs ys s)

/-- The same for nodes that cannot panic. -/
theorem seamless_always {f : S → List I → S × List O} (t : S → I → S × O) (h0 : ∀ s, f s [] = (s, []))
    (h1 : ∀ s x xs, f s (x :: xs) = ((f (t s x).1 xs).1, (t s x).2 :: (f (t s x).1 xs).2)) : Seamless (always f) :=
  seamless_of_loop (fun s x => some (t s x)) (fun s => by simp [always, h0]) (fun s x xs => by simp [always, h1])

/-- A preparation before the loop that does nothing the second time. -/
theorem splits_prep {f : Machine S I O} (pre : S → S) (P : S → Prop) (hp : ∀ s, P (pre s)) (hP : ∀ s, P s → pre s = s)
    (hf : ∀ s xs ys, f s (xs ++ ys) = (f s xs).bind (fun r => (f r.1 ys).map (fun q => (q.1, r.2 ++ q.2))))
    (hk : ∀ s xs r, P s → f s xs = some r → P r.1) : Splits (fun s fs => f (pre s) fs) := by
  intro s xs ys _ _
  simp only
  rw [hf]
  cases h : f (pre s) xs with
  | none => rfl
  | some r =>
    simp only [Option.bind_some]
    rw [hP r.1 (hk _ _ _ (hp s) h)]

end HexoDSP.Cutting
