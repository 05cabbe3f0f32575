import Verif.Lemmas.RustNode

/-!
**C96** — code the application hands to a `Rust1x1` node.
-/

namespace HexoDSP.RustNodeProps

open HexoDSP.RustNode

variable {Code In Out : Type}

/-- What the `n`-th node gives for one more block after a history. -/
def next (L : Lang Code In Out) (es : List (Ev Code In)) (n : Nat) (i : In) : Option Out :=
  ((World.run L (World.init L) es).1.block L n i).2

/-- **C96** After any history, in whatever order the application sends code, makes nodes anew and
the audio thread runs them: a node that has been made is run with the code it received last, in the
state that code has after the blocks it has been run for since, and with code that gives silence if
it never received any. -/
theorem sounds (L : Lang Code In Out) (es : List (Ev Code In)) (n : Nat) (i : In)
    (hn : n < (makes es).length) :
    next L es n i =
      let p := playing (makes es) n 0 ⟨L.dummy, []⟩ es
      some (L.process (after L p.code p.ins) i).2 := by
  have h := inv_run (L := L) (M := makes es) es (inv_init L _) (fun n id h => by simpa using h)
  simp only [Nat.zero_add] at h
  have hl : n < (World.run L (World.init L) es).1.nodes.length := by rw [h.len]; exact hn
  have hb : (World.run L (World.init L) es).1.nodes[n]? =
      some ((World.run L (World.init L) es).1.nodes[n]) := List.getElem?_eq_getElem hl
  have hv := (h.node n _ hb).2
  unfold next World.block
  rw [hb]
  simp only
  rw [← hv]
  rfl

/-- A node that has not been made gives nothing. -/
theorem none_iff (L : Lang Code In Out) (es : List (Ev Code In)) (n : Nat) (i : In) :
    next L es n i = none ↔ (makes es).length ≤ n := by
  have h := inv_run (L := L) (M := makes es) es (inv_init L _) (fun n id h => by simpa using h)
  simp only [Nat.zero_add] at h
  unfold next World.block
  rw [← h.len]
  cases hm : (World.run L (World.init L) es).1.nodes[n]? with
  | none => simpa using hm
  | some b => simpa using (List.getElem?_eq_some_iff.1 hm).1

theorem makes_append (a b : List (Ev Code In)) : makes (a ++ b) = makes a ++ makes b := by
  induction a with
  | nil => rfl
  | cons e a ih => cases e <;> simp [makes, ih]

theorem playing_append (M : List Nat) (n : Nat) (a b : List (Ev Code In)) :
    ∀ (k : Nat) (p : Playing Code In), playing M n k p (a ++ b) =
      playing M n (k + (makes a).length) (playing M n k p a) b := by
  induction a with
  | nil => intro k p; rfl
  | cons e a ih =>
    intro k p
    cases e with
    | make id =>
      simp only [List.cons_append, playing, makes, List.length_cons, ih]
      rw [show k + 1 + (makes a).length = k + ((makes a).length + 1) by omega]
    | _ => simp only [List.cons_append, playing, makes, ih]

theorem playing_append0 (M : List Nat) (n : Nat) (p : Playing Code In) (a b : List (Ev Code In)) :
    playing M n 0 p (a ++ b) = playing M n (makes a).length (playing M n 0 p a) b := by
  rw [playing_append, Nat.zero_add]

/-- Looking further into the future does not change who receives what, for a node that is there. -/
theorem receives_append (A B : List Nat) (k id n : Nat) (hk : k ≤ A.length) (hn : n < A.length) :
    Receives (A ++ B) k id n ↔ Receives A k id n := by
  have e : ∀ m, m < A.length → (A ++ B)[m]? = A[m]? := fun m hm => List.getElem?_append_left hm
  unfold Receives
  rw [e n hn]
  refine and_congr Iff.rfl (or_congr (and_congr Iff.rfl ?_) (and_congr Iff.rfl ?_))
  · exact forall_congr' fun m => forall_congr' fun _ => ⟨fun h hm => e m (by omega) ▸ h hm,
      fun h hm => (e m (by omega)).symm ▸ h hm⟩
  · exact forall_congr' fun m => ⟨fun h hm => e m (by omega) ▸ h hm,
      fun h hm => (e m (by omega)).symm ▸ h hm⟩

theorem playing_future (A B : List Nat) (n : Nat) (es : List (Ev Code In)) (hn : n < A.length) :
    ∀ (k : Nat) (p : Playing Code In), k + (makes es).length ≤ A.length →
      playing (A ++ B) n k p es = playing A n k p es := by
  induction es with
  | nil => intro k p _; rfl
  | cons e es ih =>
    intro k p hk
    cases e with
    | send id c =>
      simp only [makes] at hk
      simp only [playing]
      rw [ih _ _ hk]
      congr 1
      have e := receives_append A B k id n (by omega) hn
      by_cases hr : Receives A k id n
      · rw [if_pos hr, if_pos (e.2 hr)]
      · rw [if_neg hr, if_neg (fun h => hr (e.1 h))]
    | make id =>
      simp only [makes, List.length_cons] at hk
      simp only [playing]
      exact ih _ _ (by omega)
    | _ =>
      simp only [makes] at hk
      simp only [playing]
      exact ih _ _ hk

/-- **C96** Code swapped at run time: whatever happened before, code sent to an instance is what the
newest node of that instance runs in its next block, from the beginning of that code. -/
theorem swapped (L : Lang Code In Out) (es : List (Ev Code In)) (n id : Nat) (c : Code) (i : In)
    (hn : (makes es)[n]? = some id) (hl : ∀ m, n < m → (makes es)[m]? ≠ some id) :
    next L (es ++ [.send id c]) n i = some (L.process c i).2 := by
  have hlt := (List.getElem?_eq_some_iff.1 hn).1
  have hm : makes (es ++ [Ev.send id c]) = makes es := by simp [makes_append, makes]
  rw [sounds L _ n i (by rw [hm]; exact hlt), hm]
  simp only [playing_append0, playing]
  rw [if_pos ⟨hn, Or.inl ⟨hlt, fun m h _ => hl m h⟩⟩]
  rfl

/-- **C96** Code sent before the first use is preserved: sent while there is no node of that
instance, and with nothing sent to the instance since, it is what the first node made runs in its
first block. -/
theorem first_use (L : Lang Code In Out) (es es' : List (Ev Code In)) (id : Nat) (c : Code) (i : In)
    (hno : id ∉ makes (es ++ es')) (hs : ∀ c', Ev.send id c' ∉ es') :
    next L (es ++ .send id c :: es' ++ [.make id]) (makes (es ++ es')).length i =
      some (L.process c i).2 := by
  have hm : makes (es ++ Ev.send id c :: es' ++ [Ev.make id]) = makes (es ++ es') ++ [id] := by
    simp [makes_append, makes]
  have hno' : ∀ m : Nat, m < (makes (es ++ es')).length →
      (makes (es ++ es') ++ [id])[m]? ≠ some id := by
    intro m hm' he
    rw [List.getElem?_append_left hm'] at he
    exact hno (List.mem_of_getElem? he)
  have hlen : (makes es).length ≤ (makes (es ++ es')).length := by simp [makes_append]
  rw [sounds L _ _ i (by rw [hm]; simp), hm]
  obtain ⟨M, hM⟩ : ∃ M, makes (es ++ es') ++ [id] = M := ⟨_, rfl⟩
  obtain ⟨n, hnn⟩ : ∃ n, (makes (es ++ es')).length = n := ⟨_, rfl⟩
  have hid : M[n]? = some id := by rw [← hM, ← hnn]; simp
  rw [hM] at hno' ⊢
  rw [hnn] at hno' hlen ⊢
  have hrec : Receives M (makes es).length id n := ⟨hid, Or.inr ⟨hlen, hno'⟩⟩
  have key : ∀ (es' : List (Ev Code In)) (k : Nat), (∀ c', Ev.send id c' ∉ es') →
      k + (makes es').length ≤ n → playing M n k ⟨c, []⟩ es' = ⟨c, []⟩ := by
    intro es'
    induction es' with
    | nil => intro k _ _; rfl
    | cons e es' ih =>
      intro k hs hk
      have hs' : ∀ c', Ev.send id c' ∉ es' := fun c' h => hs c' (List.mem_cons_of_mem _ h)
      cases e with
      | send id' c' =>
        simp only [makes] at hk
        have : ¬Receives M k id' n := by
          rintro ⟨h, _⟩
          rw [hid] at h
          cases h
          exact hs c' (List.mem_cons_self ..)
        simp only [playing, if_neg this]
        exact ih k hs' hk
      | make id' =>
        simp only [makes, List.length_cons] at hk
        simp only [playing]
        exact ih (k + 1) hs' (by omega)
      | block m j =>
        simp only [makes] at hk
        have : ¬(m = n ∧ n < k) := by omega
        simp only [playing, if_neg this]
        exact ih k hs' hk
      | rate _ _ => exact ih k hs' hk
      | reset _ => exact ih k hs' hk
  have hk : (makes es).length + (makes es').length ≤ n := by
    rw [← hnn, makes_append, List.length_append]; omega
  simp only [playing_append0, playing]
  rw [if_pos hrec, key es' _ hs hk]
  rfl

/-- **C96** A node of an instance that had a node before gets no code: whatever was sent to the
instance until then, its first block is the dummy's. -/
theorem remade_silent (L : Lang Code In Out) (es : List (Ev Code In)) (id : Nat) (i : In)
    (hid : id ∈ makes es) :
    next L (es ++ [.make id]) (makes es).length i = some (L.process L.dummy i).2 := by
  have hm : makes (es ++ [Ev.make id]) = makes es ++ [id] := by simp [makes_append, makes]
  rw [sounds L _ _ i (by rw [hm]; simp), hm]
  obtain ⟨n, hnn⟩ : ∃ n, (makes es).length = n := ⟨_, rfl⟩
  obtain ⟨m, hml, hmM⟩ := List.getElem_of_mem hid
  obtain ⟨M, hM⟩ : ∃ M, makes es ++ [id] = M := ⟨_, rfl⟩
  have h1 : M[n]? = some id := by rw [← hM, ← hnn]; simp
  have h2 : M[m]? = some id := by rw [← hM, List.getElem?_append_left hml]; simp [hml, hmM]
  rw [hM, hnn]
  have key : ∀ (es : List (Ev Code In)) (k : Nat), k + (makes es).length ≤ n →
      playing M n k ⟨L.dummy, []⟩ es = ⟨L.dummy, []⟩ := by
    intro es
    induction es with
    | nil => intro k _; rfl
    | cons e es ih =>
      intro k hk
      cases e with
      | send id' c' =>
        simp only [makes] at hk
        have : ¬Receives M k id' n := by
          rintro ⟨h, ⟨h', _⟩ | ⟨_, h'⟩⟩
          · omega
          · rw [h1] at h; cases h; exact h' m (by omega) h2
        simp only [playing, if_neg this]
        exact ih k hk
      | make id' =>
        simp only [makes, List.length_cons] at hk
        simp only [playing]
        exact ih (k + 1) (by omega)
      | block m j =>
        simp only [makes] at hk
        have : ¬(m = n ∧ n < k) := by omega
        simp only [playing, if_neg this]
        exact ih k hk
      | rate _ _ => exact ih k hk
      | reset _ => exact ih k hk
  simp only [playing_append0, playing]
  rw [key es 0 (by omega)]
  rfl

/-- **C96** Once there is a newer node of its instance, a node gets nothing that is sent any more:
it goes on with the code it has. -/
theorem old_unreached (L : Lang Code In Out) (es : List (Ev Code In)) (n id : Nat) (c : Code)
    (i : In) (hn : (makes es)[n]? = some id) :
    next L (es ++ [.make id, .send id c]) n i = next L es n i := by
  have hlt := (List.getElem?_eq_some_iff.1 hn).1
  have hm : makes (es ++ [Ev.make id, Ev.send id c]) = makes es ++ [id] := by
    simp [makes_append, makes]
  rw [sounds L _ n i (by rw [hm]; simp; omega), sounds L es n i hlt, hm]
  have hnot : ¬Receives (makes es ++ [id]) ((makes es).length + 1) id n := by
    rintro ⟨_, ⟨_, h⟩ | ⟨h, _⟩⟩
    · exact h (makes es).length hlt (Nat.lt_succ_self _) (by simp)
    · omega
  simp only [playing_append0, playing]
  rw [if_neg hnot, playing_future (makes es) [id] n es hlt 0 _ (by simp)]

/-- **C96** Two nodes never share code or state: running another node changes nothing. -/
theorem separate (L : Lang Code In Out) (es : List (Ev Code In)) (n m : Nat) (i j : In)
    (hnm : m ≠ n) : next L (es ++ [.block m j]) n i = next L es n i := by
  have hm : makes (es ++ [Ev.block m j]) = makes es := by simp [makes_append, makes]
  by_cases hn : n < (makes es).length
  · rw [sounds L _ n i (by rw [hm]; exact hn), sounds L es n i hn, hm]
    simp only [playing_append0, playing]
    rw [if_neg (fun h => hnm h.1)]
  · rw [(none_iff L _ n i).2 (by rw [hm]; omega), (none_iff L _ n i).2 (by omega)]

/-- The events of the application and of the audio thread other than a sample rate announced or a
reset. -/
def Ev.told : Ev Code In → Bool
  | .rate _ _ | .reset _ => false
  | _ => true

/-- **C96, what the code does instead** The sample rate and a reset never reach the code: leaving
all of them out of a history changes no output. -/
theorem not_told (L : Lang Code In Out) (es : List (Ev Code In)) :
    ∀ w : World Code, (World.run L w es).2 = (World.run L w (es.filter Ev.told)).2 := by
  induction es with
  | nil => intro w; rfl
  | cons e es ih =>
    intro w
    cases e with
    | rate n r => exact ih w
    | reset n => exact ih w
    | send id c =>
      exact congrArg ((World.step L w (.send id c)).2.toList ++ ·) (ih (World.step L w (.send id c)).1)
    | make id =>
      exact congrArg ((World.step L w (.make id)).2.toList ++ ·) (ih (World.step L w (.make id)).1)
    | block n i =>
      exact congrArg ((World.step L w (.block n i)).2.toList ++ ·) (ih (World.step L w (.block n i)).1)

/-- Code that gives the sample rate it was told last. -/
def rateMeter : Lang Rat Unit Rat := ⟨fun c _ => (c, c), fun _ r => r, fun _ => 0, 0⟩

/-- **C96, the property is false** The documentation of the trait says its `set_sample_rate` is given
the rate the graph runs at.  It is not: after the engine has announced 48000 Hz to the node, code
that reports its rate does not report 48000. -/
theorem rate_false : ¬∀ (c : Rat) (r : Rat),
    next rateMeter [.send 0 c, .make 0, .rate 0 r] 0 () =
      some (rateMeter.process (rateMeter.setSampleRate c r) ()).2 := by
  intro h
  have := h 44100 48000
  revert this
  decide +kernel

/-- **C96, the property is false** Nor is the code reset when the engine resets the node. -/
theorem reset_false : ¬∀ (c : Rat),
    next rateMeter [.send 0 c, .make 0, .block 0 (), .reset 0] 0 () =
      some (rateMeter.process (rateMeter.reset c) ()).2 := by
  intro h
  have := h 44100
  revert this
  decide +kernel

/-! ### The hypotheses are met -/

/-- Code that counts its blocks from a number on; the dummy stays 0. -/
def counter : Lang Nat Unit Nat := ⟨fun c _ => (if c = 0 then 0 else c + 1, c), fun c _ => c, id, 0⟩

/-- Sent, made, run twice; swapped; made anew (silent), sent again. -/
def story : List (Ev Nat Unit) :=
  [.send 3 10, .make 3, .block 0 (), .block 0 (), .send 3 50, .block 0 (), .make 3, .block 1 (),
   .send 3 70, .block 1 (), .block 0 ()]

example : (World.run counter (World.init counter) story).2 = [10, 11, 50, 0, 70, 51] := by
  decide +kernel

example : (makes story)[1]? = some 3 ∧ ∀ m, 1 < m → (makes story)[m]? ≠ some 3 := by
  refine ⟨rfl, fun m hm => ?_⟩
  have : (makes story)[m]? = none := List.getElem?_eq_none_iff.2 (by simp [makes, story]; omega)
  simp [this]

example : (7 : Nat) ∉ makes (story ++ [.make 2]) ∧ ∀ c', Ev.send 7 c' ∉ [(Ev.make 2 : Ev Nat Unit)] :=
  ⟨by decide, by simp⟩

example : (3 : Nat) ∈ makes story := by decide

end HexoDSP.RustNodeProps
