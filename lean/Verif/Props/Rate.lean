import Verif.Lemmas.Rate
/-!
# C119: the nodes know the sample rate
-/

set_option linter.unusedSectionVars false

namespace HexoDSP.RateProps
open HexoDSP.Rate HexoDSP.RateSpec HexoDSP.RateLemmas

variable {N R : Type} [DecidableEq N]

/-- **C119** (partial: not for nodes that miss a change) After any history a node that is played knows the sample rate of the engine, if it has not missed a
change since it was created. -/
theorem played_at_rate_partial (r0 : R) {ops : List (Op N R)} {w : World N R} (h : (World.new r0).run ops = some w) {p : Nat} (hp : p ∈ w.playing)
    (ha : Attends p (World.new r0) ops) : Knows w p :=
  (fine_run p ops (inv_new r0) (fine_unborn (inv_new r0) (Nat.not_lt_zero p)) h ha).told ((inv_run ops (inv_new r0) h).playing p hp)

/-- **C119** (partial) It is enough that it has not missed a change since one that it heard of. -/
theorem right_again_partial (r0 r : R) {pre post : List (Op N R)} {w1 w2 w : World N R} (h1 : (World.new r0).run pre = some w1) {p : Nat} (hp1 : p ∈ w1.playing)
    (hr : w1.step (.setSampleRate r) = some w2) (h2 : w2.run post = some w) (ha : Attends p w2 post) : Knows w p := by
  have hi1 := inv_run pre (inv_new r0) h1
  have hi2 := inv_step hi1 hr
  have hlt : p < done w1 := hi1.playing p hp1
  injection hr with hr
  have hf : Fine p w2 := by
    rw [← hr]
    refine ⟨fun _ => by simp only [hp1, if_true], ?_⟩
    intro x _ hp
    have hp : p = done w1 := hp
    omega
  have hf2 := fine_run p post hi2 hf h2 ha
  have hmono : ∀ (ops : List (Op N R)) {u v : World N R}, u.run ops = some v → p < done u → p < done v := by
    intro ops
    induction ops with
    | nil =>
      intro u v e hu
      have e : some u = some v := e
      injection e with e; rw [← e]; exact hu
    | cons o ops ih =>
      intro u v e hu
      rw [World.run, List.foldlM_cons] at e
      cases hs : u.step o with
      | none => rw [hs] at e; exact nomatch e
      | some x =>
        rw [hs] at e
        refine ih e ?_
        cases o <;> simp only [World.step] at hs
        all_goals first
          | (split at hs
             all_goals first
               | contradiction
               | (injection hs with hs
                  rw [← hs]
                  first
                    | (rename_i hc; simp only [done, hc] at hu ⊢; simp at hu ⊢; omega)
                    | (rw [send_eq]; exact hu)))
          | (injection hs with hs; rw [← hs]; exact hu)
  refine hf2.told (hmono post h2 ?_)
  rw [← hr]
  exact hlt

theorem run_append : ∀ (a b : List (Op N R)) (w : World N R), w.run (a ++ b) = (w.run a).bind (fun v => v.run b) := by
  intro a b w
  rw [World.run, List.foldlM_append]
  rfl

theorem count_mono {w w' : World N R} {o : Op N R} (e : w.step o = some w') : (∀ n, o ≠ .beginCreate n) → w'.count = w.count := by
  intro hn
  cases o <;> simp only [World.step] at e
  case beginCreate n => exact absurd rfl (hn n)
  case endCreate =>
    split at e
    · contradiction
    · injection e with e; rw [← e]
  case poll => injection e with e; rw [← e]
  case setSampleRate => injection e with e; rw [← e]
  all_goals
    split at e
    · injection e with e; rw [← e, send_eq]
    · contradiction

/-- **C119** An application that sets the sample rate before it creates its first node, and not again, hears every node at this sample rate. -/
theorem rate_first (r0 : R) {pre post : List (Op N R)} {w : World N R} (h : (World.new r0).run (pre ++ post) = some w)
    (hpre : ∀ n, Op.beginCreate n ∉ pre) (hpost : ∀ r, Op.setSampleRate r ∉ post) {p : Nat} (hp : p ∈ w.playing) : Knows w p := by
  refine played_at_rate_partial r0 h hp ?_
  intro a r b u hab hu hb
  exfalso
  have hc : ∀ (l : List (Op N R)) (v v' : World N R), (∀ n, Op.beginCreate n ∉ l) → v.run l = some v' → v'.count = v.count := by
    intro l
    induction l with
    | nil =>
      intro v v' _ e
      have e : some v = some v' := e
      injection e with e; rw [e]
    | cons o l ih =>
      intro v v' hl e
      rw [World.run, List.foldlM_cons] at e
      cases hs : v.step o with
      | none => rw [hs] at e; exact nomatch e
      | some x =>
        rw [hs] at e
        rw [ih x v' (fun n hn => hl n (List.mem_cons_of_mem _ hn)) e]
        exact count_mono hs (fun n hn => hl n (by rw [hn]; exact List.mem_cons_self ..))
  rcases List.append_eq_append_iff.1 hab with ⟨c, h1, h2⟩ | ⟨c, h1, h2⟩
  · exact hpost r (by rw [h2]; simp)
  · have : ∀ n, Op.beginCreate n ∉ a := fun n hn => hpre n (by rw [h1]; exact List.mem_append_left _ hn)
    have := hc a _ u this hu
    have hb : p < u.count := hb
    rw [this] at hb
    exact Nat.not_lt_zero p hb

/-! ## Missed changes -/

/-- One oscillator is created, played, taken out of the patch; then the sample rate changes, and the oscillator is used again. -/
def exSpare : List (Op Nat Nat) :=
  [.beginCreate 0, .endCreate, .upload [0], .poll, .upload [], .poll, .setSampleRate 48000, .upload [0], .poll]

/-- `Matrix::create_intermediate_nodes` (`src/matrix.rs:1264-1294`) creates node 0 because node 1 is placed; node 0 is placed after the change. -/
def exHole : List (Op Nat Nat) :=
  [.beginCreate 0, .endCreate, .beginCreate 1, .endCreate, .upload [1], .poll, .setSampleRate 48000, .upload [1, 0], .poll]

/-- The sample rate changes while a program is on its way. -/
def exWay : List (Op Nat Nat) := [.beginCreate 0, .endCreate, .upload [0], .setSampleRate 48000, .poll]

/-- The sample rate changes while a node is created. -/
def exRace : List (Op Nat Nat) := [.beginCreate 0, .setSampleRate 48000, .endCreate, .upload [0], .poll]

/-- The node plays, and thinks that the sample rate is another one. -/
def wrong (ops : List (Op Nat Nat)) (p : Nat) : Bool :=
  match (World.new 44100).run ops with
  | none => false
  | some w => decide (p ∈ w.playing) && decide (w.rate = 48000) && decide (w.told p = some 44100)

/-- **C119** (negation) A node that is in no program when the sample rate changes keeps the old one for good, also if it was played before. -/
theorem spare_node_wrong : wrong exSpare 0 = true := by decide +kernel

/-- **C119** (negation) So does a node that the matrix created to fill a gap in the numbering. -/
theorem gap_node_wrong : wrong exHole 0 = true := by decide +kernel

/-- **C119** (negation) So does a node whose first program has not arrived yet. -/
theorem node_on_its_way_wrong : wrong exWay 0 = true := by decide +kernel

/-- **C119** (negation) So does a node that is being created. -/
theorem node_in_creation_wrong : wrong exRace 0 = true := by decide +kernel

theorem wrong_knows {ops : List (Op Nat Nat)} {p : Nat} (h : wrong ops p = true) :
    ∃ w, (World.new 44100).run ops = some w ∧ p ∈ w.playing ∧ ¬ Knows w p := by
  unfold wrong at h
  split at h
  · exact nomatch h
  · next w hw =>
    simp only [Bool.and_eq_true, decide_eq_true_eq] at h
    refine ⟨w, hw, h.1.1, ?_⟩
    unfold Knows
    rw [h.2, h.1.2]
    decide

/-- **C119** (negation) It is not true that every node that is played knows the sample rate. -/
theorem not_all_know : ¬ ∀ (ops : List (Op Nat Nat)) (w : World Nat Nat) (p : Nat), (World.new 44100).run ops = some w → p ∈ w.playing → Knows w p := by
  intro h
  obtain ⟨w, hw, hp, hk⟩ := wrong_knows spare_node_wrong
  exact hk (h _ w 0 hw hp)

/-! ## Examples -/

/-- The change comes while both nodes are played, a third one is created after it. -/
def exGood : List (Op Nat Nat) :=
  [.beginCreate 0, .endCreate, .beginCreate 1, .endCreate, .upload [0, 1], .poll, .setSampleRate 48000, .beginCreate 2, .endCreate, .upload [2, 1, 0], .poll]

theorem exGood_attends (p : Nat) (hp : p < 3) : Attends p (World.new 44100) exGood := by
  intro pre r post w e h hb
  have hl : pre.length = 6 := by
    have key : ∀ i, (hi : i < exGood.length) → exGood[i] = .setSampleRate r → i = 6 := by
      intro i hi he
      have : i = 0 ∨ i = 1 ∨ i = 2 ∨ i = 3 ∨ i = 4 ∨ i = 5 ∨ i = 6 ∨ i = 7 ∨ i = 8 ∨ i = 9 ∨ i = 10 := by
        have : i < 11 := hi
        omega
      rcases this with rfl | rfl | rfl | rfl | rfl | rfl | rfl | rfl | rfl | rfl | rfl
      all_goals first | rfl | exact nomatch he
    refine key pre.length (by rw [e]; simp) ?_
    simp [e]
  have hpre : pre = exGood.take 6 := by rw [e, ← hl]; simp
  rw [hpre] at h
  have hw : (World.new 44100).run (exGood.take 6) = some w := h
  have h2 : ∀ w', (World.new 44100).run (exGood.take 6) = some w' → w'.count = 2 ∧ w'.playing = [0, 1] := by
    intro w' h'
    injection h' with h'
    rw [← h']
    exact ⟨rfl, by decide +kernel⟩
  have hb : p < w.count := hb
  rw [(h2 w hw).1] at hb
  rw [(h2 w hw).2]
  have : p = 0 ∨ p = 1 := by omega
  rcases this with rfl | rfl <;> simp

example : ∃ w, (World.new 44100).run exGood = some w ∧ 0 ∈ w.playing ∧ 2 ∈ w.playing ∧ Knows w 0 ∧ Knows w 2 ∧ w.rate = 48000 := by
  have h : (match (World.new 44100).run exGood with | some w => decide (w.playing = [2, 1, 0]) && decide (w.rate = 48000) | none => false) = true := by decide +kernel
  split at h
  · next w hw =>
    simp only [Bool.and_eq_true, decide_eq_true_eq] at h
    have h0 : 0 ∈ w.playing := by rw [h.1]; simp
    have h2 : 2 ∈ w.playing := by rw [h.1]; simp
    exact ⟨w, hw, h0, h2, played_at_rate_partial _ hw h0 (exGood_attends 0 (by decide)), played_at_rate_partial _ hw h2 (exGood_attends 2 (by decide)), h.2⟩
  · exact nomatch h

/-- The forgotten node of `exSpare` is right again after the next change, because it is played then. -/
example : ∃ w1 w2, (World.new 44100).run exSpare = some w1 ∧ w1.step (.setSampleRate 96000) = some w2 ∧ Knows w2 0 := by
  obtain ⟨w, hw, hp, _⟩ := wrong_knows spare_node_wrong
  exact ⟨w, _, hw, rfl, right_again_partial 44100 96000 hw hp rfl (w := { w with rate := 96000, told := fun k => if k ∈ w.playing then some 96000 else w.told k })
    (post := []) rfl (fun pre _ _ _ e => absurd e (by cases pre <;> simp))⟩

/-- The sample rate is set first. -/
example : ∃ w, (World.new 44100).run ([.setSampleRate 48000] ++ [.beginCreate 0, .endCreate, .upload [0], .poll] : List (Op Nat Nat)) = some w ∧ 0 ∈ w.playing ∧ Knows w 0 := by
  have h : (match (World.new 44100).run ([.setSampleRate 48000] ++ [.beginCreate 0, .endCreate, .upload [0], .poll] : List (Op Nat Nat)) with
      | some w => decide (w.playing = [0]) | none => false) = true := by decide +kernel
  split at h
  · next w hw =>
    have h0 : 0 ∈ w.playing := by rw [of_decide_eq_true h]; simp
    exact ⟨w, hw, h0, rate_first 44100 hw (by simp) (by simp) h0⟩
  · exact nomatch h

end HexoDSP.RateProps
