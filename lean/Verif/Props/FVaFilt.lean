import Verif.Spec.FVaFilt
import Mathlib.Tactic.Linarith
import Mathlib.Tactic.NormNum
/-!
# The analog filter node (C95)
-/

namespace HexoDSP.FVaFiltProps
open HexoDSP.FVaFilt HexoDSP.FVaFiltSpec

variable {X CS MS CV MV CL ML D U : Type}

theorem clamp_eq {lo hi : ℚ} (h : lo ≤ hi) (x : ℚ) : clamp lo hi x = max lo (min hi x) := by
  unfold clamp
  split
  · rename_i h1; rw [min_eq_right (by linarith), max_eq_left h1.le]
  · split
    · rename_i h1; rw [min_eq_left (le_of_lt h1), max_eq_right h]
    · rename_i h1 h2; rw [min_eq_right (not_lt.1 h2), max_eq_right (not_lt.1 h1)]

theorem ladder_menu (z : ℤ) : ladderMode z = entry ladderMenu .N12 z := by
  unfold entry
  rcases lt_or_ge z 0 with h | h
  · rw [if_neg (by omega)]
    unfold ladderMode
    split <;> first | omega | rfl
  · rw [if_pos h]
    obtain ⟨n, rfl⟩ := Int.eq_ofNat_of_zero_le h
    by_cases hn : n < 11
    · have : ∀ n : Fin 11, ladderMode (n.1 : ℤ) = ((ladderMenu[((n.1 : ℤ)).toNat]?).map Prod.snd).getD .N12 := by decide
      exact this ⟨n, hn⟩
    · have : ladderMenu[(n : ℤ).toNat]? = none := List.getElem?_eq_none (by simp [ladderMenu]; omega)
      rw [this]
      unfold ladderMode
      split <;> first | omega | rfl

theorem svf_menu (z : ℤ) : svfMode z = entry svfMenu .Notch z := by
  unfold entry
  rcases lt_or_ge z 0 with h | h
  · rw [if_neg (by omega)]
    unfold svfMode
    split <;> first | omega | rfl
  · rw [if_pos h]
    obtain ⟨n, rfl⟩ := Int.eq_ofNat_of_zero_le h
    by_cases hn : n < 5
    · have : ∀ n : Fin 5, svfMode (n.1 : ℤ) = ((svfMenu[((n.1 : ℤ)).toNat]?).map Prod.snd).getD .Notch := by decide
      exact this ⟨n, hn⟩
    · have : svfMenu[(n : ℤ).toNat]? = none := List.getElem?_eq_none (by simp [svfMenu]; omega)
      rw [this]
      unfold svfMode
      split <;> first | omega | rfl

theorem tuple_params (s : Setting) (f : Frame X) : (tuple s f).params = wanted s f := by
  unfold tuple Tuple.params wanted
  simp only
  rw [clamp_eq (by norm_num), clamp_eq (by norm_num), max_comm f.drive 0, ladder_menu, svf_menu]

theorem tuple_freq (s : Setting) (f : Frame X) : (tuple s f).freq ≠ 0 := by
  unfold tuple
  simp only
  rw [clamp_eq (by norm_num)]
  have := le_max_left (1 : ℚ) (min 20000 f.freq)
  intro h
  rw [h] at this
  linarith

/-- The memories of a node. -/
def memOf (n : Node CS MS CV MV CL ML D U) : Mem MS MV ML D U := ⟨n.ladder.2, n.svf.2, n.sk.2, n.up, n.down, n.dc⟩

/-- The node has its coefficients for the frame played last, unless none has been played. -/
def Ok (E : Ext X CS MS CV MV CL ML D U) (n : Node CS MS CV MV CL ML D U) : Prop :=
  n.old.freq = 0 ∨ (n.params = n.old.params ∧ (n.old.ftype = 2 → n.sk.1 = E.skCoefs n.params) ∧ (n.old.ftype = 1 → n.svf.1 = E.svfCoefs n.params))

/-- The ladder has the mode of the frame played last. -/
def LadOk (E : Ext X CS MS CV MV CL ML D U) (n : Node CS MS CV MV CL ML D U) : Prop := n.ladder.1 = E.mix (ladderMode n.old.lmode)

/-- Ready for the frame with the tuple `t`. -/
structure Ready (E : Ext X CS MS CV MV CL ML D U) (t : Tuple) (n : Node CS MS CV MV CL ML D U) : Prop where
  params : n.params = t.params
  old : n.old = t
  sk : t.ftype = 2 → n.sk.1 = E.skCoefs t.params
  svf : t.ftype = 1 → n.svf.1 = E.svfCoefs t.params

theorem change_spec {E : Ext X CS MS CV MV CL ML D U} {n : Node CS MS CV MV CL ML D U} (h : Ok E n) (ch : Bool) {t : Tuple} (ht : t.freq ≠ 0) :
    Ready E t (n.paramChange E ch t).1 ∧ memOf (n.paramChange E ch t).1 = memOf n ∧
    (t.ftype ≠ 1 → t.ftype ≠ 2 → LadOk E n → LadOk E (n.paramChange E ch t).1) ∧
    (t.ftype = 1 ∨ t.ftype = 2 → (n.paramChange E ch t).1.ladder.1 = n.ladder.1) := by
  unfold Node.paramChange
  by_cases hne : t ≠ n.old
  · rw [if_pos hne]
    simp only
    split
    · rename_i h2
      exact ⟨⟨rfl, rfl, fun _ => rfl, fun h1 => absurd h1 (by rw [h2]; decide)⟩, rfl, fun _ h => absurd h2 h, fun _ => rfl⟩
    · rename_i h1
      exact ⟨⟨rfl, rfl, fun h2 => absurd h2 (by rw [h1]; decide), fun _ => rfl⟩, rfl, fun h => absurd h1 h, fun _ => rfl⟩
    · rename_i h2 h1
      obtain ⟨c, hc⟩ : ∃ c, (if t.lmode ≠ n.old.lmode then true else ch) = c := ⟨_, rfl⟩
      rw [hc]
      refine ⟨?_, ?_, ?_, ?_⟩
      · cases c <;> exact ⟨rfl, rfl, fun h => absurd h h2, fun h => absurd h h1⟩
      · cases c <;> rfl
      · intro _ _ hl
        cases c with
        | true => rfl
        | false =>
          have he : t.lmode = n.old.lmode := by
            by_contra hh
            rw [if_pos hh] at hc
            cases hc
          change n.ladder.1 = E.mix (ladderMode t.lmode)
          rw [he]
          exact hl
      · intro h; rcases h with h | h
        · exact absurd h h1
        · exact absurd h h2
  · rw [if_neg hne]
    have he : t = n.old := not_not.1 hne
    rcases h with h | ⟨h1, h2, h3⟩
    · exact absurd h (by rw [← he]; exact ht)
    · rw [← he] at h1 h2 h3
      refine ⟨⟨h1, he.symm, fun h => ?_, fun h => ?_⟩, rfl, fun _ _ h => h, fun _ => rfl⟩
      · rw [← h1]; exact h2 h
      · rw [← h1]; exact h3 h

theorem kind_cases (s : Setting) : (kind s = .svf ∧ asI8 s.ftype = 1) ∨ (kind s = .sallenKey ∧ asI8 s.ftype = 2) ∨
    (kind s = .ladder ∧ asI8 s.ftype ≠ 1 ∧ asI8 s.ftype ≠ 2) := by
  unfold kind
  by_cases h1 : asI8 s.ftype = 1
  · rw [if_pos h1]; exact Or.inl ⟨rfl, h1⟩
  · rw [if_neg h1]
    by_cases h2 : asI8 s.ftype = 2
    · rw [if_pos h2]; exact Or.inr (Or.inl ⟨rfl, h2⟩)
    · rw [if_neg h2]; exact Or.inr (Or.inr ⟨rfl, h1, h2⟩)

/-- What a round leaves alone. -/
structure Same (a b : Node CS MS CV MV CL ML D U) : Prop where
  params : b.params = a.params
  old : b.old = a.old
  sk : b.sk.1 = a.sk.1
  svf : b.svf.1 = a.svf.1
  lad : b.ladder.1 = a.ladder.1

theorem filt_spec {E : Ext X CS MS CV MV CL ML D U} {n : Node CS MS CV MV CL ML D U} {s : Setting} {f : Frame X} (h : Ready E (tuple s f) n)
    (hl : kind s = .ladder → LadOk E n) (x : X) :
    (n.filt E (asI8 s.ftype) x).1 = (filt E (kind s) (wanted s f) (memOf n) x).1 ∧
    memOf (n.filt E (asI8 s.ftype) x).2 = (filt E (kind s) (wanted s f) (memOf n) x).2 ∧ Same n (n.filt E (asI8 s.ftype) x).2 := by
  have hp : n.params = wanted s f := by rw [h.params, tuple_params]
  have ht : (tuple s f).ftype = asI8 s.ftype := rfl
  rcases kind_cases s with ⟨hk, h1⟩ | ⟨hk, h2⟩ | ⟨hk, h1, h2⟩
  · have hc : n.svf.1 = E.svfCoefs (wanted s f) := by rw [h.svf (by rw [ht, h1]), tuple_params]
    rw [hk, h1]
    unfold Node.filt FVaFiltSpec.filt
    simp only
    rw [hc, hp]
    exact ⟨rfl, rfl, ⟨hp.symm, rfl, rfl, hc.symm, rfl⟩⟩
  · have hc : n.sk.1 = E.skCoefs (wanted s f) := by rw [h.sk (by rw [ht, h2]), tuple_params]
    rw [hk, h2]
    unfold Node.filt FVaFiltSpec.filt
    simp only
    rw [hc, hp]
    exact ⟨rfl, rfl, ⟨hp.symm, rfl, hc.symm, rfl, rfl⟩⟩
  · have hc : n.ladder.1 = E.mix (wanted s f).ladder := by
      have := hl hk
      unfold LadOk at this
      rw [h.old, ladder_menu] at this
      exact this
    rw [hk]
    have : n.filt E (asI8 s.ftype) x = ((E.ladTick n.ladder.1 n.params n.ladder.2 x).1,
        { n with ladder := (n.ladder.1, (E.ladTick n.ladder.1 n.params n.ladder.2 x).2) }) := by
      unfold Node.filt
      split
      · rename_i h; exact absurd h h2
      · rename_i h; exact absurd h h1
      · rfl
    rw [this]
    unfold FVaFiltSpec.filt
    simp only
    rw [hc, hp]
    exact ⟨rfl, rfl, ⟨hp.symm, rfl, rfl, rfl, hc.symm⟩⟩

theorem ready_same {E : Ext X CS MS CV MV CL ML D U} {a b : Node CS MS CV MV CL ML D U} {t : Tuple} (h : Ready E t a) (hs : Same a b) : Ready E t b :=
  ⟨by rw [hs.params, h.params], by rw [hs.old, h.old], fun ht => by rw [hs.sk, h.sk ht], fun ht => by rw [hs.svf, h.svf ht]⟩

theorem lad_same {E : Ext X CS MS CV MV CL ML D U} {a b : Node CS MS CV MV CL ML D U} (h : LadOk E a) (hs : Same a b) : LadOk E b := by
  unfold LadOk at h ⊢
  rw [hs.lad, hs.old, h]

theorem round_spec {E : Ext X CS MS CV MV CL ML D U} {n : Node CS MS CV MV CL ML D U} {s : Setting} {f : Frame X} (h : Ready E (tuple s f) n)
    (hl : kind s = .ladder → LadOk E n) (x : X) :
    (n.round E (asI8 s.ftype) x).1 = (round E (kind s) (wanted s f) (memOf n) x).1 ∧
    memOf (n.round E (asI8 s.ftype) x).2 = (round E (kind s) (wanted s f) (memOf n) x).2 ∧ Same n (n.round E (asI8 s.ftype) x).2 := by
  have h' : Ready E (tuple s f) { n with up := (E.half n.up (E.twice x)).2 } := ⟨h.params, h.old, h.sk, h.svf⟩
  have hl' : kind s = .ladder → LadOk E { n with up := (E.half n.up (E.twice x)).2 } := hl
  obtain ⟨e1, e2, e3⟩ := filt_spec h' hl' (E.half n.up (E.twice x)).1
  have hm : memOf { n with up := (E.half n.up (E.twice x)).2 } = { memOf n with up := (E.half n.up (E.twice x)).2 } := rfl
  rw [hm] at e1 e2
  unfold Node.round FVaFiltSpec.round
  simp only
  have hup : (memOf n).up = n.up := rfl
  rw [hup, ← e1, ← e2]
  refine ⟨rfl, rfl, ⟨e3.params, e3.old, e3.sk, e3.svf, e3.lad⟩⟩

theorem frame_spec {E : Ext X CS MS CV MV CL ML D U} {n : Node CS MS CV MV CL ML D U} (h : Ok E n) (ch : Bool) (s : Setting) (f : Frame X)
    (hl : kind s = .ladder → LadOk E n) :
    (n.frame E ch s f).1 = (frame E s (memOf n) f).1 ∧ memOf (n.frame E ch s f).2.1 = (frame E s (memOf n) f).2 ∧
    Ok E (n.frame E ch s f).2.1 ∧ (n.frame E ch s f).2.1.old.lmode = asI8 s.lmode ∧
    (kind s = .ladder → LadOk E (n.frame E ch s f).2.1) ∧ (kind s ≠ .ladder → (n.frame E ch s f).2.1.ladder.1 = n.ladder.1) := by
  obtain ⟨c1, c2, c3, c4⟩ := change_spec h ch (tuple_freq s f)
  unfold Node.frame
  simp only
  generalize (n.paramChange E ch (tuple s f)).1 = n1 at c1 c2 c3 c4
  have hdc : n1.dc = n.dc := congrArg Mem.dc c2
  have hl1 : kind s = .ladder → LadOk E n1 := by
    intro hk
    rcases kind_cases s with ⟨hk', _⟩ | ⟨hk', _⟩ | ⟨_, h1, h2⟩
    · rw [hk'] at hk; cases hk
    · rw [hk'] at hk; cases hk
    · exact c3 h1 h2 (hl hk)
  have r0 : Ready E (tuple s f) { n1 with dc := (E.dc n1.dc f.sig).2 } := ⟨c1.params, c1.old, c1.sk, c1.svf⟩
  have l0 : kind s = .ladder → LadOk E { n1 with dc := (E.dc n1.dc f.sig).2 } := hl1
  obtain ⟨a1, a2, a3⟩ := round_spec r0 l0 (E.dc n1.dc f.sig).1
  have r1 := ready_same r0 a3
  have l1 : kind s = .ladder → LadOk E (Node.round E { n1 with dc := (E.dc n1.dc f.sig).2 } (asI8 s.ftype) (E.dc n1.dc f.sig).1).2 :=
    fun hk => lad_same (l0 hk) a3
  obtain ⟨b1, b2, b3⟩ := round_spec r1 l1 E.zero
  have hm : memOf { n1 with dc := (E.dc n1.dc f.sig).2 } = { memOf n with dc := (E.dc n.dc f.sig).2 } := by
    rw [← c2, ← hdc]; rfl
  rw [hm] at a2
  rw [a2] at b1 b2
  have r2 := ready_same r1 b3
  refine ⟨?_, ?_, ?_, ?_, ?_, ?_⟩
  · rw [b1, hdc]; rfl
  · rw [b2, hdc]; rfl
  · right
    rw [r2.params, r2.old]
    exact ⟨rfl, fun ht => by rw [r2.sk ht], fun ht => by rw [r2.svf ht]⟩
  · rw [r2.old]; rfl
  · exact fun hk => lad_same (l1 hk) b3
  · intro hk
    rw [b3.lad, a3.lad]
    refine c4 ?_
    rcases kind_cases s with ⟨_, h1⟩ | ⟨_, h2⟩ | ⟨hk', _⟩
    · exact Or.inl h1
    · exact Or.inr h2
    · exact absurd hk' hk

/-- The memories of the ideal filter after some frames. -/
def idealAfter (E : Ext X CS MS CV MV CL ML D U) (m : Mem MS MV ML D U) (fs : List (Setting × Frame X)) : Mem MS MV ML D U :=
  fs.foldl (fun m f => (frame E f.1 m f.2).2) m

theorem ideal_append (E : Ext X CS MS CV MV CL ML D U) (a b : List (Setting × Frame X)) : ∀ m, ideal E m (a ++ b) =
    ideal E m a ++ ideal E (idealAfter E m a) b := by
  induction a with
  | nil => intro m; rfl
  | cons x a ih => intro m; simp only [List.cons_append, ideal, ih, idealAfter, List.foldl_cons]

theorem loop_spec {E : Ext X CS MS CV MV CL ML D U} (s : Setting) (fs : List (Frame X)) : ∀ (n : Node CS MS CV MV CL ML D U) (ch : Bool), Ok E n →
    (kind s = .ladder → LadOk E n) →
    (n.loop E s ch fs).1 = ideal E (memOf n) (fs.map (fun f => (s, f))) ∧
    memOf (n.loop E s ch fs).2 = idealAfter E (memOf n) (fs.map (fun f => (s, f))) ∧ Ok E (n.loop E s ch fs).2 ∧
    (fs ≠ [] → (n.loop E s ch fs).2.old.lmode = asI8 s.lmode) ∧ (kind s = .ladder → LadOk E (n.loop E s ch fs).2) ∧
    (kind s ≠ .ladder → (n.loop E s ch fs).2.ladder.1 = n.ladder.1) := by
  induction fs with
  | nil => intro n ch h hl; exact ⟨rfl, rfl, h, fun h => absurd rfl h, hl, fun _ => rfl⟩
  | cons f fs ih =>
    intro n ch h hl
    obtain ⟨f1, f2, f3, f4, f5, f6⟩ := frame_spec h ch s f hl
    obtain ⟨i1, i2, i3, i4, i5, i6⟩ := ih (n.frame E ch s f).2.1 (n.frame E ch s f).2.2 f3 f5
    simp only [Node.loop, List.map_cons, ideal, idealAfter, List.foldl_cons]
    rw [i1, f1, i2, f2]
    refine ⟨rfl, rfl, i3, fun _ => ?_, i5, fun hk => by rw [i6 hk, f6 hk]⟩
    cases fs with
    | nil => exact f4
    | cons g gs => exact i4 (by simp)

/-- The condition on the ladder mode, block by block. -/
def Fine (prev : ℤ) : List (Setting × List (Frame X)) → Prop
  | [] => True
  | b :: bs => (kind b.1 ≠ .ladder → (∃ c ∈ bs, kind c.1 = .ladder) → asI8 b.1.lmode = prev) ∧ Fine (asI8 b.1.lmode) bs

theorem fine_of (bs : List (Setting × List (Frame X))) : ∀ pre : List (Setting × List (Frame X)), ModeTurnedOnLadder (pre ++ bs) →
    Fine ((pre.getLast?.map (fun a => asI8 a.1.lmode)).getD 0) bs := by
  induction bs with
  | nil => intro pre _; trivial
  | cons b bs ih =>
    intro pre h
    refine ⟨fun hk hc => h pre b bs rfl hk hc, ?_⟩
    have := ih (pre ++ [b]) (by simpa using h)
    simpa using this

theorem run_spec {E : Ext X CS MS CV MV CL ML D U} (bs : List (Setting × List (Frame X))) : ∀ (n : Node CS MS CV MV CL ML D U), Ok E n →
    (∀ b ∈ bs, b.2 ≠ []) → ((∃ c ∈ bs, kind c.1 = .ladder) → LadOk E n) → Fine n.old.lmode bs →
    (n.run E bs).1.flatten = ideal E (memOf n) (frames bs) := by
  induction bs with
  | nil => intro n _ _ _ _; rfl
  | cons b bs ih =>
    intro n h hne hl hf
    obtain ⟨l1, l2, l3, l4, l5, l6⟩ := loop_spec b.1 b.2 n false h (fun hk => hl ⟨b, by simp, hk⟩)
    have hlm := l4 (hne b (by simp))
    simp only [Node.run, List.flatten_cons]
    rw [ih _ l3 (fun c hc => hne c (List.mem_cons_of_mem _ hc)) ?_ (by rw [hlm]; exact hf.2), l1, l2]
    · have : frames (b :: bs) = b.2.map (fun f => (b.1, f)) ++ frames bs := rfl
      rw [this, ideal_append]
    · intro hc
      by_cases hk : kind b.1 = .ladder
      · exact l5 hk
      · have := hf.1 hk hc
        have h0 := hl (by obtain ⟨c, hc1, hc2⟩ := hc; exact ⟨c, List.mem_cons_of_mem _ hc1, hc2⟩)
        unfold LadOk at h0 ⊢
        rw [l6 hk, hlm, this, h0]

/-! ### The theorems -/

/-- **C95** In every frame the selected filter works with the coefficients for the parameters and modes of this very frame, and the block boundaries
make no difference: what a new node plays is what the ideal filter plays. What is missing for the full claim is the ladder mode; it has to be
turned only while the ladder is selected. Of the constructor of the ladder filter it is assumed that it starts in the mode of setting 0. -/
theorem current_partial (E : Ext X CS MS CV MV CL ML D U) (h0 : E.lad0.1 = E.mix .LP6) (bs : List (Setting × List (Frame X)))
    (hne : ∀ b ∈ bs, b.2 ≠ []) (hm : ModeTurnedOnLadder bs) :
    ((Node.new E).run E bs).1.flatten = ideal E (Mem.empty E) (frames bs) :=
  run_spec bs (Node.new E) (Or.inl rfl) hne (fun _ => h0) (fine_of bs [] hm)

/-- **C95** In particular the SVF and the Sallen-Key filter always sound as they should, with any ladder modes, if the ladder is never selected. -/
theorem current_two_partial (E : Ext X CS MS CV MV CL ML D U) (bs : List (Setting × List (Frame X)))
    (hne : ∀ b ∈ bs, b.2 ≠ []) (hk : ∀ b ∈ bs, kind b.1 ≠ .ladder) :
    ((Node.new E).run E bs).1.flatten = ideal E (Mem.empty E) (frames bs) := by
  refine run_spec bs (Node.new E) (Or.inl rfl) hne (fun ⟨c, hc, h⟩ => absurd h (hk c hc)) (fine_of bs [] ?_)
  intro pre b post he _ ⟨c, hc, h⟩
  exact absurd h (hk c (by rw [List.nil_append] at he; rw [he]; simp [hc]))

/-! ### The mode that gets lost -/

/-- Filters that show their coefficients: the ladder multiplies with the number of its mode. -/
def exE : Ext ℚ ℚ ℚ ℚ ℚ ℚ ℚ Unit Unit where
  skCoefs p := p.freq
  skTick c _ m x := (c * x + m, c * x + m)
  svfCoefs p := p.res
  svfTick c _ m x := (c * x + m, c * x + m)
  mix
    | .LP6 => 1
    | .LP12 => 2
    | .LP18 => 3
    | .LP24 => 4
    | _ => 10
  ladTick c _ m x := (c * x + m, c * x + m)
  dc _ x := (x, ())
  half _ x := (x, ())
  twice x := x
  zero := 0
  sk0 := (0, 0)
  svf0 := (0, 0)
  lad0 := (1, 0)
  dc0 := ()
  half0 := ()
  params0 := ⟨0, 0, 0, .LP6, .LP⟩

def exF (x : ℚ) : Frame ℚ := ⟨x, 440, 1/2, 1⟩

/-- The mode is set to 24 dB while the SVF is selected, then the ladder is chosen. -/
def exLost : List (Setting × List (Frame ℚ)) := [(⟨1, 0, 0⟩, [exF 1]), (⟨1, 0, 3⟩, [exF 1]), (⟨0, 0, 3⟩, [exF 1])]

/-- **C95** The full claim is false: if the ladder mode is turned while another filter is selected and the ladder is selected afterwards, it plays
in its old mode. -/
theorem mode_lost : ¬ (∀ (E : Ext ℚ ℚ ℚ ℚ ℚ ℚ ℚ Unit Unit) (bs : List (Setting × List (Frame ℚ))), E.lad0.1 = E.mix .LP6 → (∀ b ∈ bs, b.2 ≠ []) →
    ((Node.new E).run E bs).1.flatten = ideal E (Mem.empty E) (frames bs)) := by
  intro h
  have := h exE exLost rfl (by decide +kernel)
  revert this
  decide +kernel

/-- The last sample is that of mode 0 (1) instead of mode 3 (4). -/
example : ((Node.new exE).run exE exLost).1.flatten = [1/2, 1, 1] ∧ ideal exE (Mem.empty exE) (frames exLost) = [1/2, 1, 4] := by decide +kernel

/-- Turned while the ladder is selected all is well. -/
def exFine : List (Setting × List (Frame ℚ)) :=
  [(⟨1, 0, 0⟩, [exF 1, exF 2]), (⟨0, 0, 3⟩, [exF 1]), (⟨2, 1, 3⟩, [exF 1]), (⟨0, 1, 3⟩, [exF 1]), (⟨1, 1, 5⟩, [exF 1])]

theorem ex_fine : ModeTurnedOnLadder exFine := by
  intro pre b post he hk hc
  rcases pre with _ | ⟨p1, _ | ⟨p2, _ | ⟨p3, _ | ⟨p4, _ | ⟨p5, pre⟩⟩⟩⟩⟩
  · simp only [exFine, List.nil_append, List.cons.injEq] at he; obtain ⟨rfl, _⟩ := he; rfl
  · simp only [exFine, List.cons_append, List.nil_append, List.cons.injEq] at he; obtain ⟨_, rfl, _⟩ := he; exact absurd rfl hk
  · simp only [exFine, List.cons_append, List.nil_append, List.cons.injEq] at he; obtain ⟨_, rfl, rfl, _⟩ := he; rfl
  · simp only [exFine, List.cons_append, List.nil_append, List.cons.injEq] at he; obtain ⟨_, _, rfl, rfl, _⟩ := he; rfl
  · simp only [exFine, List.cons_append, List.nil_append, List.cons.injEq] at he
    obtain ⟨_, _, _, _, rfl, rfl⟩ := he
    obtain ⟨c, hc, _⟩ := hc
    simp at hc
  · simp only [exFine, List.cons_append, List.cons.injEq] at he
    obtain ⟨_, _, _, _, _, he⟩ := he
    simp at he

example : ((Node.new exE).run exE exFine).1.flatten = ideal exE (Mem.empty exE) (frames exFine) :=
  current_partial exE rfl exFine (by decide +kernel) ex_fine

end HexoDSP.FVaFiltProps
