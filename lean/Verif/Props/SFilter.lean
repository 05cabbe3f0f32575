import Verif.Spec.SFilter
import Mathlib.Tactic.Linarith
import Mathlib.Tactic.NormNum
import Mathlib.Tactic.IntervalCases
import Mathlib.Data.List.Induction
/-!
# The simple filter node (C93)
-/

namespace HexoDSP.SFilterProps
open HexoDSP.SFilter HexoDSP.SFilterSpec

/-- The filter of a type that exists. -/
def filter (E : Ext) (isr : ℚ) (t : ℤ) (m : Mem) (f : Frame) : ℚ × Mem := (tick E isr t m f).getD (0, m)

theorem tick_some (E : Ext) (isr : ℚ) {t : ℤ} (h0 : 0 ≤ t) (h1 : t ≤ 13) (m : Mem) (f : Frame) :
    tick E isr t m f = some (filter E isr t m f) := by
  unfold filter
  interval_cases t <;> rfl

theorem clamp_into {lo hi : ℚ} (h : lo ≤ hi) (x : ℚ) : clamp lo hi x = into (lo, hi) x := by
  unfold clamp into
  simp only
  split
  · rename_i h1; rw [min_eq_right (by linarith), max_eq_left h1.le]
  · split
    · rename_i h1; rw [min_eq_left (le_of_lt h1), max_eq_right h]
    · rename_i h1 h2; rw [min_eq_right (not_lt.1 h2), max_eq_right (not_lt.1 h1)]

/-- The types are the filters of their names. -/
theorem filter_kind (E : Ext) (isr : ℚ) {t : Nat} {name : String} {k : Kind} (hk : kinds[t]? = some (name, k)) :
    filter E isr t = k.step E isr := by
  have ht : t < 14 := (List.getElem?_eq_some_iff.1 hk).1
  have c1 := clamp_into (lo := 1) (hi := 22000) (by norm_num)
  have c2 := clamp_into (lo := 1) (hi := 16000) (by norm_num)
  have c3 := clamp_into (lo := 2) (hi := 16000) (by norm_num)
  have c4 := clamp_into (lo := 1) (hi := 20000) (by norm_num)
  have q1 := clamp_into (lo := 0) (hi := 99/100) (by norm_num)
  have q2 := clamp_into (lo := 0) (hi := 1) (by norm_num)
  have x1 := clamp_into (lo := -1) (hi := 1) (by norm_num)
  funext m f
  interval_cases t <;> (simp [kinds] at hk; obtain ⟨_, rfl⟩ := hk; simp [filter, tick, Kind.step, Kind.cutoff, Kind.maxRes, c1, c2, c3, c4, q1, q2, x1])

theorem tick_none (E : Ext) (isr : ℚ) {t : ℤ} (h : t < 0 ∨ 13 < t) (m : Mem) (f : Frame) : tick E isr t m f = none := by
  unfold tick
  split <;> first | omega | rfl

/-- The memory after a list of frames. -/
def after (E : Ext) (isr : ℚ) (t : ℤ) : Mem → List Frame → Mem
  | m, [] => m
  | m, f :: fs => after E isr t (filter E isr t m f).2 fs

theorem loop_known (E : Ext) (isr : ℚ) {t : ℤ} (h0 : 0 ≤ t) (h1 : t ≤ 13) (fs : List Frame) : ∀ (m : Mem) (old : List ℚ),
    loop E isr t m fs old = (response (filter E isr t) m fs ++ old.drop fs.length, after E isr t m fs) := by
  induction fs with
  | nil => intro m old; rfl
  | cons f fs ih =>
    intro m old
    rw [loop, tick_some E isr h0 h1]
    simp only [ih, response, after, List.cons_append, List.length_cons]
    congr 3
    cases old <;> simp

theorem response_length {M X Y : Type} (step : M → X → Y × M) (xs : List X) : ∀ m, (response step m xs).length = xs.length := by
  induction xs with
  | nil => intro m; rfl
  | cons x xs ih => intro m; simp only [response, List.length_cons, ih]

theorem loop_unknown (E : Ext) (isr : ℚ) {t : ℤ} (h : t < 0 ∨ 13 < t) (fs : List Frame) : ∀ (m : Mem) (old : List ℚ),
    fs.length ≤ old.length → loop E isr t m fs old = (old, m) := by
  induction fs with
  | nil => intro m old _; rfl
  | cons f fs ih =>
    intro m old hl
    cases old with
    | nil => simp at hl
    | cons a old =>
      rw [loop, tick_none E isr h]
      simp only [List.tail_cons, List.headD_cons]
      rw [ih m old (by simpa using hl)]

theorem response_append {M X Y : Type} (step : M → X → Y × M) (a b : List X) : ∀ m, response step m (a ++ b) =
    response step m a ++ response step (a.foldl (fun m x => (step m x).2) m) b := by
  induction a with
  | nil => intro m; rfl
  | cons x a ih => intro m; simp only [List.cons_append, response, ih, List.foldl_cons]

theorem after_eq (E : Ext) (isr : ℚ) (t : ℤ) (fs : List Frame) : ∀ m, after E isr t m fs = fs.foldl (fun m x => (filter E isr t m x).2) m := by
  induction fs with
  | nil => intro m; rfl
  | cons f fs ih => intro m; simp only [after, ih, List.foldl_cons]

theorem process_known (E : Ext) (isr : ℚ) (n : Node) {s : ℤ} (h0 : 0 ≤ asI8 s) (h1 : asI8 s ≤ 13) (fs : List Frame) (old : List ℚ) :
    n.process E isr s fs old =
      (response (filter E isr (asI8 s)) (if asI8 s ≠ n.otype then Mem.zero else n.mem) fs ++ old.drop fs.length,
       ⟨after E isr (asI8 s) (if asI8 s ≠ n.otype then Mem.zero else n.mem) fs, asI8 s⟩) := by
  unfold Node.process
  simp only
  by_cases h : asI8 s ≠ n.otype
  · rw [if_pos h, if_pos h, loop_known E isr h0 h1]
  · rw [if_neg h, if_neg h, loop_known E isr h0 h1]
    rw [not_not.1 h]

theorem otype_process (E : Ext) (isr : ℚ) (n : Node) (s : ℤ) (fs : List Frame) (old : List ℚ) :
    (n.process E isr s fs old).2.otype = asI8 s := by
  unfold Node.process
  simp only
  split
  · rfl
  · rename_i h; exact (not_not.1 h).symm

/-- The state of the node and its output buffer after a list of blocks. -/
def walk (E : Ext) (isr : ℚ) : Node → List ℚ → List (ℤ × List Frame) → Node × List ℚ
  | n, old, [] => (n, old)
  | n, old, (t, fs) :: rest => walk E isr (n.process E isr t fs old).2 (n.process E isr t fs old).1 rest

theorem run_append (E : Ext) (isr : ℚ) (a b : List (ℤ × List Frame)) : ∀ (n : Node) (old : List ℚ),
    (n.run E isr old (a ++ b)).1 = (n.run E isr old a).1 ++
      ((walk E isr n old a).1.run E isr (walk E isr n old a).2 b).1 := by
  induction a with
  | nil => intro n old; rfl
  | cons x a ih =>
    intro n old
    obtain ⟨t, fs⟩ := x
    simp only [List.cons_append, Node.run, walk, ih]

theorem walk_append (E : Ext) (isr : ℚ) (a b : List (ℤ × List Frame)) : ∀ (n : Node) (old : List ℚ),
    walk E isr n old (a ++ b) = walk E isr (walk E isr n old a).1 (walk E isr n old a).2 b := by
  induction a with
  | nil => intro n old; rfl
  | cons x a ih =>
    intro n old
    obtain ⟨t, fs⟩ := x
    simp only [List.cons_append, walk, ih]

theorem otype_walk (E : Ext) (isr : ℚ) (a : List (ℤ × List Frame)) (n : Node) (old : List ℚ) :
    (walk E isr n old a).1.otype = (a.getLast?.map (fun b => asI8 b.1)).getD n.otype := by
  induction a using List.reverseRecOn with
  | nil => rfl
  | append_singleton a x _ =>
    obtain ⟨t, fs⟩ := x
    rw [walk_append]
    simp only [walk, List.getLast?_append, List.getLast?_singleton, Option.some_or, Option.map_some, Option.getD_some]
    exact otype_process _ _ _ _ _ _

theorem run_length (E : Ext) (isr : ℚ) (a : List (ℤ × List Frame)) : ∀ (n : Node) (old : List ℚ), (n.run E isr old a).1.length = a.length := by
  induction a with
  | nil => intro n old; rfl
  | cons x a ih =>
    intro n old
    obtain ⟨t, fs⟩ := x
    simp only [Node.run, List.length_cons, ih]

theorem run_same (E : Ext) (isr : ℚ) {t : ℤ} (h0 : 0 ≤ t) (h1 : t ≤ 13) (bs : List (ℤ × List Frame)) :
    ∀ (n : Node) (old : List ℚ), (∀ b ∈ bs, asI8 b.1 = t) → n.otype = t →
      (n.run E isr old bs).1.flatten = response (filter E isr t) n.mem (bs.map (fun b => b.2)).flatten := by
  induction bs with
  | nil => intro n old _ _; rfl
  | cons x bs ih =>
    intro n old hb hn
    obtain ⟨s, fs⟩ := x
    have hs : asI8 s = t := hb (s, fs) (by simp)
    have hr := process_known E isr n (s := s) (by rw [hs]; exact h0) (by rw [hs]; exact h1) fs old
    rw [hs] at hr
    rw [if_neg (by rw [hn]; exact fun h => h rfl)] at hr
    simp only [Node.run, List.flatten_cons, List.map_cons]
    rw [hr]
    simp only
    rw [ih _ _ (fun b h => hb b (List.mem_cons_of_mem _ h)) rfl, response_append, after_eq]
    congr 1
    rw [List.take_append_of_le_length (by rw [response_length]), List.take_of_length_le (by rw [response_length])]

/-! ### The theorems -/

/-- **C93** Whatever was played before, from the block on where a filter type is selected and for as long as it stays selected, the node sounds
like a new filter of that type with an empty memory; where the block boundaries lie makes no difference. The types are numbered as in the list of their names. `pre` are the blocks before, the last of
them with another type, `bs` the blocks of the stretch. The settings are taken `as i8`. -/
theorem stretch (E : Ext) (isr : ℚ) {t : Nat} {name : String} {k : Kind} (hk : kinds[t]? = some (name, k)) (old : List ℚ)
    (pre bs : List (ℤ × List Frame)) (hpre : ∀ b, pre.getLast? = some b → asI8 b.1 ≠ t) (hb : ∀ b ∈ bs, asI8 b.1 = t) :
    ((Node.new.run E isr old (pre ++ bs)).1.drop pre.length).flatten =
      response (k.step E isr) Mem.zero (bs.map (fun b => b.2)).flatten := by
  have ht : t < 14 := (List.getElem?_eq_some_iff.1 hk).1
  have h0 : (0 : ℤ) ≤ t := by omega
  have h1 : (t : ℤ) ≤ 13 := by omega
  rw [← filter_kind E isr hk]
  rw [run_append, List.drop_left' (run_length E isr pre _ _)]
  have ho : (walk E isr Node.new old pre).1.otype ≠ t := by
    rw [otype_walk]
    cases hl : pre.getLast? with
    | none => simp only [Option.map_none, Option.getD_none, Node.new]; omega
    | some b => simp only [Option.map_some, Option.getD_some]; exact hpre b hl
  generalize (walk E isr Node.new old pre).1 = n at ho
  generalize (walk E isr Node.new old pre).2 = buf
  cases bs with
  | nil => rfl
  | cons x bs =>
    obtain ⟨s, fs⟩ := x
    have hs : asI8 s = t := hb (s, fs) (by simp)
    have hr := process_known E isr n (s := s) (by rw [hs]; exact h0) (by rw [hs]; exact h1) fs buf
    rw [hs] at hr
    rw [if_pos (Ne.symm ho)] at hr
    simp only [Node.run, List.flatten_cons, List.map_cons]
    rw [hr]
    simp only
    rw [run_same E isr h0 h1 bs _ _ (fun b h => hb b (List.mem_cons_of_mem _ h)) rfl, response_append, after_eq]
    congr 1
    rw [List.take_append_of_le_length (by rw [response_length]), List.take_of_length_le (by rw [response_length])]

theorem clamp_range {lo hi : ℚ} (h : lo ≤ hi) (x : ℚ) : lo ≤ clamp lo hi x ∧ clamp lo hi x ≤ hi := by
  unfold clamp
  split
  · exact ⟨le_rfl, h⟩
  · split
    · exact ⟨h, le_rfl⟩
    · constructor <;> linarith

theorem tick_agree {E E' : Ext} (h : Agree E E') (isr : ℚ) (t : ℤ) (m : Mem) (f : Frame) : tick E isr t m f = tick E' isr t m f := by
  have c1 := clamp_range (lo := 1) (hi := 22000) (by norm_num) f.freq
  have c2 := clamp_range (lo := 1) (hi := 16000) (by norm_num) f.freq
  have c3 := clamp_range (lo := 2) (hi := 16000) (by norm_num) f.freq
  have c4 := clamp_range (lo := 1) (hi := 20000) (by norm_num) f.freq
  have q1 := clamp_range (lo := 0) (hi := 99/100) (by norm_num) f.res
  have q2 := clamp_range (lo := 0) (hi := 1) (by norm_num) f.res
  have x1 := clamp_range (lo := -1) (hi := 1) (by norm_num) f.inp
  by_cases ht : t < 0 ∨ 13 < t
  · rw [tick_none E isr ht, tick_none E' isr ht]
  have e1 := h.lp1 f.inp (clamp 1 22000 f.freq) isr m.z c1.1 c1.2
  have e2 := h.lp1t f.inp (clamp 1 22000 f.freq) isr m.z c1.1 c1.2
  have e3 := h.hp1 f.inp (clamp 1 22000 f.freq) isr m.z m.y c1.1 c1.2
  have e4 := h.hp1t f.inp (clamp 1 22000 f.freq) isr m.z c1.1 c1.2
  have e5 := h.hal f.inp (clamp 2 16000 f.freq) (clamp 0 (99/100) f.res) isr m.z m.y (by linarith [c3.1]) c3.2 q1.1 q1.2
  have e6 := h.hal f.inp (clamp 1 16000 f.freq) (clamp 0 (99/100) f.res) isr m.z m.y c2.1 c2.2 q1.1 q1.2
  have e7 := h.simper f.inp (clamp 1 22000 f.freq) (clamp 0 1 f.res) isr m.k m.h c1.1 c1.2 q2.1 q2.2
  have e8 := h.moog (clamp (-1) 1 f.inp) (clamp 1 20000 f.freq) (clamp 0 1 f.res) isr m.z m.y m.k m.h m.delay x1.1 x1.2 c4.1 c4.2 q2.1 q2.2
  have h0 : 0 ≤ t := by omega
  have h1 : t ≤ 13 := by omega
  interval_cases t <;> simp only [tick, e1, e2, e3, e4, e5, e6, e7, e8]

/-- **C93** The filters never see a cutoff frequency or a resonance outside of their range, nor the Moog filter an input beyond `[-1, 1]`, whatever
the inputs of the node are: filter functions that differ only there give the same sound. -/
theorem only_in_range {E E' : Ext} (h : Agree E E') (isr : ℚ) (bs : List (ℤ × List Frame)) : ∀ (n : Node) (old : List ℚ),
    n.run E isr old bs = n.run E' isr old bs := by
  have hl : ∀ (t : ℤ) (fs : List Frame) (m : Mem) (old : List ℚ), loop E isr t m fs old = loop E' isr t m fs old := by
    intro t fs
    induction fs with
    | nil => intro m old; rfl
    | cons f fs ih =>
      intro m old
      rw [loop, loop, tick_agree h]
      cases tick E' isr t m f with
      | none => simp only [ih]
      | some r => simp only [ih]
  induction bs with
  | nil => intro n old; rfl
  | cons x bs ih =>
    intro n old
    obtain ⟨t, fs⟩ := x
    simp only [Node.run, Node.process, hl, ih]

/-- **C93** Not part of the expectation: a setting that names no filter type does not silence the node nor let the signal through. The block before
is heard again, as often as there are blocks with that setting. -/
theorem unknown_repeats (E : Ext) (isr : ℚ) (old : List ℚ) (pre : List (ℤ × List Frame)) (b : ℤ × List Frame) (bs : List (ℤ × List Frame))
    (hold : b.2.length ≤ old.length) (hlen : ∀ c ∈ pre, c.2.length ≤ old.length)
    (hb : ∀ c ∈ bs, (asI8 c.1 < 0 ∨ 13 < asI8 c.1) ∧ c.2.length = b.2.length) :
    ∀ y ∈ (Node.new.run E isr old (pre ++ b :: bs)).1.drop (pre.length + 1),
      (Node.new.run E isr old (pre ++ b :: bs)).1[pre.length]? = some y := by
  have key : ∀ (n : Node) (buf : List ℚ) (bs : List (ℤ × List Frame)), b.2.length ≤ buf.length →
      (∀ c ∈ bs, (asI8 c.1 < 0 ∨ 13 < asI8 c.1) ∧ c.2.length = b.2.length) →
      ∀ y ∈ (n.run E isr buf bs).1, y = buf.take b.2.length := by
    intro n buf bs
    induction bs generalizing n with
    | nil => intro _ _ y hy; simp [Node.run] at hy
    | cons x bs ih =>
      intro hl hb y hy
      obtain ⟨s, fs⟩ := x
      obtain ⟨h1, h2⟩ := hb (s, fs) (by simp)
      simp only at h1 h2
      have hp : ∃ n', n.process E isr s fs buf = (buf, n') := by
        unfold Node.process
        simp only
        rw [loop_unknown E isr h1 fs _ _ (by omega)]
        exact ⟨_, rfl⟩
      obtain ⟨n', hp⟩ := hp
      simp only [Node.run, hp] at hy
      rcases List.mem_cons.1 hy with h | h
      · rw [h, h2]
      · exact ih n' hl (fun c hc => hb c (List.mem_cons_of_mem _ hc)) y h
  have bufl : ∀ (t : ℤ) (fs : List Frame) (m : Mem) (old : List ℚ), fs.length ≤ old.length → (loop E isr t m fs old).1.length = old.length := by
    intro t fs
    induction fs with
    | nil => intro m old _; rfl
    | cons f fs ih =>
      intro m old hl
      cases old with
      | nil => simp at hl
      | cons a old =>
        rw [loop]
        cases tick E isr t m f with
        | none => simp only [List.tail_cons, List.length_cons]; rw [ih _ _ (by simpa using hl)]
        | some r => simp only [List.tail_cons, List.length_cons]; rw [ih _ _ (by simpa using hl)]
  have walkl : ∀ (pre : List (ℤ × List Frame)) (n : Node) (old : List ℚ), (∀ c ∈ pre, c.2.length ≤ old.length) →
      (walk E isr n old pre).2.length = old.length := by
    intro pre
    induction pre with
    | nil => intro n old _; rfl
    | cons x pre ih =>
      intro n old hc
      obtain ⟨s, fs⟩ := x
      have h1 : (n.process E isr s fs old).1.length = old.length := by
        unfold Node.process
        exact bufl _ _ _ _ (hc (s, fs) (by simp))
      rw [walk, ih _ _ (by rw [h1]; exact fun c h => hc c (List.mem_cons_of_mem _ h)), h1]
  intro y hy
  rw [run_append] at hy ⊢
  have hw := walkl pre Node.new old hlen
  generalize (walk E isr Node.new old pre).1 = n at hy hw ⊢
  generalize (walk E isr Node.new old pre).2 = buf at hy hw ⊢
  have hlr := run_length E isr pre Node.new old
  rw [← List.drop_drop, List.drop_left' hlr] at hy
  rw [List.getElem?_append_right (by omega), hlr, Nat.sub_self]
  obtain ⟨s, fs⟩ := b
  simp only [Node.run, List.drop_succ_cons, List.drop_zero, List.getElem?_cons_zero] at hy ⊢
  have h1 : (n.process E isr s fs buf).1.length = buf.length := by
    unfold Node.process
    exact bufl _ _ _ _ (by rw [hw]; exact hold)
  rw [key _ _ bs (by rw [h1, hw]; exact hold) hb y hy]

/-! ### A concrete run -/

/-- Filter functions that add up what they have seen; enough to tell memory from no memory. -/
def exE : Ext where
  lp1 x _ _ z := (x + z, x + z)
  lp1t x _ _ z := (x + z, x + z)
  hp1 x _ _ z y := (x - z, x, y + 1)
  hp1t x _ _ z := (x - z, x)
  hal x _ _ _ z y := (x, x, z + x, y + x)
  simper x _ _ _ k h := (x + k, x, h, k + x, h + x)
  moog x f q _ z y k h d := (x + z + f + q, x, y, k, h, d)

def exBlocks : List (ℤ × List Frame) :=
  [(0, [⟨1, 440, 0⟩, ⟨2, 440, 0⟩]), (0, [⟨3, 440, 0⟩]), (8, [⟨1, 440, 0⟩, ⟨2, 440, 0⟩]), (0, [⟨5, 440, 0⟩, ⟨5, 440, 0⟩]), (99, [⟨7, 440, 0⟩, ⟨7, 440, 0⟩])]

/-- The last stretch of type 0 starts afresh (5, 10), and the setting 99 repeats it. -/
example : (Node.new.run exE (1/44100) (List.replicate 4 0) exBlocks).1 = [[1, 3], [6], [1, 3], [5, 10], [5, 10]] := by decide +kernel

example : ((Node.new.run exE (1/44100) (List.replicate 4 0) ((exBlocks.take 3) ++ [exBlocks[3]])).1.drop 3).flatten =
    response (Kind.lowpass.step exE (1/44100)) Mem.zero [⟨5, 440, 0⟩, ⟨5, 440, 0⟩] :=
  stretch exE (1/44100) (t := 0) rfl (List.replicate 4 0) (exBlocks.take 3) [exBlocks[3]]
    (by decide +kernel) (by decide +kernel)

/-- A setting of 256 is filter type 0 again. -/
example : asI8 256 = 0 ∧ asI8 13 = 13 ∧ asI8 200 = -56 := by decide +kernel

end HexoDSP.SFilterProps
