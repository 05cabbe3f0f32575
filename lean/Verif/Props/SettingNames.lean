import Verif.Model.SettingNames
import Verif.Model.MidiSet
import Verif.Model.Env
import Verif.Spec.SettingNames
import Verif.Lemmas.Format
import Mathlib.Data.List.Nodup
import Mathlib.Data.List.GetD
set_option linter.unusedSectionVars false

/-! # C135: the names of settings -/

namespace HexoDSP.SettingNamesProps
open HexoDSP.Table HexoDSP.SettingNames HexoDSP.SettingNamesSpec

/-- What is checked for each row of the table. -/
def rowOk (node : String) (a : AtomRow) : Bool :=
  decide (node = "vosc" ∧ a.inIdx = 6) ||
  match macroOf.find? (fun m => m.1 = node ∧ m.2.1 = a.name) with
  | some (_, _, .names l other) => decide (a.min = 0 ∧ (l.length : Int) = a.max + 1 ∧ l.Nodup ∧ "" ∉ l ∧ "?" ∉ l) &&
      decide (other = "?" ∨ node = "smap" ∧ a.inIdx = 3 ∧ other = "")
  | some (_, _, .number) => decide (a.min = 0)
  | _ => false

theorem table_ok : ∀ k : Fin nodeTable.length, ∀ a ∈ (row k).atoms, a.min < a.max → rowOk (row k).name a = true := by decide +kernel

/-- The macro of a setting, with what is known about it. -/
theorem fa_of {p : ParamId} {lo hi : Int} (h : p.settingMinMax = some (lo, hi)) (hlt : lo < hi) (hx : ¬ (p.node.name = "vosc" ∧ p.idx = 6)) :
    lo = 0 ∧ (faOf p = some .number ∨ ∃ l other, faOf p = some (.names l other) ∧ (l.length : Int) = hi + 1 ∧ l.Nodup ∧ "" ∉ l ∧ "?" ∉ l ∧
      (other = "?" ∨ p.node.name = "smap" ∧ p.idx = 3 ∧ other = "")) := by
  unfold ParamId.settingMinMax at h
  unfold faOf
  cases hn : p.node with
  | nop => rw [hn] at h; cases h
  | node k i =>
    rw [hn] at h hx
    simp only at h ⊢
    obtain ⟨a, ha, he⟩ := Option.map_eq_some_iff.mp h
    injection he with e1 e2
    subst e1; subst e2
    rw [ha]
    have hidx : a.inIdx = p.idx := by simpa using List.find?_some ha
    have ok := table_ok k a (List.mem_of_find?_eq_some ha) hlt
    unfold rowOk at ok
    have hx' : decide ((row k).name = "vosc" ∧ a.inIdx = 6) = false := by
      rw [hidx]; exact decide_eq_false hx
    rw [hx', Bool.false_or] at ok
    split at ok
    · rename_i l other hm
      simp only [Bool.and_eq_true, decide_eq_true_eq] at ok
      obtain ⟨⟨o1, o2, o3, o4, o5⟩, o6⟩ := ok
      refine ⟨o1, .inr ⟨l, other, by simp only [hm, Option.map_some], o2, o3, o4, o5, ?_⟩⟩
      rw [← hidx]; exact o6
    · rename_i hm
      simp only [decide_eq_true_eq] at ok
      exact ⟨ok, .inl (by simp only [hm, Option.map_some])⟩
    · cases ok

theorem floor_int (n : Nat) : ⌊((n : Int) : ℝ) + 1 / 2⌋₊ = n := by
  rw [Nat.floor_eq_iff (by positivity)]
  push_cast
  constructor <;> linarith

theorem digits_says (n : Nat) : Says (String.ofList (Format.digits n)) := by
  obtain ⟨h1, h2, -⟩ := Format.Lemmas.digits_ok n
  constructor
  · intro h
    exact h2 (by have := congrArg String.toList h; simpa using this)
  · intro h
    have e : Format.digits n = ['?'] := by have := congrArg String.toList h; simpa using this
    have := (h1 '?' (by rw [e]; exact List.mem_singleton.2 rfl)).1
    exact absurd this (by decide)

theorem digits_inj {n m : Nat} (h : Format.digits n = Format.digits m) : n = m := by
  rw [← (Format.Lemmas.digits_ok n).2.2, h, (Format.Lemmas.digits_ok m).2.2]

/-- **C135** Every value of every setting with more than one value (the distortion of `VOsc` aside, which is named by another crate) has a name, and no two
values of a setting have the same one. -/
theorem named_apart_partial (p : ParamId) (lo hi : Int) (h : p.settingMinMax = some (lo, hi)) (hlt : lo < hi)
    (hx : ¬ (p.node.name = "vosc" ∧ p.idx = 6)) :
    (∀ i : Int, lo ≤ i → i ≤ hi → ∃ t, format p i = some t ∧ Says t) ∧
    ∀ i j : Int, lo ≤ i → i ≤ hi → lo ≤ j → j ≤ hi → format p i = format p j → i = j := by
  obtain ⟨h0, hf⟩ := fa_of h hlt hx
  subst h0
  have nat : ∀ i : Int, 0 ≤ i → ∃ n : Nat, i = n := fun i hi => ⟨i.toNat, by omega⟩
  rcases hf with hf | ⟨l, other, hf, h1, h2, h3, h4, -⟩
  · constructor
    · intro i hi0 _
      obtain ⟨n, rfl⟩ := nat i hi0
      refine ⟨_, by simp only [format, hf, Option.bind_some, Fa.text, floor_int], digits_says n⟩
    · intro i j hi0 _ hj0 _ he
      obtain ⟨n, rfl⟩ := nat i hi0
      obtain ⟨m, rfl⟩ := nat j hj0
      simp only [format, hf, Option.bind_some, Fa.text, floor_int, Option.some.injEq] at he
      have e : Format.digits n = Format.digits m := by have := congrArg String.toList he; simpa using this
      rw [digits_inj e]
  · have get : ∀ n : Nat, (n : Int) ≤ hi → ∃ hn : n < l.length, format p ((n : Int) : ℝ) = some l[n] := by
      intro n hn
      have hl : n < l.length := by omega
      refine ⟨hl, ?_⟩
      simp only [format, hf, Option.bind_some, Fa.text, floor_int]
      rw [List.getD_eq_getElem _ _ hl]
    constructor
    · intro i hi0 hi1
      obtain ⟨n, rfl⟩ := nat i hi0
      obtain ⟨hl, e⟩ := get n hi1
      refine ⟨_, e, fun hc => h3 ?_, fun hc => h4 ?_⟩ <;> rw [← hc] <;> exact List.getElem_mem hl
    · intro i j hi0 hi1 hj0 hj1 he
      obtain ⟨n, rfl⟩ := nat i hi0
      obtain ⟨m, rfl⟩ := nat j hj0
      obtain ⟨hl, e⟩ := get n hi1
      obtain ⟨hm, e'⟩ := get m hj1
      rw [e, e', Option.some.injEq] at he
      rw [(List.Nodup.getElem_inj_iff h2).1 he]

/-- **C135** A number between two values is shown as the nearer one (at the middle the upper one). -/
theorem nearest_shown (p : ParamId) (v : ℝ) (i : Int) (hi : 0 ≤ i) (h1 : (i : ℝ) - 1 / 2 ≤ v) (h2 : v < i + 1 / 2) : format p v = format p i := by
  obtain ⟨n, rfl⟩ : ∃ n : Nat, i = n := ⟨i.toNat, by omega⟩
  have : ⌊v + 1 / 2⌋₊ = n := by
    push_cast at h1 h2
    rw [Nat.floor_eq_iff (by have : (0 : ℝ) ≤ n := by positivity
                             linarith)]
    constructor <;> linarith
  unfold format
  congr 1
  funext f
  unfold Fa.text
  rw [this, floor_int]

/-- **C135** Above the range a question mark is shown where the values have names, nothing for the mode of `SMap`, and the number where they are numbers. -/
theorem above_range (p : ParamId) (lo hi : Int) (h : p.settingMinMax = some (lo, hi)) (hlt : lo < hi)
    (hx : ¬ (p.node.name = "vosc" ∧ p.idx = 6)) (i : Int) (hi' : hi < i) :
    format p i = some "?" ∨ (p.node.name = "smap" ∧ p.idx = 3 ∧ format p i = some "") ∨
      ∃ t, format p i = some t ∧ (FormatSpec.decimal t.toList : Int) = i := by
  obtain ⟨h0, hf⟩ := fa_of h hlt hx
  subst h0
  obtain ⟨n, rfl⟩ : ∃ n : Nat, i = n := ⟨i.toNat, by omega⟩
  rcases hf with hf | ⟨l, other, hf, h1, -, -, -, h5⟩
  · refine .inr (.inr ⟨String.ofList (Format.digits n), by simp only [format, hf, Option.bind_some, Fa.text, floor_int], ?_⟩)
    rw [String.toList_ofList, (Format.Lemmas.digits_ok n).2.2]
  · have e : format p ((n : Int) : ℝ) = some other := by
      simp only [format, hf, Option.bind_some, Fa.text, floor_int]
      rw [List.getD_eq_default _ _ (by omega)]
    rw [e]
    rcases h5 with rfl | ⟨a, b, rfl⟩
    · exact .inl rfl
    · exact .inr (.inl ⟨a, b, rfl⟩)

/-- **C135** (negation) Every negative value is shown with the name of the value 0, whatever the node does with it. -/
theorem negative_shown_as_zero (p : ParamId) (i : Int) (hi : i < 0) : format p i = format p 0 := by
  have a : ⌊(i : ℝ) + 1 / 2⌋₊ = 0 := by
    rw [Nat.floor_eq_zero]
    have : (i : ℝ) ≤ -1 := by exact_mod_cast (by omega : i ≤ -1)
    linarith
  have b : ⌊(0 : ℝ) + 1 / 2⌋₊ = 0 := by rw [Nat.floor_eq_zero]; norm_num
  unfold format
  congr 1
  funext f
  unfold Fa.text
  rw [a, b]

theorem midicc_chan : (NodeId.fromStr "midicc").inpParam "chan" = some ⟨"chan", NodeId.fromStr "midicc", 1⟩ ∧
    (ParamId.mk "chan" (NodeId.fromStr "midicc") 1).settingMinMax = some (0, 15) := by decide +kernel

theorem midicc_fa : faOf ⟨"chan", NodeId.fromStr "midicc", 1⟩ = some .number := by
  have h := (fa_of midicc_chan.2 (by decide) (by decide +kernel)).2
  rcases h with h | ⟨l, o, h, -⟩
  · exact h
  · exfalso
    have : ((faOf ⟨"chan", NodeId.fromStr "midicc", 1⟩).any fun f => match f with | .number => true | _ => false) = true := by decide +kernel
    rw [h] at this
    cases this

open HexoDSP.Midi HexoDSP.MidiSet in
/-- **C135** The number shown for the channel of `MidiCC` is the channel it listens to, for the channels 0 to 15: an event of another channel changes nothing,
one of this channel for the first controller is taken. -/
theorem channel_shown {V S : Type} (c : CCSettings) (hc : 0 ≤ c.chan ∧ c.chan ≤ 15) (s : MidiCC V S × Bool) :
    ∃ p t, (NodeId.fromStr "midicc").inpParam "chan" = some p ∧ format p c.chan = some t ∧
      (∀ ch cc v, ch ≠ FormatSpec.decimal t.toList → event c s (.cc ch cc v) = s) ∧
      ∀ v, event c s (.cc (FormatSpec.decimal t.toList) (c.cc1 % 128).toNat v) = ({ s.1 with cur1 := v }, true) := by
  obtain ⟨n, hn⟩ : ∃ n : Nat, c.chan = n := ⟨c.chan.toNat, by omega⟩
  refine ⟨_, String.ofList (Format.digits n), midicc_chan.1, ?_, ?_, ?_⟩
  · rw [hn]; simp only [format, midicc_fa, Option.bind_some, Fa.text, floor_int]
  · intro ch cc v hne
    rw [String.toList_ofList, (Format.Lemmas.digits_ok n).2.2] at hne
    simp only [event]
    rw [if_pos (by omega)]
  · intro v
    rw [String.toList_ofList, (Format.Lemmas.digits_ok n).2.2]
    unfold event
    simp only
    rw [if_neg (by omega)]
    simp

open HexoDSP.Midi HexoDSP.MidiSet in
/-- **C135** (negation) With the channel -1 a `MidiCC` shows 0 and listens to 15; with the channel 16 it shows 16 and listens to 0. -/
theorem channel_out_of_range {V S : Type} (c : CCSettings) (s : MidiCC V S × Bool) : ∃ p, (NodeId.fromStr "midicc").inpParam "chan" = some p ∧
    (c.chan = -1 → format p c.chan = some "0" ∧ ∀ v, event c s (.cc 0 (c.cc1 % 128).toNat v) = s ∧
      event c s (.cc 15 (c.cc1 % 128).toNat v) = ({ s.1 with cur1 := v }, true)) ∧
    (c.chan = 16 → format p c.chan = some "16" ∧ ∀ v, event c s (.cc 0 (c.cc1 % 128).toNat v) = ({ s.1 with cur1 := v }, true)) := by
  refine ⟨_, midicc_chan.1, fun h => ⟨?_, fun v => ⟨?_, ?_⟩⟩, fun h => ⟨?_, fun v => ?_⟩⟩
  · rw [h, negative_shown_as_zero _ _ (by decide)]
    have := floor_int 0
    simp only [format, midicc_fa, Option.bind_some, Fa.text]
    rw [show ((0 : ℝ)) = (((0 : Nat) : Int) : ℝ) by norm_num, this]
    decide +kernel
  · simp only [event, h]; rw [if_pos (by decide)]
  · simp [event, h]
  · rw [h]
    have := floor_int 16
    simp only [format, midicc_fa, Option.bind_some, Fa.text]
    rw [show ((16 : Int) : ℝ) = (((16 : Nat) : Int) : ℝ) by norm_num, this]
    decide +kernel
  · simp [event, h]

/-- The names of a setting, from the table. -/
theorem names_of {p : ParamId} {l : List String} {o : String} (h : faOf p = some (.names l o)) (n : Nat) (hn : n < l.length) :
    format p ((n : Int) : ℝ) = some l[n] := by
  simp only [format, h, Option.bind_some, Fa.text, floor_int]
  rw [List.getD_eq_getElem _ _ hn]

/-- **C135** The setting `mult` of `Ad` and `Adsr` is shown as `x` and the factor for the times. -/
theorem mult_shown (node : String) (hn : node = "ad" ∨ node = "adsr") (m : Int) (h0 : 0 ≤ m) (h2 : m ≤ 2) :
    ∃ p t, (NodeId.fromStr node).inpParam "mult" = some p ∧ format p m = some (String.ofList ('x' :: t)) ∧
      Env.multOf m = FormatSpec.decimal t := by
  have key : ∀ (p : ParamId), faOf p = some (.names ["x1", "x10", "x100"] "?") →
      ∃ t, format p m = some (String.ofList ('x' :: t)) ∧ Env.multOf m = FormatSpec.decimal t := by
    intro p hp
    obtain ⟨n, rfl⟩ : ∃ n : Nat, m = n := ⟨m.toNat, by omega⟩
    have hn : n < 3 := by omega
    interval_cases n
    · exact ⟨['1'], by rw [names_of hp 0 (by decide)]; decide +kernel, by simp [Env.multOf, FormatSpec.decimal]⟩
    · exact ⟨['1', '0'], by rw [names_of hp 1 (by decide)]; decide +kernel, by simp [Env.multOf, FormatSpec.decimal]⟩
    · exact ⟨['1', '0', '0'], by rw [names_of hp 2 (by decide)]; decide +kernel, by simp [Env.multOf, FormatSpec.decimal]⟩
  rcases hn with rfl | rfl
  · obtain ⟨t, h⟩ := key ⟨"mult", NodeId.fromStr "ad", 6⟩ (by rfl)
    exact ⟨_, t, by decide +kernel, h⟩
  · obtain ⟨t, h⟩ := key ⟨"mult", NodeId.fromStr "adsr", 9⟩ (by rfl)
    exact ⟨_, t, by decide +kernel, h⟩

/-- **C135** The number shown for the setting `in_cnt` of `Mux9` is the number of inputs in use (`c + 1`, see C47). -/
theorem inputs_shown (c : Nat) (hc : c ≤ 8) : ∃ p t, (NodeId.fromStr "mux9").inpParam "in_cnt" = some p ∧ format p (c : Int) = some t ∧
    FormatSpec.decimal t.toList = c + 1 := by
  have hp : faOf ⟨"in_cnt", NodeId.fromStr "mux9", 13⟩ = some (.names ["1", "2", "3", "4", "5", "6", "7", "8", "9"] "?") := by rfl
  have h := names_of hp c (by simp; omega)
  refine ⟨_, _, by decide +kernel, h, ?_⟩
  have : ∀ d : Fin 9, FormatSpec.decimal (["1", "2", "3", "4", "5", "6", "7", "8", "9"][d.1]'(by simp)).toList = d.1 + 1 := by
    decide +kernel
  exact this ⟨c, by omega⟩

/-- A case: the third value of the filter type of `SFilter`. -/
example : ∃ p, (NodeId.fromStr "sfilter").inpParam "ftype" = some p ∧ p.settingMinMax = some (0, 13) ∧ ¬ (p.node.name = "vosc" ∧ p.idx = 6) ∧
    format p ((2 : Nat) : Int) = some "HP 1p" :=
  ⟨⟨"ftype", NodeId.fromStr "sfilter", 3⟩, by decide +kernel, by decide +kernel, by decide +kernel,
    names_of (l := ["LP 1p", "LP 1pt", "HP 1p", "HP 1pt", "LP 12c", "HP 12c", "BP 12c", "NO 12c", "LP 12s", "HP 12s", "BP 12s", "NO 12s", "PK 12s",
      "LP 24m"]) (o := "?") rfl 2 (by decide)⟩

end HexoDSP.SettingNamesProps
