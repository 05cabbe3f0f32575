import Verif.Spec.Log
import Mathlib.Data.List.Basic
/-!
# Log messages (C46)
-/

set_option linter.unusedSectionVars false

namespace HexoDSP.LogProps
open HexoDSP.Log

theorem char_no_ff (c : Char) : (0xFF : UInt8) ∉ String.utf8EncodeChar c := by
  have key : ∀ n : Nat, n < 255 → UInt8.ofNat n ≠ 0xFF := by
    intro n hn h
    have := congrArg UInt8.toNat h
    simp at this
    omega
  have hv : c.val.toNat < 1114112 := by
    have := c.valid
    rcases this with h | ⟨_, h⟩
    · exact Nat.lt_trans h (by decide)
    · exact h
  have m : ∀ a b n : Nat, 0 < b → n + b ≤ 255 → a % b + n < 255 := fun a b n hb h => by have := Nat.mod_lt a hb; omega
  unfold String.utf8EncodeChar
  intro h
  simp only at h
  split at h
  · simp only [List.mem_cons, List.not_mem_nil, or_false] at h
    exact key _ (by omega) h.symm
  · split at h
    · simp only [List.mem_cons, List.not_mem_nil, or_false] at h
      rcases h with h | h <;> exact key _ (m _ _ _ (by decide) (by decide)) h.symm
    · split at h
      · simp only [List.mem_cons, List.not_mem_nil, or_false] at h
        rcases h with h | h | h <;> exact key _ (m _ _ _ (by decide) (by decide)) h.symm
      · simp only [List.mem_cons, List.not_mem_nil, or_false] at h
        rcases h with h | h | h | h <;> exact key _ (m _ _ _ (by decide) (by decide)) h.symm

/-- The byte `0xFF` does not occur in strings. -/
theorem no_ff (s : String) : (0xFF : UInt8) ∉ utf8 s := by
  obtain ⟨m, hm⟩ := s.isValidUTF8
  unfold utf8
  rw [hm]
  unfold List.utf8Encode
  rw [List.data_toByteArray]
  simp only [List.mem_flatMap, not_exists, not_and]
  intro c _
  exact char_no_ff c

theorem fromUtf8_utf8 (s : String) : fromUtf8 (utf8 s) = some s := by
  unfold fromUtf8 utf8 String.fromUTF8?
  have : (⟨s.toByteArray.data.toList.toArray⟩ : ByteArray) = s.toByteArray := by simp
  rw [this, dif_pos s.isValidUTF8]
  rfl

theorem frame_short {t : String} (h : (utf8 t).length ≤ 510) : frame t = some (utf8 t ++ [0xFF]) := by
  unfold frame
  simp only
  rw [if_neg (by omega), if_pos (by omega)]
  have : List.replicate (512 - (utf8 t).length) (0xFF : UInt8) = 0xFF :: List.replicate (511 - (utf8 t).length) 0xFF := by
    rw [show 512 - (utf8 t).length = (511 - (utf8 t).length) + 1 from by omega, List.replicate_succ]
  rw [this, List.take_length_add_append]
  rfl

/-- The bytes of messages: each ends with `0xFF`. -/
def encode (ms : List String) : List Byte := ms.flatMap (fun t => utf8 t ++ [0xFF])

/-- What the reader has in its buffer of logger `k`. -/
def bufOf (s : State) (k : Nat) : List Byte :=
  match s.reader with
  | some (k', buf) => if k' = k then buf else []
  | none => []

/-- The invariant: what is in the buffer and in the ring buffer are the messages not yet delivered. -/
structure Inv (acts : List Action) (s : State) : Prop where
  nameList : s.loggers.map (·.name) = Log.names acts
  pending : ∀ (k : Nat) (l : Logger), s.loggers[k]? = some l → ∃ ms, logged acts k = s.delivered k ++ ms ∧ bufOf s k ++ l.queue = encode ms ∧
    ∀ t ∈ ms, (utf8 t).length ≤ 510
  none_before : ∀ k : Nat, s.loggers.length ≤ k → logged acts k = [] ∧ s.delivered k = []
  clean : ∀ k : Nat, (0xFF : UInt8) ∉ bufOf s k
  named : ∀ d ∈ s.out, (s.loggers[d.logger]?).map (·.name) = some d.name
  room : ∀ (k : Nat) (l : Logger), s.loggers[k]? = some l → l.queue.length ≤ 4096

theorem logged_snoc (acts : List Action) (a : Action) (k : Nat) : logged (acts ++ [a]) k = logged acts k ++ logged [a] k := by
  unfold logged; rw [List.filterMap_append]

theorem names_snoc (acts : List Action) (a : Action) : names (acts ++ [a]) = names acts ++ names [a] := by
  unfold names; rw [List.filterMap_append]

theorem logged_other {acts : List Action} {a : Action} {k : Nat} (h : ∀ t, a ≠ .log k t) : logged (acts ++ [a]) k = logged acts k := by
  rw [logged_snoc]
  have : logged [a] k = [] := by
    unfold logged
    cases a <;> simp
    rename_i k' t
    intro hk; subst hk; exact h t rfl
  rw [this, List.append_nil]

theorem names_other {acts : List Action} {a : Action} (h : ∀ n, a ≠ .spawn n) : names (acts ++ [a]) = names acts := by
  rw [names_snoc]
  have : names [a] = [] := by
    unfold names
    cases a <;> simp
    rename_i n
    exact h n rfl
  rw [this, List.append_nil]

theorem inv_init : Inv [] State.init where
  nameList := rfl
  pending := fun k l h => by simp [State.init] at h
  none_before := fun k _ => ⟨rfl, rfl⟩
  clean := fun k => by simp [bufOf, State.init]
  named := fun d h => by simp [State.init] at h
  room := fun k l h => by simp [State.init] at h

/-- A buffer without `0xFF` followed by `0xFF` is the first message. -/
theorem encode_split {buf rest : List Byte} {ms : List String} (hb : (0xFF : UInt8) ∉ buf) (h : buf ++ 0xFF :: rest = encode ms) :
    ∃ t ms', ms = t :: ms' ∧ buf = utf8 t ∧ rest = encode ms' := by
  cases ms with
  | nil => simp [encode] at h
  | cons t ms =>
    have he : encode (t :: ms) = utf8 t ++ 0xFF :: encode ms := by simp [encode]
    rw [he] at h
    obtain ⟨h1, h2⟩ : buf = utf8 t ∧ (0xFF : UInt8) :: rest = 0xFF :: encode ms := by
      rcases List.append_eq_append_iff.mp h with ⟨c, hc1, hc2⟩ | ⟨c, hc1, hc2⟩
      · cases c with
        | nil => simp at hc1 hc2; exact ⟨hc1.symm, by simp [hc2]⟩
        | cons x c =>
          simp only [List.cons_append, List.cons.injEq] at hc2
          exfalso; apply no_ff t; rw [hc1, ← hc2.1]; simp
      · cases c with
        | nil => simp at hc1 hc2; exact ⟨hc1, by simp [hc2]⟩
        | cons x c =>
          simp only [List.cons_append, List.cons.injEq] at hc2
          exfalso; apply hb; rw [hc1, ← hc2.1]; simp
    exact ⟨t, ms, rfl, h1, by simpa using h2⟩

/-- A buffer without `0xFF` that is all there is, is empty. -/
theorem encode_empty {buf : List Byte} {ms : List String} (hb : (0xFF : UInt8) ∉ buf) (h : buf = encode ms) : ms = [] ∧ buf = [] := by
  cases ms with
  | nil => exact ⟨rfl, by simpa [encode] using h⟩
  | cons t ms => exfalso; apply hb; rw [h]; simp [encode]

/-- A buffer without `0xFF` is shorter than a message and its end. -/
theorem encode_short {buf q : List Byte} {ms : List String} (hb : (0xFF : UInt8) ∉ buf) (h : buf ++ q = encode ms)
    (hs : ∀ t ∈ ms, (utf8 t).length ≤ 510) : buf.length ≤ 510 := by
  cases ms with
  | nil => simp [encode] at h; simp [h.1]
  | cons t ms =>
    have he : encode (t :: ms) = utf8 t ++ 0xFF :: encode ms := by simp [encode]
    rw [he] at h
    rcases List.append_eq_append_iff.mp h with ⟨c, hc1, hc2⟩ | ⟨c, hc1, hc2⟩
    · have := hs t (by simp)
      rw [hc1, List.length_append] at this; omega
    · cases c with
      | nil => simp at hc1; rw [hc1]; exact hs t (by simp)
      | cons x c =>
        simp only [List.cons_append, List.cons.injEq] at hc2
        exfalso; apply hb; rw [hc1, ← hc2.1]; simp

theorem get_modify {α : Type} (l : List α) (k j : Nat) (f : α → α) :
    (l.modify k f)[j]? = if k = j then (l[j]?).map f else l[j]? := by
  rw [List.getElem?_modify]
  split
  · rfl
  · cases l[j]? <;> rfl

theorem delivered_snoc (s : State) (d : Delivered) (k : Nat) (ls : List Logger) (r : Option (Nat × List Byte)) :
    State.delivered ⟨ls, r, s.out ++ [d]⟩ k = s.delivered k ++ (if d.logger = k then [d.text] else []) := by
  unfold State.delivered
  rw [List.filterMap_append]
  congr 1
  by_cases h : d.logger = k <;> simp [h]

theorem inv_step {acts : List Action} {s s' : State} {a : Action} (I : Inv acts s) (ha : Allowed s a) (hs : s.step a = some s') :
    Inv (acts ++ [a]) s' := by
  cases a with
  | pushData k d => cases ha
  | pushEnd k => cases ha
  | spawn name =>
    have hr : s.reader = none := ha
    simp only [State.step, hr, Option.some.injEq] at hs
    subst hs
    have hb : ∀ k, bufOf s k = [] := fun k => by simp [bufOf, hr]
    refine ⟨?_, ?_, ?_, ?_, ?_, ?_⟩
    · rw [names_snoc, ← I.nameList]; simp [names]
    · intro k l hk
      rw [logged_other (by intro t h; cases h)]
      simp only at hk
      rcases Nat.lt_trichotomy k s.loggers.length with h | h | h
      · rw [List.getElem?_append_left h] at hk
        have := I.pending k l hk
        simpa [bufOf, hr, State.delivered] using this
      · subst h
        simp at hk
        obtain ⟨h1, h2⟩ := I.none_before s.loggers.length (Nat.le_refl _)
        refine ⟨[], by rw [h1]; simpa [State.delivered] using h2, ?_, by simp⟩
        subst hk; simp [bufOf, encode]
      · rw [List.getElem?_eq_none (by simp; omega)] at hk; cases hk
    · intro k hk
      simp only [List.length_append, List.length_cons, List.length_nil] at hk
      rw [logged_other (by intro t h; cases h)]
      exact I.none_before k (by omega)
    · intro k; simp [bufOf]
    · intro d hd
      have := I.named d hd
      simp only
      cases hk : s.loggers[d.logger]? with
      | none => rw [hk] at this; cases this
      | some l =>
        have hlt := (List.getElem?_eq_some_iff.mp hk).1
        rw [List.getElem?_append_left hlt, ← this]
    · intro k l hk
      simp only at hk
      rcases Nat.lt_trichotomy k s.loggers.length with h | h | h
      · rw [List.getElem?_append_left h] at hk; exact I.room k l hk
      · subst h; simp at hk; subst hk; simp
      · rw [List.getElem?_eq_none (by simp; omega)] at hk; cases hk
  | log k t =>
    obtain ⟨l, hl, hlen, hfit⟩ := ha
    simp only [State.step, frame_short hlen, Option.some.injEq] at hs
    subst hs
    have hpush : pushSlice l.queue (utf8 t ++ [0xFF]) = l.queue ++ (utf8 t ++ [0xFF]) := by
      unfold pushSlice
      rw [List.take_of_length_le (by simp [maxLogBuffer]; omega)]
    have hbuf : ∀ j, bufOf (s.push k (utf8 t ++ [0xFF])) j = bufOf s j := fun j => rfl
    have hdel : ∀ j, (s.push k (utf8 t ++ [0xFF])).delivered j = s.delivered j := fun j => rfl
    have hget : ∀ j, (s.push k (utf8 t ++ [0xFF])).loggers[j]? =
        if k = j then (s.loggers[j]?).map (fun l => { l with queue := pushSlice l.queue (utf8 t ++ [0xFF]) }) else s.loggers[j]? :=
      fun j => get_modify s.loggers k j _
    refine ⟨?_, ?_, ?_, ?_, ?_, ?_⟩
    · rw [names_other (by intro n h; cases h), ← I.nameList]
      apply List.ext_getElem?
      intro j
      rw [List.getElem?_map, List.getElem?_map, hget j]
      split
      · cases s.loggers[j]? <;> rfl
      · rfl
    · intro j l' hj
      rw [hget j] at hj
      by_cases hk : k = j
      · subst hk
        rw [if_pos rfl, hl] at hj
        simp only [Option.map_some, Option.some.injEq] at hj
        subst hj
        obtain ⟨ms, h1, h2, h3⟩ := I.pending k l hl
        refine ⟨ms ++ [t], ?_, ?_, ?_⟩
        · rw [logged_snoc, h1, hdel]; simp [logged]
        · rw [hbuf]
          simp only [hpush]
          rw [← List.append_assoc, h2]
          simp [encode]
        · intro u hu
          rcases List.mem_append.mp hu with h | h
          · exact h3 u h
          · simp at h; rw [h]; exact hlen
      · rw [if_neg hk] at hj
        rw [logged_other (by intro u h; cases h; exact hk rfl), hbuf, hdel]
        exact I.pending j l' hj
    · intro j hj
      have hj' : s.loggers.length ≤ j := by simpa [State.push] using hj
      have hk : k ≠ j := by
        intro h; subst h
        rw [List.getElem?_eq_none hj'] at hl; cases hl
      rw [logged_other (by intro u h; cases h; exact hk rfl), hdel]
      exact I.none_before j hj'
    · intro j; rw [hbuf]; exact I.clean j
    · intro d hd
      have := I.named d hd
      rw [hget, ← this]
      split
      · cases s.loggers[d.logger]? <;> rfl
      · rfl
    · intro j l' hj
      rw [hget j] at hj
      by_cases hk : k = j
      · subst hk
        rw [if_pos rfl, hl] at hj
        simp only [Option.map_some, Option.some.injEq] at hj
        subst hj
        simp only [hpush, List.length_append, List.length_cons, List.length_nil]
        omega
      · rw [if_neg hk] at hj; exact I.room j l' hj
  | startRead =>
    have hr : s.reader = none := ha
    simp only [State.step, hr, Option.some.injEq] at hs
    subst hs
    have hb : ∀ k, bufOf (⟨s.loggers, some (0, []), s.out⟩ : State) k = bufOf s k := fun k => by simp [bufOf, hr]
    refine ⟨by rw [names_other (by intro n h; cases h)]; exact I.nameList, ?_, ?_, ?_, I.named, I.room⟩
    · intro k l hk
      rw [logged_other (by intro t h; cases h), hb]
      exact I.pending k l hk
    · intro k hk
      rw [logged_other (by intro t h; cases h)]
      exact I.none_before k hk
    · intro k; rw [hb]; exact I.clean k
  | readStep =>
    simp only [State.step] at hs
    have hlog : ∀ k, logged (acts ++ [Action.readStep]) k = logged acts k := fun k => logged_other (by intro t h; cases h)
    have hnam : names (acts ++ [Action.readStep]) = names acts := names_other (by intro n h; cases h)
    unfold State.readStep at hs
    cases hr : s.reader with
    | none => exact absurd hr ha
    | some kb =>
      obtain ⟨k, buf⟩ := kb
      rw [hr] at hs
      simp only at hs
      have hbk : bufOf s k = buf := by simp [bufOf, hr]
      have hbo : ∀ j, j ≠ k → bufOf s j = [] := fun j hj => by simp [bufOf, hr, Ne.symm hj]
      cases hk : s.loggers[k]? with
      | none =>
        rw [hk] at hs
        simp only [Option.some.injEq] at hs
        subst hs
        refine ⟨by rw [hnam]; exact I.nameList, ?_, ?_, ?_, I.named, I.room⟩
        · intro j l hj
          simp only at hj
          have hjk : j ≠ k := by intro h; subst h; rw [hk] at hj; cases hj
          obtain ⟨ms, h1, h2, h3⟩ := I.pending j l hj
          rw [hbo j hjk] at h2
          exact ⟨ms, by rw [hlog]; exact h1, h2, h3⟩
        · intro j hj; rw [hlog]; exact I.none_before j hj
        · intro j; simp [bufOf]
      | some l =>
        rw [hk] at hs
        simp only at hs
        obtain ⟨ms, h1, h2, h3⟩ := I.pending k l hk
        rw [hbk] at h2
        cases hq : l.queue with
        | nil =>
          rw [hq] at hs h2
          simp only [Option.some.injEq] at hs
          subst hs
          rw [List.append_nil] at h2
          obtain ⟨hm0, hb0⟩ := encode_empty (by rw [← hbk]; exact I.clean k) h2
          have hb' : ∀ j, bufOf (⟨s.loggers, some (k + 1, []), s.out⟩ : State) j = bufOf s j := by
            intro j
            by_cases hj : j = k
            · subst hj; rw [hbk, hb0]; simp [bufOf]
            · rw [hbo j hj]; simp [bufOf]
          refine ⟨by rw [hnam]; exact I.nameList, ?_, ?_, ?_, I.named, I.room⟩
          · intro j l' hj
            rw [hlog, hb']; exact I.pending j l' hj
          · intro j hj; rw [hlog]; exact I.none_before j hj
          · intro j; rw [hb']; exact I.clean j
        | cons byte rest =>
          rw [hq] at hs h2
          simp only at hs
          have hget : ∀ j, (s.loggers.modify k (fun l => { l with queue := rest }))[j]? =
              if k = j then (s.loggers[j]?).map (fun l => { l with queue := rest }) else s.loggers[j]? := fun j => get_modify s.loggers k j _
          have hnames : (s.loggers.modify k (fun l => { l with queue := rest })).map (·.name) = s.loggers.map (·.name) := by
            apply List.ext_getElem?
            intro j
            rw [List.getElem?_map, List.getElem?_map, hget j]
            split
            · cases s.loggers[j]? <;> rfl
            · rfl
          have hname1 : ∀ j : Nat, ((s.loggers.modify k (fun l => { l with queue := rest }))[j]?).map Logger.name = (s.loggers[j]?).map Logger.name := by
            intro j; rw [← List.getElem?_map, hnames, List.getElem?_map]
          have hroom : ∀ (j : Nat) (l' : Logger), (s.loggers.modify k (fun l => { l with queue := rest }))[j]? = some l' → l'.queue.length ≤ 4096 := by
            intro j l' hj
            rw [hget j] at hj
            by_cases hkj : k = j
            · subst hkj
              rw [if_pos rfl, hk] at hj
              simp only [Option.map_some, Option.some.injEq] at hj
              subst hj
              have := I.room k l hk
              rw [hq, List.length_cons] at this
              simp only; omega
            · rw [if_neg hkj] at hj; exact I.room j l' hj
          have hclean : (0xFF : UInt8) ∉ buf := by rw [← hbk]; exact I.clean k
          have hshort : buf.length ≤ 510 := encode_short hclean h2 h3
          by_cases hend : byte = 0xFF
          · subst hend
            obtain ⟨t, ms', rfl, hbt, hrest⟩ := encode_split hclean h2
            rw [if_pos (Or.inr rfl), hbt, fromUtf8_utf8] at hs
            simp only [Option.some.injEq] at hs
            subst hs
            refine ⟨by rw [hnam, ← I.nameList]; exact hnames, ?_, ?_, ?_, ?_, hroom⟩
            · intro j l' hj
              rw [hlog, delivered_snoc]
              simp only at hj ⊢
              rw [hget j] at hj
              by_cases hkj : k = j
              · subst hkj
                rw [if_pos rfl, hk] at hj
                simp only [Option.map_some, Option.some.injEq] at hj
                subst hj
                refine ⟨ms', by rw [h1]; simp, ?_, fun u hu => h3 u (by simp [hu])⟩
                simp [bufOf, hrest]
              · rw [if_neg hkj] at hj
                rw [if_neg hkj, List.append_nil]
                obtain ⟨ms2, h4, h5, h6⟩ := I.pending j l' hj
                rw [hbo j (Ne.symm hkj)] at h5
                refine ⟨ms2, h4, ?_, h6⟩
                simpa [bufOf, hkj] using h5
            · intro j hj
              rw [hlog, delivered_snoc]
              have hj' : s.loggers.length ≤ j := by simpa using hj
              have hkj : k ≠ j := by
                intro h; subst h
                rw [List.getElem?_eq_none hj'] at hk; cases hk
              simp only
              rw [if_neg hkj, List.append_nil]
              exact I.none_before j hj'
            · intro j; simp [bufOf]
            · intro d hd
              simp only
              rw [hname1]
              rcases List.mem_append.mp hd with h | h
              · exact I.named d h
              · simp at h; subst h; simp [hk]
          · rw [if_neg (by rintro (h | h); omega; exact hend h)] at hs
            simp only [Option.some.injEq] at hs
            subst hs
            have hb' : ∀ j, j ≠ k → bufOf (⟨s.loggers.modify k (fun l => { l with queue := rest }), some (k, buf ++ [byte]), s.out⟩ : State) j = [] := by
              intro j hj; simp [bufOf, Ne.symm hj]
            have hb2 : bufOf (⟨s.loggers.modify k (fun l => { l with queue := rest }), some (k, buf ++ [byte]), s.out⟩ : State) k = buf ++ [byte] := by
              simp [bufOf]
            refine ⟨by rw [hnam, ← I.nameList]; exact hnames, ?_, ?_, ?_, ?_, hroom⟩
            · intro j l' hj
              rw [hlog]
              simp only at hj
              rw [hget j] at hj
              by_cases hkj : k = j
              · subst hkj
                rw [if_pos rfl, hk] at hj
                simp only [Option.map_some, Option.some.injEq] at hj
                subst hj
                refine ⟨ms, h1, ?_, h3⟩
                rw [hb2]; simpa using h2
              · rw [if_neg hkj] at hj
                obtain ⟨ms2, h4, h5, h6⟩ := I.pending j l' hj
                rw [hbo j (Ne.symm hkj)] at h5
                refine ⟨ms2, h4, ?_, h6⟩
                rw [hb' j (Ne.symm hkj)]; exact h5
            · intro j hj
              rw [hlog]
              exact I.none_before j (by simpa using hj)
            · intro j
              by_cases hj : j = k
              · subst hj; rw [hb2]
                intro h
                rcases List.mem_append.mp h with h | h
                · exact hclean h
                · simp at h; exact hend h.symm
              · rw [hb' j hj]; simp
            · intro d hd
              simp only
              rw [hname1]
              exact I.named d hd

theorem inv {acts : List Action} {s : State} (h : Reach acts s) : Inv acts s := by
  induction h with
  | init => exact inv_init
  | step _ ha hs ih => exact inv_step ih ha hs

/-- **C46** In every execution in which messages have at most 510 bytes and there is space for them: what the reader delivered from a logger is the
beginning of the sequence of messages logged there, under the name of the logger. Longer messages and full buffers: see
the negation theorems. -/
theorem messages_in_order_partial {acts : List Action} {s : State} (h : Reach acts s) :
    (∀ k, s.delivered k <+: logged acts k) ∧ ∀ d ∈ s.out, (names acts)[d.logger]? = some d.name := by
  have I := inv h
  refine ⟨?_, ?_⟩
  · intro k
    cases hk : s.loggers[k]? with
    | some l =>
      obtain ⟨ms, h1, _⟩ := I.pending k l hk
      exact ⟨ms, h1.symm⟩
    | none =>
      obtain ⟨h1, h2⟩ := I.none_before k (List.getElem?_eq_none_iff.mp hk)
      rw [h1, h2]; exact List.prefix_refl []
  · intro d hd
    rw [← I.nameList, List.getElem?_map]
    exact I.named d hd

/-- **C46** No step of such an execution panics. -/
theorem logging_never_panics_partial {acts : List Action} {s : State} (h : Reach acts s) {a : Action} (ha : Allowed s a) :
    ∃ s', s.step a = some s' := by
  have I := inv h
  cases a with
  | pushData k d => cases ha
  | pushEnd k => cases ha
  | spawn name => exact ⟨_, rfl⟩
  | startRead => exact ⟨_, rfl⟩
  | log k t =>
    obtain ⟨l, _, hlen, _⟩ := ha
    exact ⟨_, by simp only [State.step, frame_short hlen]; rfl⟩
  | readStep =>
    simp only [State.step]
    unfold State.readStep
    cases hr : s.reader with
    | none => exact ⟨_, rfl⟩
    | some kb =>
      obtain ⟨k, buf⟩ := kb
      simp only
      cases hk : s.loggers[k]? with
      | none => exact ⟨_, rfl⟩
      | some l =>
        simp only
        cases hq : l.queue with
        | nil => exact ⟨_, rfl⟩
        | cons byte rest =>
          simp only
          obtain ⟨ms, _, h2, h3⟩ := I.pending k l hk
          have hbk : bufOf s k = buf := by simp [bufOf, hr]
          rw [hbk, hq] at h2
          have hclean : (0xFF : UInt8) ∉ buf := by rw [← hbk]; exact I.clean k
          have hshort : buf.length ≤ 510 := encode_short hclean h2 h3
          by_cases hend : byte = 0xFF
          · subst hend
            obtain ⟨t, ms', rfl, hbt, _⟩ := encode_split hclean h2
            rw [if_pos (Or.inr rfl), hbt, fromUtf8_utf8]
            exact ⟨_, rfl⟩
          · rw [if_neg (by rintro (h | h); omega; exact hend h)]
            exact ⟨_, rfl⟩

/-- **C46** When the reader finds the buffer of a logger empty, and goes on to the next, everything logged there so far has been
delivered. -/
theorem nothing_left_behind_partial {acts : List Action} {s : State} (h : Reach acts s) {k : Nat} {buf : List Byte} {l : Logger}
    (hr : s.reader = some (k, buf)) (hk : s.loggers[k]? = some l) (hq : l.queue = []) : s.delivered k = logged acts k := by
  have I := inv h
  obtain ⟨ms, h1, h2, _⟩ := I.pending k l hk
  have hbk : bufOf s k = buf := by simp [bufOf, hr]
  rw [hbk, hq, List.append_nil] at h2
  obtain ⟨hm0, _⟩ := encode_empty (by rw [← hbk]; exact I.clean k) h2
  rw [h1, hm0, List.append_nil]

/-- Bytes the reader has still to take from loggers `k`, `k + 1`, … and the loggers themselves. -/
def work (s : State) : Nat :=
  match s.reader with
  | none => 0
  | some (k, _) => ((s.loggers.drop k).map (fun l => l.queue.length + 1)).sum + 1

theorem work_step {s s' : State} (hr : s.reader ≠ none) (h : s.readStep = some s') : work s' < work s := by
  unfold State.readStep at h
  cases hkb : s.reader with
  | none => exact absurd hkb hr
  | some kb =>
    obtain ⟨k, buf⟩ := kb
    rw [hkb] at h
    simp only at h
    cases hk : s.loggers[k]? with
    | none =>
      rw [hk] at h; simp only [Option.some.injEq] at h; subst h
      simp [work, hkb]
    | some l =>
      have hlt := (List.getElem?_eq_some_iff.mp hk).1
      have hl : s.loggers[k] = l := (List.getElem?_eq_some_iff.mp hk).2
      have hd : s.loggers.drop k = l :: s.loggers.drop (k + 1) := by rw [List.drop_eq_getElem_cons hlt, hl]
      rw [hk] at h
      simp only at h
      cases hq : l.queue with
      | nil =>
        rw [hq] at h; simp only [Option.some.injEq] at h; subst h
        simp [work, hkb, hd, hq]
      | cons byte rest =>
        rw [hq] at h
        simp only at h
        have hm : (s.loggers.modify k (fun l => { l with queue := rest })).drop k = { l with queue := rest } :: s.loggers.drop (k + 1) := by
          have hlt' : k < (s.loggers.modify k (fun l => { l with queue := rest })).length := by simpa using hlt
          rw [List.drop_eq_getElem_cons hlt']
          congr 1
          · rw [List.getElem_modify]; simp [hl]
          · apply List.ext_getElem?
            intro j
            rw [List.getElem?_drop, List.getElem?_drop, get_modify, if_neg (by omega)]
        split at h
        · cases hf : fromUtf8 buf with
          | none => rw [hf] at h; cases h
          | some t =>
            rw [hf] at h; simp only [Option.some.injEq] at h; subst h
            simp [work, hkb, hd, hm, hq]
        · simp only [Option.some.injEq] at h; subst h
          simp [work, hkb, hd, hm, hq]

theorem reading_ends : ∀ (n : Nat) {acts : List Action} {s : State}, Reach acts s → work s ≤ n → s.reader ≠ none →
    ∃ m s', Reach (acts ++ List.replicate m .readStep) s' ∧ s'.reader = none ∧ s.loggers.length = s'.loggers.length
  | 0, _, s, _, hw, hr => by
    unfold work at hw
    cases h : s.reader with
    | none => exact absurd h hr
    | some kb => rw [h] at hw; simp at hw
  | n + 1, acts, s, h, hw, hr => by
    obtain ⟨s1, hs1⟩ := logging_never_panics_partial h (a := .readStep) hr
    have hstep : s.readStep = some s1 := hs1
    have hlt := work_step hr hstep
    have hreach := Reach.step h (a := .readStep) hr hs1
    have hlen : s.loggers.length = s1.loggers.length := by
      have h1 := (inv h).nameList
      have h2 := (inv hreach).nameList
      rw [names_other (by intro n h; cases h), ← h1] at h2
      have := congrArg List.length h2
      simpa using this.symm
    by_cases hr1 : s1.reader = none
    · exact ⟨1, s1, hreach, hr1, hlen⟩
    · obtain ⟨m, s', h1, h2, h3⟩ := reading_ends n hreach (by omega) hr1
      refine ⟨m + 1, s', ?_, h2, hlen.trans h3⟩
      rw [List.replicate_succ, ← List.singleton_append, ← List.append_assoc]
      exact h1

/-- While the reader is at logger `k` everything of the loggers before it was delivered, if nothing else happens. -/
def Passed (acts : List Action) (s : State) : Prop :=
  ∀ k buf j, s.reader = some (k, buf) → j < k → s.delivered j = logged acts j

theorem delivered_mono {s s' : State} (h : s.readStep = some s') (j : Nat) : s.delivered j <+: s'.delivered j := by
  unfold State.readStep at h
  split at h
  · simp only [Option.some.injEq] at h; subst h; exact List.prefix_refl _
  · split at h
    · simp only [Option.some.injEq] at h; subst h; exact List.prefix_refl _
    · split at h
      · simp only [Option.some.injEq] at h; subst h; exact List.prefix_refl _
      · simp only at h
        split at h
        · split at h
          · cases h
          · simp only [Option.some.injEq] at h; subst h
            rw [delivered_snoc]; exact List.prefix_append _ _
        · simp only [Option.some.injEq] at h; subst h; exact List.prefix_refl _

theorem poll_end : ∀ (n : Nat) {acts : List Action} {s : State}, Reach acts s → work s ≤ n → s.reader ≠ none → Passed acts s →
    ∃ m s', Reach (acts ++ List.replicate m .readStep) s' ∧ s'.reader = none ∧ ∀ j, s'.delivered j = logged acts j
  | 0, _, s, _, hw, hr, _ => by
    unfold work at hw
    cases h : s.reader with
    | none => exact absurd h hr
    | some kb => rw [h] at hw; simp at hw
  | n + 1, acts, s, h, hw, hr, hp => by
    obtain ⟨s1, hs1⟩ := logging_never_panics_partial h (a := .readStep) hr
    have hstep : s.readStep = some s1 := hs1
    have hlt := work_step hr hstep
    have hreach := Reach.step h (a := .readStep) hr hs1
    have hlog : ∀ j, logged (acts ++ [Action.readStep]) j = logged acts j := fun j => logged_other (by intro t h; cases h)
    -- what was complete stays complete
    have hkeep : ∀ j, s.delivered j = logged acts j → s1.delivered j = logged acts j := by
      intro j hj
      have h1 := delivered_mono hstep j
      have h2 := (messages_in_order_partial hreach).1 j
      rw [hlog] at h2
      rw [hj] at h1
      exact h2.eq_of_length (Nat.le_antisymm h2.length_le h1.length_le)
    cases hkb : s.reader with
    | none => exact absurd hkb hr
    | some kb =>
      obtain ⟨k, buf⟩ := kb
      by_cases hr1 : s1.reader = none
      · refine ⟨1, s1, hreach, hr1, ?_⟩
        intro j
        have hend : s.loggers[k]? = none := by
          cases hk : s.loggers[k]? with
          | none => rfl
          | some l =>
            exfalso
            unfold State.readStep at hstep
            rw [hkb] at hstep
            simp only [hk] at hstep
            cases hq : l.queue with
            | nil => rw [hq] at hstep; simp only [Option.some.injEq] at hstep; subst hstep; cases hr1
            | cons byte rest =>
              rw [hq] at hstep
              simp only at hstep
              split at hstep
              · cases hf : fromUtf8 buf with
                | none => rw [hf] at hstep; cases hstep
                | some t => rw [hf] at hstep; simp only [Option.some.injEq] at hstep; subst hstep; cases hr1
              · simp only [Option.some.injEq] at hstep; subst hstep; cases hr1
        by_cases hj : j < k
        · exact hkeep j (hp k buf j hkb hj)
        · apply hkeep
          obtain ⟨h1, h2⟩ := (inv h).none_before j (by have := List.getElem?_eq_none_iff.mp hend; omega)
          rw [h1, h2]
      · have hp1 : Passed (acts ++ [Action.readStep]) s1 := by
          intro k1 buf1 j hk1 hj
          rw [hlog]
          unfold State.readStep at hstep
          rw [hkb] at hstep
          simp only at hstep
          cases hk : s.loggers[k]? with
          | none => rw [hk] at hstep; simp only [Option.some.injEq] at hstep; subst hstep; cases hk1
          | some l =>
            rw [hk] at hstep
            simp only at hstep
            cases hq : l.queue with
            | nil =>
              rw [hq] at hstep; simp only [Option.some.injEq] at hstep; subst hstep
              simp only [Option.some.injEq, Prod.mk.injEq] at hk1
              by_cases hjk : j < k
              · exact hp k buf j hkb hjk
              · have : j = k := by omega
                subst this
                exact nothing_left_behind_partial h hkb hk hq
            | cons byte rest =>
              rw [hq] at hstep
              simp only at hstep
              split at hstep
              · cases hf : fromUtf8 buf with
                | none => rw [hf] at hstep; cases hstep
                | some t =>
                  rw [hf] at hstep; simp only [Option.some.injEq] at hstep
                  have : k1 = k := by subst hstep; simp only [Option.some.injEq, Prod.mk.injEq] at hk1; exact hk1.1.symm
                  subst this
                  exact hkeep j (hp k1 buf j hkb hj)
              · simp only [Option.some.injEq] at hstep
                have : k1 = k := by subst hstep; simp only [Option.some.injEq, Prod.mk.injEq] at hk1; exact hk1.1.symm
                subst this
                exact hkeep j (hp k1 buf j hkb hj)
        obtain ⟨m, s', h1, h2, h3⟩ := poll_end n hreach (by omega) hr1 hp1
        refine ⟨m + 1, s', ?_, h2, fun j => by rw [h3 j, hlog]⟩
        rw [List.replicate_succ, ← List.singleton_append, ← List.append_assoc]
        exact h1

/-- **C46** A call of `retrieve_log_messages` that is not disturbed returns, and then everything logged has been delivered. -/
theorem poll_delivers_all_partial {acts : List Action} {s : State} (h : Reach acts s) (hr : s.reader = none) :
    ∃ m s', Reach (acts ++ [.startRead] ++ List.replicate m .readStep) s' ∧ s'.reader = none ∧ ∀ k, s'.delivered k = logged acts k := by
  have hs : s.step .startRead = some { s with reader := some (0, []) } := by simp [State.step, hr]
  have h1 := Reach.step h (a := .startRead) hr hs
  obtain ⟨m, s', h2, h3, h4⟩ := poll_end _ h1 (Nat.le_refl _) (by simp) (by
    intro k buf j hk hj
    simp only [Option.some.injEq, Prod.mk.injEq] at hk
    omega)
  refine ⟨m, s', h2, h3, fun k => ?_⟩
  rw [h4 k, logged_other (by intro t h; cases h)]

/-! ## What goes wrong otherwise -/

/-- A text of `n` letters. -/
def letters (c : Char) (n : Nat) : String := String.ofList (List.replicate n c)

theorem utf8_letters (n : Nat) : utf8 (letters 'a' n) = List.replicate n 97 := by
  unfold utf8 letters
  rw [String.toByteArray_ofList]
  unfold List.utf8Encode
  rw [List.data_toByteArray]
  simp only
  induction n with
  | zero => rfl
  | succ n ih => rw [List.replicate_succ, List.flatMap_cons, ih, List.replicate_succ]; rfl

/-- **C46** (violated) A message of more than 512 bytes panics. -/
theorem long_message_panics (s : State) (k n : Nat) (hn : 512 < n) : s.step (.log k (letters 'a' n)) = none := by
  have : frame (letters 'a' n) = none := by
    unfold frame
    simp only
    rw [if_pos (by rw [utf8_letters, List.length_replicate]; omega)]
  simp only [State.step, this]

/-- **C46** (violated) A message logged while the buffer is full is lost without notice. -/
theorem full_buffer_loses (s : State) (k : Nat) (l : Logger) (t : String) (hl : s.loggers[k]? = some l) (hfull : l.queue.length = 4096)
    (ht : (utf8 t).length ≤ 510) : s.step (.log k t) = some s := by
  simp only [State.step, frame_short ht, State.push, Option.some.injEq]
  have : s.loggers.modify k (fun l => { l with queue := pushSlice l.queue (utf8 t ++ [0xFF]) }) = s.loggers := by
    apply List.ext_getElem?
    intro j
    rw [get_modify]
    split
    · rename_i h; subst h
      rw [hl]
      simp [pushSlice, maxLogBuffer, hfull]
    · rfl
  rw [this]

theorem log_more {acts : List Action} {s : State} {q : List Byte} (h : Reach acts s) (hs : s.loggers = [⟨"t", q⟩]) (n : Nat)
    (hn : n ≤ 510) (hf : n + 1 + q.length ≤ 4096) :
    ∃ acts' s' q', Reach acts' s' ∧ s'.loggers = [⟨"t", q'⟩] ∧ q'.length = q.length + n + 1 := by
  have hlen : (utf8 (letters 'a' n)).length = n := by rw [utf8_letters, List.length_replicate]
  have hstep : s.step (.log 0 (letters 'a' n)) = some (s.push 0 (utf8 (letters 'a' n) ++ [0xFF])) := by
    simp only [State.step, frame_short (t := letters 'a' n) (by omega)]
  refine ⟨_, _, pushSlice q (utf8 (letters 'a' n) ++ [0xFF]), Reach.step h (a := .log 0 (letters 'a' n)) ⟨⟨"t", q⟩, by rw [hs]; rfl, by omega, by simp only; omega⟩ hstep,
    by simp [State.push, hs, List.modify], ?_⟩
  unfold pushSlice
  rw [List.take_of_length_le (by simp [maxLogBuffer, hlen]; omega)]
  simp [hlen]; omega

/-- A full buffer is reached by logging short messages that fit. -/
theorem full_buffer_reached : ∃ acts s l, Reach acts s ∧ s.loggers[0]? = some l ∧ l.queue.length = 4096 := by
  have h0 : Reach ([] ++ [.spawn "t"]) ⟨[⟨"t", []⟩], none, []⟩ := Reach.step Reach.init (a := .spawn "t") rfl rfl
  have many : ∀ n, n ≤ 8 → ∃ acts' s' q', Reach acts' s' ∧ s'.loggers = [⟨"t", q'⟩] ∧ q'.length = 511 * n := by
    intro n
    induction n with
    | zero => exact fun _ => ⟨_, _, [], h0, rfl, rfl⟩
    | succ n ih =>
      intro hn
      obtain ⟨a, s, q, h1, h2, h3⟩ := ih (by omega)
      obtain ⟨a', s', q', h4, h5, h6⟩ := log_more h1 h2 510 (by omega) (by omega)
      exact ⟨a', s', q', h4, h5, by omega⟩
  obtain ⟨a, s, q, h1, h2, h3⟩ := many 8 (by omega)
  obtain ⟨a', s', q', h4, h5, h6⟩ := log_more h1 h2 7 (by omega) (by omega)
  exact ⟨a', s', _, h4, by rw [h5]; rfl, by simp only; omega⟩

/-- The state after some actions. -/
def textsOf (acts : List Action) : Option (List String) := (runAll State.init acts).map (fun s => s.out.map (·.text))

/-- `n` steps of the reader. -/
def reads (n : Nat) : List Action := .startRead :: List.replicate n .readStep

set_option maxRecDepth 100000 in
/-- **C46** (violated) Messages of 511 bytes are joined with the next one. -/
theorem message_of_511_joined : textsOf ([.spawn "t", .log 0 (letters 'a' 511), .log 0 "b"] ++ reads 520) = some [letters 'a' 511 ++ "b"] := by
  decide +kernel

/-- **C46** (violated) `log_buf` publishes the text and its end separately: if the reader comes in between, the text is lost and an empty
message is delivered. -/
theorem log_buf_torn :
    textsOf ([.spawn "t", .pushData 0 (utf8 "ab")] ++ reads 4 ++ [.pushEnd 0] ++ reads 3) = some [""] := by
  decide +kernel

/-- Two loggers, messages logged while the reader is at work. -/
example : (runAll State.init ([.spawn "x", .spawn "y", .log 0 "ab", .log 1 "c", .startRead, .readStep, .log 0 "d", .readStep, .log 1 "e"] ++
    List.replicate 20 .readStep)).map (fun s => (s.out, s.reader)) =
    some ([⟨0, "x", "ab"⟩, ⟨0, "x", "d"⟩, ⟨1, "y", "c"⟩, ⟨1, "y", "e"⟩], none) := by decide +kernel

end HexoDSP.LogProps
