import Verif.Spec.Samples
/-!
# The sample library (C45, C72)
-/

set_option linter.unusedSectionVars false

namespace HexoDSP.SamplesProps
open HexoDSP.Samples

variable {F : Type}

theorem stepLoop_get {α : Type} (n : Nat) (hn : 0 < n) : ∀ (fuel : Nat) (l : List α), l.length ≤ fuel →
    ∀ k, (stepLoop n fuel l)[k]? = l[k * n]?
  | 0, [], _, k => by simp [stepLoop]
  | fuel + 1, [], _, k => by simp [stepLoop]
  | fuel + 1, x :: xs, h, 0 => by simp [stepLoop]
  | fuel + 1, x :: xs, h, k + 1 => by
    have hk : (k + 1) * n = (n - 1 + k * n) + 1 := by rw [Nat.succ_mul]; omega
    rw [stepLoop, List.getElem?_cons_succ, hk, List.getElem?_cons_succ,
      stepLoop_get n hn fuel (xs.drop (n - 1)) (by rw [List.length_drop]; simp at h; omega), List.getElem?_drop]

theorem stepBy_get {α : Type} {n : Nat} (hn : 0 < n) (l : List α) (k : Nat) : (stepBy n l)[k]? = l[k * n]? :=
  stepLoop_get n hn l.length l (Nat.le_refl _) k

theorem stepBy_length {α : Type} {n : Nat} (hn : 0 < n) (l : List α) : (stepBy n l).length = (l.length + (n - 1)) / n := by
  apply Nat.le_antisymm
  · apply Nat.le_of_not_lt
    intro hlt
    have h1 : (stepBy n l)[(l.length + (n - 1)) / n]? ≠ none := by
      intro h; have := List.getElem?_eq_none_iff.mp h; omega
    rw [stepBy_get hn] at h1
    apply h1
    apply List.getElem?_eq_none_iff.mpr
    have := Nat.div_add_mod (l.length + (n - 1)) n
    have h2 := Nat.mod_lt (l.length + (n - 1)) hn
    rw [Nat.mul_comm]; omega
  · apply Nat.le_of_not_lt
    intro hlt
    have h1 : (stepBy n l)[(stepBy n l).length]? = none := List.getElem?_eq_none_iff.mpr (Nat.le_refl _)
    rw [stepBy_get hn] at h1
    have h2 := List.getElem?_eq_none_iff.mp h1
    have h3 := (Nat.le_div_iff_mul_le hn).mp (Nat.succ_le_of_lt hlt)
    rw [Nat.succ_mul] at h3
    omega

theorem pushAll_spec {α : Type} {f : α → F} : ∀ (l : List (Option α)) (v r : List F), pushAll f l v = .ok r →
    ∃ t : List α, l = t.map some ∧ r = v ++ t.map f
  | [], v, r, h => by
    simp only [pushAll, Except.ok.injEq] at h
    exact ⟨[], rfl, by simp [h]⟩
  | none :: _, _, _, h => by simp [pushAll] at h
  | some s :: rest, v, r, h => by
    rw [pushAll] at h
    obtain ⟨t, ht, hr⟩ := pushAll_spec rest _ r h
    exact ⟨s :: t, by simp [ht], by simp [hr]⟩

theorem first_channel {α : Type} {f : α → F} {w : Wav F} {rate : F} {samples : List (Option α)} {data : List F} (hc : w.channels ≠ 0)
    (h : pushAll f ((stepBy w.channels samples).take (60 * w.rate)) [rate] = .ok data) : FirstChannel w samples f rate data := by
  obtain ⟨t, ht, hd⟩ := pushAll_spec _ _ _ h
  have hpos : 0 < w.channels := by omega
  have hl : t.length = min (60 * w.rate) ((samples.length + (w.channels - 1)) / w.channels) := by
    have := congrArg List.length ht
    rw [List.length_map, List.length_take, stepBy_length hpos] at this
    exact this.symm
  subst hd
  refine ⟨by simp, by simp [hl]; omega, ?_⟩
  intro k hk
  have hk' : k < t.length := by simpa using hk
  refine ⟨t[k], ?_, by simp [hk']⟩
  have h1 : ((stepBy w.channels samples).take (60 * w.rate))[k]? = some (some t[k]) := by rw [ht]; simp [hk']
  rw [List.getElem?_take] at h1
  split at h1
  · rw [stepBy_get hpos] at h1; exact h1
  · cases h1

theorem readWav_contents {C : Conv F} {w : Wav F} {data : List F} (h : readWav C 60 w = some (.ok data)) : Contents C w data := by
  unfold readWav at h
  unfold Contents
  split at h
  · cases h
  · rename_i hc
    simp only [Option.some.injEq] at h
    cases hf : w.format with
    | float => rw [hf] at h; exact first_channel hc h
    | int => rw [hf] at h; exact first_channel hc h

/-- What a fresh library answers to a single call: what is in the file now. -/
def readNow (C : Conv F) (fs : String → Option (Wav F)) (p : String) : Option (Except LoadError (String × List F)) :=
  (Library.load C Library.new fs p).map (·.result)

theorem load_hit {C : Conv F} {l : Library F} {fs : String → Option (Wav F)} {p : String} {a : String × List F} (h : l.loaded.lookup p = some a) :
    l.load C fs p = some ⟨l, [], .ok a⟩ := by
  unfold Library.load; rw [h]

theorem load_miss {C : Conv F} {l : Library F} {fs : String → Option (Wav F)} {p : String} {o : Outcome F} (hm : l.maxS = 60) (h : l.loaded.lookup p = none)
    (ho : l.load C fs p = some o) :
    o.opened = [p] ∧ readNow C fs p = some o.result ∧ o.lib.maxS = 60 ∧
    ((∃ e, o.result = .error e ∧ o.lib = l) ∨
     ∃ v w, fs p = some w ∧ readWav C 60 w = some (.ok v) ∧ o.result = .ok (p, v) ∧ o.lib.loaded = (p, (p, v)) :: l.loaded) := by
  unfold Library.load at ho
  unfold readNow Library.load
  rw [h] at ho
  simp only [Library.new, List.lookup_nil]
  cases hf : fs p with
  | none =>
    rw [hf] at ho
    simp only [Option.some.injEq] at ho
    subst ho
    exact ⟨rfl, rfl, hm, .inl ⟨_, rfl, rfl⟩⟩
  | some w =>
    rw [hf, hm] at ho
    simp only at ho ⊢
    cases hr : readWav C 60 w with
    | none => rw [hr] at ho; cases ho
    | some r =>
      rw [hr] at ho
      cases r with
      | error e =>
        simp only [Option.some.injEq] at ho
        subst ho
        exact ⟨rfl, rfl, hm, .inl ⟨_, rfl, rfl⟩⟩
      | ok v =>
        simp only [Option.some.injEq] at ho
        subst ho
        exact ⟨rfl, rfl, rfl, .inr ⟨v, w, rfl, hr, rfl, rfl⟩⟩

theorem lookup_cons_self {l : Library F} {o : Outcome F} {p : String} {v : List F} (h : o.lib.loaded = (p, (p, v)) :: l.loaded) :
    o.lib.loaded.lookup p = some (p, v) := by rw [h]; simp [List.lookup]

theorem lookup_cons_ne {l : Library F} {o : Outcome F} {p q : String} {v : List F} (h : o.lib.loaded = (p, (p, v)) :: l.loaded) (hne : q ≠ p) :
    o.lib.loaded.lookup q = l.loaded.lookup q := by
  rw [h, List.lookup_cons, beq_false_of_ne hne]

/-- A call keeps what is loaded; it makes a path loaded if and only if it succeeds for it. -/
theorem load_keeps {C : Conv F} {l : Library F} {fs : String → Option (Wav F)} {p q : String} {o : Outcome F} {a : String × List F} (hm : l.maxS = 60)
    (ho : l.load C fs p = some o) (hq : l.loaded.lookup q = some a) : o.lib.loaded.lookup q = some a := by
  cases h : l.loaded.lookup p with
  | some b => rw [load_hit h] at ho; cases ho; exact hq
  | none =>
    obtain ⟨_, _, _, h1⟩ := load_miss hm h ho
    rcases h1 with ⟨e, _, h2⟩ | ⟨v, w, _, _, _, h2⟩
    · rw [h2]; exact hq
    · by_cases hne : q = p
      · subst hne; rw [h] at hq; cases hq
      · rw [lookup_cons_ne h2 hne]; exact hq

theorem load_maxS {C : Conv F} {l : Library F} {fs : String → Option (Wav F)} {p : String} {o : Outcome F} (hm : l.maxS = 60)
    (ho : l.load C fs p = some o) : o.lib.maxS = 60 := by
  cases h : l.loaded.lookup p with
  | some b => rw [load_hit h] at ho; cases ho; exact hm
  | none => exact (load_miss hm h ho).2.2.1

theorem run_cons {C : Conv F} {l : Library F} {fs : String → Option (Wav F)} {p : String} {rest : List ((String → Option (Wav F)) × String)}
    {os : List (Outcome F)} (h : l.run C ((fs, p) :: rest) = some os) :
    ∃ o os', l.load C fs p = some o ∧ o.lib.run C rest = some os' ∧ os = o :: os' := by
  unfold Library.run at h
  cases ho : l.load C fs p with
  | none => rw [ho] at h; simp at h
  | some o =>
    rw [ho] at h
    simp only [Option.bind_eq_bind, Option.bind_some] at h
    cases hos : o.lib.run C rest with
    | none => rw [hos] at h; simp at h
    | some os' =>
      rw [hos] at h
      simp only [Option.bind_some, Option.some.injEq] at h
      exact ⟨o, os', rfl, hos, h.symm⟩

/-- Once loaded, a path is answered from the library. -/
theorem run_hit {C : Conv F} {p : String} {a : String × List F} : ∀ (calls : List ((String → Option (Wav F)) × String)) (l : Library F) (os : List (Outcome F)),
    l.maxS = 60 → l.loaded.lookup p = some a → l.run C calls = some os →
    ∀ (j : Nat) (fs : String → Option (Wav F)) (o : Outcome F), calls[j]? = some (fs, p) → os[j]? = some o → o.result = .ok a ∧ o.opened = []
  | [], _, _, _, _, _, j, fs, o, h, _ => by simp at h
  | (fs', p') :: rest, l, os, hm, hl, hr, j, fs, o, hc, ho => by
    obtain ⟨o', os', h1, h2, h3⟩ := run_cons hr
    subst h3
    cases j with
    | zero =>
      simp only [List.getElem?_cons_zero, Option.some.injEq] at hc ho
      obtain ⟨rfl, rfl⟩ := Prod.mk.inj hc
      subst ho
      rw [load_hit hl] at h1
      cases h1
      exact ⟨rfl, rfl⟩
    | succ j =>
      exact run_hit rest o'.lib os' (load_maxS hm h1) (load_keeps hm h1 hl) h2 j fs o (by simpa using hc) (by simpa using ho)

/-- After a successful call the path is loaded. -/
theorem load_ok_loaded {C : Conv F} {l : Library F} {fs : String → Option (Wav F)} {p : String} {o : Outcome F} {a : String × List F} (hm : l.maxS = 60)
    (ho : l.load C fs p = some o) (ha : o.result = .ok a) : o.lib.loaded.lookup p = some a := by
  cases h : l.loaded.lookup p with
  | some b => rw [load_hit h] at ho; cases ho; cases ha; exact h
  | none =>
    obtain ⟨_, _, _, h1⟩ := load_miss hm h ho
    rcases h1 with ⟨e, h2, _⟩ | ⟨v, w, _, _, h2, h3⟩
    · rw [h2] at ha; cases ha
    · rw [h2] at ha; cases ha; exact lookup_cons_self h3

theorem run_same {C : Conv F} {p : String} {a : String × List F} : ∀ (calls : List ((String → Option (Wav F)) × String)) (l : Library F) (os : List (Outcome F)),
    l.maxS = 60 → l.run C calls = some os →
    ∀ (i j : Nat) (fs fs' : String → Option (Wav F)) (o o' : Outcome F), i < j → calls[i]? = some (fs, p) → os[i]? = some o → o.result = .ok a →
      calls[j]? = some (fs', p) → os[j]? = some o' → o'.result = .ok a ∧ o'.opened = []
  | [], _, _, _, _, i, j, fs, fs', o, o', _, h, _, _, _, _ => by simp at h
  | (fs0, p0) :: rest, l, os, hm, hr, i, j, fs, fs', o, o', hij, hc, ho, ha, hc', ho' => by
    obtain ⟨o1, os1, h1, h2, h3⟩ := run_cons hr
    subst h3
    obtain ⟨j, rfl⟩ : ∃ j', j = j' + 1 := ⟨j - 1, by omega⟩
    cases i with
    | zero =>
      simp only [List.getElem?_cons_zero, Option.some.injEq] at hc ho
      obtain ⟨rfl, rfl⟩ := Prod.mk.inj hc
      subst ho
      exact run_hit rest o1.lib os1 (load_maxS hm h1) (load_ok_loaded hm h1 ha) h2 j fs' o' (by simpa using hc') (by simpa using ho')
    | succ i =>
      exact run_same rest o1.lib os1 (load_maxS hm h1) h2 i j fs fs' o o' (by omega) (by simpa using hc) (by simpa using ho) ha
        (by simpa using hc') (by simpa using ho')

/-- A call for a path that is not loaded, after calls that all failed for it, reads the file as it is now. -/
theorem run_fresh {C : Conv F} {p : String} : ∀ (calls : List ((String → Option (Wav F)) × String)) (l : Library F) (os : List (Outcome F)),
    l.maxS = 60 → l.loaded.lookup p = none → l.run C calls = some os →
    ∀ (j : Nat) (fs : String → Option (Wav F)) (o : Outcome F), calls[j]? = some (fs, p) → os[j]? = some o →
      (∀ (i : Nat) (fs' : String → Option (Wav F)) (o' : Outcome F) (a : String × List F), i < j → calls[i]? = some (fs', p) → os[i]? = some o' → o'.result ≠ .ok a) →
      readNow C fs p = some o.result ∧ o.opened = [p]
  | [], _, _, _, _, _, j, fs, o, h, _, _ => by simp at h
  | (fs0, p0) :: rest, l, os, hm, hl, hr, j, fs, o, hc, ho, hfail => by
    obtain ⟨o1, os1, h1, h2, h3⟩ := run_cons hr
    subst h3
    cases j with
    | zero =>
      simp only [List.getElem?_cons_zero, Option.some.injEq] at hc ho
      obtain ⟨rfl, rfl⟩ := Prod.mk.inj hc
      subst ho
      obtain ⟨h4, h5, _⟩ := load_miss hm hl h1
      exact ⟨h5, h4⟩
    | succ j =>
      have hl1 : o1.lib.loaded.lookup p = none := by
        cases h : l.loaded.lookup p0 with
        | some b => rw [load_hit h] at h1; cases h1; exact hl
        | none =>
          obtain ⟨_, _, _, h4⟩ := load_miss hm h h1
          rcases h4 with ⟨e, _, h5⟩ | ⟨v, w, _, _, h5, h6⟩
          · rw [h5]; exact hl
          · by_cases hp : p = p0
            · subst hp
              exact absurd h5 (hfail 0 fs0 o1 _ (by omega) (by simp) (by simp))
            · rw [lookup_cons_ne h6 hp]; exact hl
      exact run_fresh rest o1.lib os1 (load_maxS hm h1) hl1 h2 j fs o (by simpa using hc) (by simpa using ho)
        (fun i fs' o' a hi hci hoi => hfail (i + 1) fs' o' a (by omega) (by simpa using hci) (by simpa using hoi))

theorem run_origin {C : Conv F} {p : String} {a : String × List F} : ∀ (calls : List ((String → Option (Wav F)) × String)) (l : Library F) (os : List (Outcome F)),
    l.maxS = 60 → l.loaded.lookup p = none → l.run C calls = some os →
    ∀ (j : Nat) (fs : String → Option (Wav F)) (o : Outcome F), calls[j]? = some (fs, p) → os[j]? = some o → o.result = .ok a →
      ∃ (i : Nat) (fs' : String → Option (Wav F)) (w : Wav F), i ≤ j ∧ calls[i]? = some (fs', p) ∧ fs' p = some w ∧ a.1 = p ∧ Contents C w a.2
  | [], _, _, _, _, _, j, fs, o, h, _, _ => by simp at h
  | (fs0, p0) :: rest, l, os, hm, hl, hr, j, fs, o, hc, ho, ha => by
    obtain ⟨o1, os1, h1, h2, h3⟩ := run_cons hr
    subst h3
    cases j with
    | zero =>
      simp only [List.getElem?_cons_zero, Option.some.injEq] at hc ho
      obtain ⟨rfl, rfl⟩ := Prod.mk.inj hc
      subst ho
      obtain ⟨_, _, _, h4⟩ := load_miss hm hl h1
      rcases h4 with ⟨e, h5, _⟩ | ⟨v, w, h5, h6, h7, _⟩
      · rw [h5] at ha; cases ha
      · rw [h7] at ha; cases ha
        exact ⟨0, _, w, Nat.le_refl _, by simp, h5, rfl, readWav_contents h6⟩
    | succ j =>
      cases h : o1.lib.loaded.lookup p with
      | none =>
        obtain ⟨i, fs', w, hi, hci, h5⟩ := run_origin rest o1.lib os1 (load_maxS hm h1) h h2 j fs o (by simpa using hc) (by simpa using ho) ha
        exact ⟨i + 1, fs', w, by omega, by simpa using hci, h5⟩
      | some b =>
        have h3 := (run_hit rest o1.lib os1 (load_maxS hm h1) h h2 j fs o (by simpa using hc) (by simpa using ho)).1
        rw [ha] at h3; cases h3
        cases hp : l.loaded.lookup p0 with
        | some b' => rw [load_hit hp] at h1; cases h1; rw [hl] at h; cases h
        | none =>
          obtain ⟨_, _, _, h4⟩ := load_miss hm hp h1
          rcases h4 with ⟨e, _, h5⟩ | ⟨v, w, h5, h6, _, h8⟩
          · rw [h5] at h; rw [hl] at h; cases h
          · by_cases hpp : p = p0
            · subst hpp
              rw [lookup_cons_self h8] at h; cases h
              exact ⟨0, fs0, w, by omega, by simp, h5, rfl, readWav_contents h6⟩
            · rw [lookup_cons_ne h8 hpp, hl] at h; cases h

/-- **C45** In every sequence of calls, with the files changing in any way between them: after a successful call for a path every later call
for it returns the same sample, without opening a file. -/
theorem loaded_once (C : Conv F) {calls : List ((String → Option (Wav F)) × String)} {os : List (Outcome F)} (hr : Library.new.run C calls = some os)
    {i j : Nat} {p : String} {fs fs' : String → Option (Wav F)} {o o' : Outcome F} {a : String × List F} (hij : i < j)
    (hi : calls[i]? = some (fs, p)) (hoi : os[i]? = some o) (ha : o.result = .ok a) (hj : calls[j]? = some (fs', p)) (hoj : os[j]? = some o') :
    o'.result = .ok a ∧ o'.opened = [] :=
  run_same calls Library.new os rfl hr i j fs fs' o o' hij hi hoi ha hj hoj

/-- **C45** What a call returns for a path are the contents of the file with that path, as it was at that or an earlier call for this path. -/
theorem samples_not_mixed (C : Conv F) {calls : List ((String → Option (Wav F)) × String)} {os : List (Outcome F)} (hr : Library.new.run C calls = some os)
    {j : Nat} {p : String} {fs : String → Option (Wav F)} {o : Outcome F} {a : String × List F}
    (hj : calls[j]? = some (fs, p)) (hoj : os[j]? = some o) (ha : o.result = .ok a) :
    ∃ (i : Nat) (fs' : String → Option (Wav F)) (w : Wav F), i ≤ j ∧ calls[i]? = some (fs', p) ∧ fs' p = some w ∧ a.1 = p ∧ Contents C w a.2 :=
  run_origin calls Library.new os rfl rfl hr j fs o hj hoj ha

/-- **C45** Failed calls leave no trace: as long as no call for a path succeeded, a call for it opens the file and returns what a new library would. -/
theorem failures_not_cached (C : Conv F) {calls : List ((String → Option (Wav F)) × String)} {os : List (Outcome F)} (hr : Library.new.run C calls = some os)
    {j : Nat} {p : String} {fs : String → Option (Wav F)} {o : Outcome F} (hj : calls[j]? = some (fs, p)) (hoj : os[j]? = some o)
    (hfail : ∀ (i : Nat) (fs' : String → Option (Wav F)) (o' : Outcome F) (a : String × List F),
      i < j → calls[i]? = some (fs', p) → os[i]? = some o' → o'.result ≠ .ok a) :
    readNow C fs p = some o.result ∧ o.opened = [p] :=
  run_fresh calls Library.new os rfl rfl hr j fs o hj hoj hfail

/-- **C72** What a new library returns for a file: an error if it can not be opened; else the sample rate and the first channel, cut after 60
seconds. -/
theorem sample_contents (C : Conv F) (fs : String → Option (Wav F)) (p : String) (r : Except LoadError (String × List F))
    (h : readNow C fs p = some r) :
    (∀ a, r = .ok a → ∃ w, fs p = some w ∧ a.1 = p ∧ Contents C w a.2) ∧
    (fs p = none → r = .error .cannotOpen) := by
  unfold readNow at h
  cases ho : Library.load C Library.new fs p with
  | none => rw [ho] at h; simp at h
  | some o =>
    rw [ho] at h
    simp only [Option.map_some, Option.some.injEq] at h
    subst h
    refine ⟨?_, ?_⟩
    · intro a ha
      rcases (load_miss rfl rfl ho).2.2.2 with ⟨e, h5, _⟩ | ⟨v, w, h5, h6, h7, _⟩
      · rw [h5] at ha; cases ha
      · rw [h7] at ha; cases ha
        exact ⟨w, h5, rfl, readWav_contents h6⟩
    · intro hf
      unfold Library.load at ho
      simp only [Library.new, List.lookup_nil, hf, Option.some.injEq] at ho
      subst ho
      rfl

theorem pushAll_ok {α : Type} {f : α → F} : ∀ (l : List (Option α)) (v : List F), (∀ x ∈ l, x ≠ none) → ∃ r, pushAll f l v = .ok r
  | [], v, _ => ⟨v, rfl⟩
  | none :: _, _, h => absurd rfl (h none (by simp))
  | some s :: rest, v, h => by rw [pushAll]; exact pushAll_ok rest _ (fun x hx => h x (by simp [hx]))

/-- Every sample of the file can be read. -/
def Readable (w : Wav F) : Prop := (∀ x ∈ w.floats, x ≠ none) ∧ (∀ x ∈ w.ints, x ≠ none)

theorem stepBy_mem {α : Type} {n : Nat} (hn : 0 < n) {l : List α} {x : α} (h : x ∈ stepBy n l) : x ∈ l := by
  obtain ⟨k, hk, rfl⟩ := List.getElem_of_mem h
  have := stepBy_get hn l k
  rw [List.getElem?_eq_getElem hk] at this
  exact List.mem_of_getElem? this.symm

/-- **C72** A file with at least one channel whose samples can all be read is loaded, and no call panics on files with at least one channel. -/
theorem readable_loaded (C : Conv F) (fs : String → Option (Wav F)) (p : String) (w : Wav F) (hf : fs p = some w) (hc : w.channels ≠ 0) :
    (Library.load C Library.new fs p).isSome ∧ (Readable w → ∃ v, readNow C fs p = some (.ok (p, v))) := by
  unfold readNow Library.load
  simp only [Library.new, List.lookup_nil, hf]
  unfold readWav
  rw [if_neg hc]
  simp only
  refine ⟨?_, ?_⟩
  · split
    · rename_i h; cases h
    · rfl
    · rfl
  · intro hr
    have hpos : 0 < w.channels := by omega
    cases hfm : w.format with
    | float =>
      simp only
      obtain ⟨r, h⟩ := pushAll_ok (f := (id : F → F)) ((stepBy w.channels w.floats).take (60 * w.rate)) [C.rate w.rate]
        (fun x hx => hr.1 x (stepBy_mem hpos (List.mem_of_mem_take hx)))
      rw [h]; exact ⟨r, rfl⟩
    | int =>
      simp only
      obtain ⟨r, h⟩ := pushAll_ok (f := C.ofI16) ((stepBy w.channels w.ints).take (60 * w.rate)) [C.rate w.rate]
        (fun x hx => hr.2 x (stepBy_mem hpos (List.mem_of_mem_take hx)))
      rw [h]; exact ⟨r, rfl⟩

/-! ## Examples -/

def exC : Conv Int := ⟨fun n => n, fun i => i⟩
def exWav (a : Int) : Wav Int := ⟨2, 44100, .int, [], [some a, some 7, some (a + 1), none]⟩
def exBad : Wav Int := ⟨1, 8000, .float, [some 1, none], []⟩
def fs1 : String → Option (Wav Int) := fun p => if p = "a.wav" then some (exWav 10) else if p = "b.wav" then some exBad else none
def fs2 : String → Option (Wav Int) := fun p => if p = "a.wav" then some (exWav 20) else if p = "b.wav" then some (exWav 30) else none

def okOf {α : Type} : Except LoadError α → Option α
  | .ok a => some a
  | .error _ => none

def show' (o : Outcome Int) : List String × Option (String × List Int) := (o.opened, okOf o.result)

/-- A history with a file that changes, a file that can be read only later and a missing one. -/
example : ((Library.new.run exC [(fs1, "a.wav"), (fs1, "b.wav"), (fs1, "c.wav"), (fs2, "a.wav"), (fs2, "b.wav"), (fs1, "b.wav")]).map
    (fun os => os.map show')) =
    some [(["a.wav"], some ("a.wav", [44100, 10, 11])), (["b.wav"], none), (["c.wav"], none), ([], some ("a.wav", [44100, 10, 11])),
      (["b.wav"], some ("b.wav", [44100, 30, 31])), ([], some ("b.wav", [44100, 30, 31]))] := by decide +kernel

/-- A file without channels: `step_by(0)` panics. -/
example : (Library.load exC Library.new (fun _ => some ⟨0, 44100, .int, [], []⟩) "z.wav").isNone := by decide +kernel

end HexoDSP.SamplesProps
