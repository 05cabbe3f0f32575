import Verif.Model.Save
/-!
# Saving a patch (C20)
-/

set_option linter.unusedSectionVars false

namespace HexoDSP.SaveProps
open HexoDSP.Save

theorem tmp_ne (p : Path) : tmpPath p ≠ p := by
  intro h
  have := congrArg List.length h
  simp [tmpPath] at this

/-- The file system before saving: `next` is free, no other name refers to the temporary file, everything is written back. -/
structure Before (path : Path) (s : OS) : Prop where
  fresh : ∀ p i, s.vol.dir p = some i → i < s.next
  unshared : ∀ p i, s.vol.dir (tmpPath path) = some i → s.vol.dir p = some i → p = tmpPath path
  synced : s.dur = s.vol

/-- The invariant: what the call has done so far to the file system `s0`. `t` is the inode of the temporary file. -/
structure Inv (path : Path) (ser : List Byte) (s0 : OS) (s : OS) (pc : PC) : Prop where
  others : ∀ q, q ≠ path → q ≠ tmpPath path → s.vol.content q = s0.vol.content q
  dest : pc ≠ .ok → s.vol.content path = s0.vol.content path
  done : pc = .ok → s.vol.content path = some ser
  writing : ∀ i off rest, pc = .writing i off rest → s.vol.dir (tmpPath path) = some i ∧ off = (s.vol.data i).length ∧ s.vol.data i ++ rest = ser
  toRename : pc = .toRename → s.vol.content (tmpPath path) = some ser
  unshared : ∀ p i, s.vol.dir (tmpPath path) = some i → s.vol.dir p = some i → p = tmpPath path
  fresh : ∀ p i, s.vol.dir p = some i → i < s.next

theorem inv_init {path : Path} {ser : List Byte} {s : OS} (h : Before path s) : Inv path ser s s .start where
  others := fun _ _ _ => rfl
  dest := fun _ => rfl
  done := fun h => by cases h
  writing := fun _ _ _ h => by cases h
  toRename := fun h => by cases h
  unshared := h.unshared
  fresh := h.fresh

theorem content_of_data {d d' : Disk} {p : Path} (h1 : d'.dir p = d.dir p) (h2 : ∀ i, d.dir p = some i → d'.data i = d.data i) :
    d'.content p = d.content p := by
  unfold Disk.content
  rw [h1]
  cases h : d.dir p with
  | none => rfl
  | some i => simp [h2 i h]

theorem inv_call {path : Path} {ser : List Byte} {s0 s : OS} {pc : PC} (h : Inv path ser s0 s pc) (k : Nat) :
    Inv path ser s0 (callStep path ser s pc k).1 (callStep path ser s pc k).2 := by
  cases pc with
  | start =>
    simp only [callStep]
    unfold OS.openTrunc
    cases hd : s.vol.dir (tmpPath path) with
    | some i =>
      simp only
      have hc : ∀ q, q ≠ tmpPath path → (Disk.mk s.vol.dir (fun j => if j = i then [] else s.vol.data j)).content q = s.vol.content q := by
        intro q hq
        apply content_of_data (by rfl)
        intro j hj
        have : j ≠ i := fun e => hq (h.unshared q i hd (e ▸ hj))
        simp only [if_neg this]
      exact {
        others := fun q h1 h2 => (hc q h2).trans (h.others q h1 h2)
        dest := fun _ => (hc path (fun e => tmp_ne path e.symm)).trans (h.dest (by simp))
        done := fun e => by cases e
        writing := by
          intro j off rest e
          cases e
          exact ⟨hd, by simp, by simp⟩
        toRename := fun e => by cases e
        unshared := h.unshared
        fresh := h.fresh }
    | none =>
      simp only
      have hc : ∀ q, q ≠ tmpPath path →
          (Disk.mk (fun q => if q = tmpPath path then some s.next else s.vol.dir q) (fun j => if j = s.next then [] else s.vol.data j)).content q =
            s.vol.content q := by
        intro q hq
        apply content_of_data (by simp only [if_neg hq])
        intro j hj
        have := h.fresh q j hj
        have : j ≠ s.next := by omega
        simp only [if_neg this]
      exact {
        others := fun q h1 h2 => (hc q h2).trans (h.others q h1 h2)
        dest := fun _ => (hc path (fun e => tmp_ne path e.symm)).trans (h.dest (by simp))
        done := fun e => by cases e
        writing := by
          intro j off rest e
          cases e
          exact ⟨by simp, by simp, by simp⟩
        toRename := fun e => by cases e
        unshared := by
          intro p i hi hp
          simp only [if_true, Option.some.injEq] at hi
          subst hi
          by_contra hne
          simp only [if_neg hne] at hp
          exact absurd (h.fresh p _ hp) (Nat.lt_irrefl _)
        fresh := by
          intro p i hp
          simp only at hp ⊢
          split at hp
          · cases hp; omega
          · have := h.fresh p i hp; omega }
  | writing i off rest =>
    obtain ⟨w1, w2, w3⟩ := h.writing i off rest rfl
    cases rest with
    | nil =>
      simp only [callStep]
      exact {
        others := h.others
        dest := fun _ => h.dest (by simp)
        done := fun e => by cases e
        writing := fun _ _ _ e => by cases e
        toRename := fun _ => by
          rw [List.append_nil] at w3
          unfold Disk.content; rw [w1, Option.map_some, w3]
        unshared := h.unshared
        fresh := h.fresh }
    | cons b rest =>
      simp only [callStep]
      have hnew : (s.vol.data i).take off ++ List.replicate (off - (s.vol.data i).length) 0 ++ (b :: rest).take (max 1 k) ++
          (s.vol.data i).drop (off + ((b :: rest).take (max 1 k)).length) = s.vol.data i ++ (b :: rest).take (max 1 k) := by
        rw [w2, List.take_length, Nat.sub_self, List.replicate_zero, List.append_nil, List.drop_eq_nil_of_le (by omega), List.append_nil]
      have hc : ∀ q, q ≠ tmpPath path → (s.write i off ((b :: rest).take (max 1 k))).vol.content q = s.vol.content q := by
        intro q hq
        apply content_of_data (by rfl)
        intro j hj
        have : j ≠ i := fun e => hq (h.unshared q i w1 (e ▸ hj))
        simp only [OS.write, if_neg this]
      exact {
        others := fun q h1 h2 => (hc q h2).trans (h.others q h1 h2)
        dest := fun _ => (hc path (fun e => tmp_ne path e.symm)).trans (h.dest (by simp))
        done := fun e => by cases e
        writing := by
          intro j o r e
          injection e with e1 e2 e3
          subst e1 e2 e3
          refine ⟨w1, ?_, ?_⟩
          · simp only [OS.write, if_true]
            rw [hnew, List.length_append, w2]
          · simp only [OS.write, if_true]
            rw [hnew, List.append_assoc, List.take_append_drop]
            exact w3
        toRename := fun e => by cases e
        unshared := h.unshared
        fresh := h.fresh }
  | toRename =>
    have hr := h.toRename rfl
    simp only [callStep]
    unfold OS.rename
    cases hd : s.vol.dir (tmpPath path) with
    | none =>
      unfold Disk.content at hr
      rw [hd] at hr
      cases hr
    | some i =>
      simp only
      have hi : s.vol.data i = ser := by
        unfold Disk.content at hr
        rw [hd] at hr
        exact Option.some.inj hr
      exact {
        others := by
          intro q h1 h2
          rw [← h.others q h1 h2]
          exact content_of_data (by simp only [if_neg h1, if_neg h2]) (fun _ _ => rfl)
        dest := fun e => absurd rfl e
        done := fun _ => by
          unfold Disk.content
          simp only [if_true, Option.map_some, hi]
        writing := fun _ _ _ e => by cases e
        toRename := fun e => by cases e
        unshared := by
          intro p j hj hp
          simp only [if_neg (tmp_ne path), if_true] at hj
          cases hj
        fresh := by
          intro p j hp
          simp only at hp
          split at hp
          · cases hp; exact h.fresh _ _ hd
          · split at hp
            · cases hp
            · exact h.fresh p j hp }
  | ok => exact h
  | err => exact h

theorem inv_fail {path : Path} {ser : List Byte} {s0 s : OS} {pc : PC} (h : Inv path ser s0 s pc) : Inv path ser s0 s (failStep pc) := by
  by_cases hok : pc = .ok
  · subst hok; exact h
  · have : failStep pc = .err := by cases pc <;> simp_all [failStep]
    rw [this]
    exact {
      others := h.others
      dest := fun _ => h.dest hok
      done := fun e => by cases e
      writing := fun _ _ _ e => by cases e
      toRename := fun e => by cases e
      unshared := h.unshared
      fresh := h.fresh }

theorem inv_flush {path : Path} {ser : List Byte} {s0 s s' : OS} {pc : PC} {o : Prop} {e : Ev} (h : Inv path ser s0 s pc) (hf : Flush o s e s') :
    Inv path ser s0 s' pc := by
  cases hf with
  | data => exact ⟨h.others, h.dest, h.done, h.writing, h.toRename, h.unshared, h.fresh⟩
  | dir hh => exact ⟨h.others, h.dest, h.done, h.writing, h.toRename, h.unshared, h.fresh⟩

theorem inv_steps {path : Path} {ser : List Byte} {s0 : OS} {o : Prop} {c d : OS × PC} (hs : Steps o path ser c d) :
    Inv path ser s0 c.1 c.2 → Inv path ser s0 d.1 d.2 := by
  induction hs with
  | refl => exact id
  | snoc d e _ hstep ih =>
    intro hc
    have h := ih hc
    cases hstep with
    | call s pc k => exact inv_call h k
    | fail s pc => exact inv_fail h
    | flush s s' pc e hf => exact inv_flush h hf

/-- **C20** Wherever the call is interrupted, as long as the operating system lives on: the destination has the complete old content (or does
still not exist) or the complete new one; the new one once `Ok` was returned, the old one after `Err`. No other file but the temporary one
changes. -/
theorem save_atomic_partial (path : Path) (ser : List Byte) (s0 s : OS) (pc : PC) (hb : Before path s0) (o : Prop)
    (hs : Steps o path ser (s0, .start) (s, pc)) :
    (s.vol.content path = s0.vol.content path ∨ s.vol.content path = some ser) ∧
    (pc = .ok → s.vol.content path = some ser) ∧ (pc = .err → s.vol.content path = s0.vol.content path) ∧
    (∀ q, q ≠ path → q ≠ tmpPath path → s.vol.content q = s0.vol.content q) := by
  have h := inv_steps hs (inv_init hb)
  refine ⟨?_, h.done, fun e => h.dest (by simp only at e ⊢; rw [e]; simp), h.others⟩
  by_cases hok : pc = .ok
  · exact Or.inr (h.done hok)
  · exact Or.inl (h.dest hok)

/-! ## Loss of power -/

/-- With ordered write-back: what survives is a state of the directory whose files are all complete. -/
structure DurInv (path : Path) (ser : List Byte) (s0 : OS) (s : OS) (pc : PC) : Prop where
  inv : Inv path ser s0 s pc
  dest : s.dur.content path = s0.vol.content path ∨ s.dur.content path = some ser
  /-- The inodes of the destination, old and new, are not written to any more. -/
  stable : ∀ i, s.dur.dir path = some i → s.vol.data i = s.dur.data i ∧ (pc ≠ .ok → s.vol.dir (tmpPath path) ≠ some i) ∧ i < s.next

theorem dur_call {path : Path} {ser : List Byte} {s0 s : OS} {pc : PC} (h : DurInv path ser s0 s pc) (k : Nat) :
    DurInv path ser s0 (callStep path ser s pc k).1 (callStep path ser s pc k).2 := by
  have hd : (callStep path ser s pc k).1.dur = s.dur := by
    cases pc with
    | start => simp only [callStep]; unfold OS.openTrunc; split <;> rfl
    | writing i off rest => cases rest <;> rfl
    | toRename => simp only [callStep]; unfold OS.rename; cases hq : s.vol.dir (tmpPath path) <;> rfl
    | ok => rfl
    | err => rfl
  refine ⟨inv_call h.inv k, by rw [hd]; exact h.dest, ?_⟩
  rw [hd]
  intro i hi
  obtain ⟨a, b, c⟩ := h.stable i hi
  cases pc with
  | start =>
    simp only [callStep]
    unfold OS.openTrunc
    cases ht : s.vol.dir (tmpPath path) with
    | some j =>
      simp only
      have hij : i ≠ j := fun e => b (by simp) (e ▸ ht)
      exact ⟨by rw [if_neg hij]; exact a, fun _ => by rw [ht]; exact fun e => hij (Option.some.inj e).symm, c⟩
    | none =>
      simp only [if_true]
      have hij : i ≠ s.next := by omega
      exact ⟨by rw [if_neg hij]; exact a, fun _ e => hij (Option.some.inj e).symm, by omega⟩
  | writing j off rest =>
    obtain ⟨w1, _, _⟩ := h.inv.writing j off rest rfl
    cases rest with
    | nil => exact ⟨a, fun _ => b (by simp), c⟩
    | cons x rest =>
      simp only [callStep, OS.write]
      have hij : i ≠ j := fun e => b (by simp) (e ▸ w1)
      exact ⟨by rw [if_neg hij]; exact a, fun _ => b (by simp), c⟩
  | toRename =>
    have hr := h.inv.toRename rfl
    simp only [callStep]
    unfold OS.rename
    cases hq : s.vol.dir (tmpPath path) with
    | none =>
      unfold Disk.content at hr
      rw [hq] at hr
      cases hr
    | some j => exact ⟨a, fun e => absurd rfl e, c⟩
  | ok => exact ⟨a, fun e => absurd rfl e, c⟩
  | err => exact ⟨a, fun _ => b (by simp), c⟩

theorem dur_fail {path : Path} {ser : List Byte} {s0 s : OS} {pc : PC} (h : DurInv path ser s0 s pc) : DurInv path ser s0 s (failStep pc) := by
  refine ⟨inv_fail h.inv, h.dest, ?_⟩
  intro i hi
  obtain ⟨a, b, c⟩ := h.stable i hi
  refine ⟨a, fun hne => b ?_, c⟩
  rintro rfl
  exact hne rfl

theorem dur_flush {path : Path} {ser : List Byte} {s0 s s' : OS} {pc : PC} {e : Ev} (h : DurInv path ser s0 s pc) (hf : Flush True s e s') :
    DurInv path ser s0 s' pc := by
  refine ⟨inv_flush h.inv hf, ?_, ?_⟩
  · cases hf with
    | data i =>
      have : (Disk.mk s.dur.dir (fun j => if j = i then s.vol.data i else s.dur.data j)).content path = s.dur.content path := by
        apply content_of_data (by rfl)
        intro j hj
        obtain ⟨a, _⟩ := h.stable j hj
        simp only
        split
        · next e => rw [← e, a]
        · rfl
      rw [this]
      exact h.dest
    | dir hh =>
      have : (Disk.mk s.vol.dir s.dur.data).content path = s.vol.content path := by
        apply content_of_data (by rfl)
        intro j hj
        exact hh trivial path j hj
      rw [this]
      by_cases hok : pc = .ok
      · exact Or.inr (h.inv.done hok)
      · exact Or.inl (h.inv.dest hok)
  · cases hf with
    | data i =>
      intro j hj
      obtain ⟨a, b, c⟩ := h.stable j hj
      refine ⟨?_, b, c⟩
      simp only
      split
      · next e => rw [e]
      · exact a
    | dir hh =>
      intro j hj
      refine ⟨(hh trivial path j hj).symm, fun _ ht => ?_, h.inv.fresh path j hj⟩
      exact tmp_ne path (h.inv.unshared path j ht hj).symm

theorem dur_steps {path : Path} {ser : List Byte} {s0 : OS} {c d : OS × PC} (hs : Steps True path ser c d) :
    DurInv path ser s0 c.1 c.2 → DurInv path ser s0 d.1 d.2 := by
  induction hs with
  | refl => exact id
  | snoc d e _ hstep ih =>
    intro hc
    have h := ih hc
    cases hstep with
    | call s pc k => exact dur_call h k
    | fail s pc => exact dur_fail h
    | flush s s' pc e hf => exact dur_flush h hf

/-- **C20** On a file system that writes data back before the directory, even a loss of power at any point leaves the complete old or the
complete new content. -/
theorem save_survives_power_loss_partial (path : Path) (ser : List Byte) (s0 s : OS) (pc : PC) (hb : Before path s0)
    (hs : Steps True path ser (s0, .start) (s, pc)) :
    s.dur.content path = s0.vol.content path ∨ s.dur.content path = some ser := by
  have h0 : DurInv path ser s0 s0 .start := by
    refine ⟨inv_init hb, by rw [hb.synced]; exact Or.inl rfl, ?_⟩
    intro i hi
    rw [hb.synced] at hi ⊢
    exact ⟨rfl, fun _ ht => tmp_ne path (hb.unshared path i ht hi).symm, hb.fresh path i hi⟩
  exact (dur_steps hs h0).dest

/-- A disk with an old patch `[1, 2, 3]` named `p`. -/
def exDisk : Disk := { dir := fun q => if q = ['p'] then some 0 else none, data := fun i => if i = 0 then [1, 2, 3] else [] }

/-- The operating system with that disk. -/
def exOS : OS := { vol := exDisk, dur := exDisk, next := 1 }

theorem exBefore : Before ['p'] exOS where
  fresh := by
    intro p i h
    simp only [exOS, exDisk] at h ⊢
    split at h
    · cases h; omega
    · cases h
  unshared := by
    intro p i h
    simp [exOS, exDisk, tmpPath] at h
  synced := rfl

/-- The calls that save `[7, 8]` over it, two bytes at once. -/
theorem exSteps (o : Prop) : ∃ s, Steps o ['p'] [7, 8] (exOS, .start) (s, .ok) ∧ s.dur = exDisk ∧ s.vol.dir ['p'] = some 1 ∧ s.vol.data 1 = [7, 8] := by
  refine ⟨_, Steps.snoc _ _ _ (.snoc _ _ _ (.snoc _ _ _ (.snoc _ _ _ (.refl _) (.call _ _ 0)) (.call _ _ 2)) (.call _ _ 0)) (.call _ _ 0), ?_⟩
  exact ⟨rfl, rfl, rfl⟩

/-- **C20** (negation) The file is not flushed before it is renamed: if the directory reaches the disk before the data, a loss of power after `Ok`
leaves an empty file: neither the old nor the new patch. -/
theorem power_loss_loses_patch : ∃ s, Steps False ['p'] [7, 8] (exOS, .start) (s, .ok) ∧ Before ['p'] exOS ∧
    exOS.vol.content ['p'] = some [1, 2, 3] ∧ s.dur.content ['p'] = some [] := by
  obtain ⟨s, h1, h2, h3, _⟩ := exSteps False
  refine ⟨{ s with dur := { s.dur with dir := s.vol.dir } }, .snoc _ _ _ h1 (.flush _ _ _ .flushDir (.dir s (fun f => f.elim))), exBefore, rfl, ?_⟩
  show (Disk.mk s.vol.dir s.dur.data).content ['p'] = some []
  unfold Disk.content
  simp only [h3, h2]
  rfl

/-- **C20** (negation) Two simultaneous saves of the same file use the same temporary file: the first one to finish renames
a mixture of both, and returns `Ok`. Here the first call writes `[7, 7]`, the second one `[8, 8, 8]`; after the first returned `Ok` the file has
the content of neither. -/
theorem concurrent_saves_mix :
    let s1 := callStep ['p'] [7, 7] exOS .start 0
    let t1 := callStep ['p'] [8, 8, 8] s1.1 .start 0
    let t2 := callStep ['p'] [8, 8, 8] t1.1 t1.2 3
    let s2 := callStep ['p'] [7, 7] t2.1 s1.2 2
    let s3 := callStep ['p'] [7, 7] s2.1 s2.2 0
    let s4 := callStep ['p'] [7, 7] s3.1 s3.2 0
    s4.2 = .ok ∧ s4.1.vol.content ['p'] = some [7, 7, 8] := by
  decide +kernel

end HexoDSP.SaveProps
