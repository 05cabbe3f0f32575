import Verif.Spec.ScopeNode
import Verif.Props.Scope
import Mathlib.Tactic.Linarith
import Mathlib.Tactic.Ring
import Mathlib.Tactic.FieldSimp
import Mathlib.Tactic.Positivity
import Mathlib.Tactic.FinCases
/-! # Lemmas about the scope node -/

set_option linter.unusedSectionVars false

namespace HexoDSP.ScopeNode
open HexoDSP.Scope HexoDSP.ScopeProps

variable {T : Type}

/-! ## The buffers -/

/-- The buffers have their size. -/
structure Wf (h : Handle ℚ) : Prop where
  len : h.bufs.length = 3
  lens : ∀ (b : Nat) (l : List (ℚ × ℚ)), h.bufs[b]? = some l → l.length = 512
  og : h.offsGain.length = 3

/-- One point. -/
def slot (h : Handle ℚ) (b : Fin 3) (k : Nat) : Option (ℚ × ℚ) := (h.bufs[b.val]?).bind (fun l => l[k]?)

theorem read_slot (h : Handle ℚ) (b : Fin 3) {k : Nat} (hk : k < 512) : h.read b.val k = slot h b k := by
  unfold Handle.read slot
  rw [Nat.mod_eq_of_lt hk, Nat.mod_eq_of_lt b.isLt]

theorem wf_new : Wf (Handle.new : Handle ℚ) :=
  ⟨shows_new.len, shows_new.lens, shows_new.og⟩

theorem write_ok {h : Handle ℚ} (hw : Wf h) (b : Fin 3) {i : Nat} (hi : i < 512) (v : ℚ × ℚ) :
    ∃ h', h.write b.val i v = some h' ∧ Wf h' ∧ ∀ b' k, k < 512 → slot h' b' k = if b' = b ∧ k = i then some v else slot h b' k := by
  have hb : b.val % 3 = b.val := Nat.mod_eq_of_lt b.isLt
  obtain ⟨h', e, l, ls, -, og, -, s⟩ := setSlot_spec h hw.len hw.lens (b.val % 3) (i % 512) (by omega) (by omega) v
  refine ⟨h', e, ⟨l, ls, by rw [og]; exact hw.og⟩, ?_⟩
  intro b' k hk
  have := s b'.val k b'.isLt hk
  unfold slot
  rw [this, Nat.mod_eq_of_lt hi, hb]
  simp only [Fin.val_inj]

theorem over_ok {h : Handle ℚ} (hw : Wf h) (b : Fin 3) {i c : Nat} (hi : i < 512) (v : ℚ) :
    ∃ h', h.writeOversampled b.val i c v = some h' ∧ Wf h' ∧
      ∀ b' k, k < 512 → slot h' b' k = if b' = b ∧ i ≤ k ∧ k < i + c then some (v, v) else slot h b' k := by
  have hb : b.val % 3 = b.val := Nat.mod_eq_of_lt b.isLt
  obtain ⟨h', e, l, ls, -, og, -, s⟩ := fill_spec b.val v (min (i + c) 512 - i) h i hw.len hw.lens (by omega)
  refine ⟨h', e, ⟨l, ls, by rw [og]; exact hw.og⟩, ?_⟩
  intro b' k hk
  have := s b'.val k b'.isLt hk
  unfold slot
  rw [this, hb]
  by_cases h1 : b' = b
  · subst h1
    by_cases h2 : i ≤ k ∧ k < i + c
    · rw [if_pos ⟨rfl, h2.1, by omega⟩, if_pos ⟨rfl, h2⟩]
    · rw [if_neg (by omega), if_neg (by tauto)]
  · rw [if_neg (fun hh => h1 (Fin.ext hh.1.symm)), if_neg (fun hh => h1 hh.1)]

theorem foldlM3 {A : Type} (f : A → Fin 3 → Option A) (a : A) : signals.foldlM f a = ((f a 0).bind (fun a => f a 1)).bind (fun a => f a 2) := by
  unfold signals
  simp only [List.foldlM_cons, List.foldlM_nil, Option.bind_eq_bind]
  cases f a 0 with
  | none => rfl
  | some a1 =>
    simp only [Option.bind_some]
    cases f a1 1 with
    | none => rfl
    | some a2 =>
      simp only [Option.bind_some]
      cases f a2 2 <;> rfl

theorem write3_ok {h : Handle ℚ} (hw : Wf h) {i : Nat} (hi : i < 512) (v : Fin 3 → ℚ × ℚ) :
    ∃ h', signals.foldlM (fun (h : Handle ℚ) b => h.write b.val i (v b)) h = some h' ∧ Wf h' ∧
      ∀ b k, k < 512 → slot h' b k = if k = i then some (v b) else slot h b k := by
  obtain ⟨h1, e1, w1, s1⟩ := write_ok hw 0 hi (v 0)
  obtain ⟨h2, e2, w2, s2⟩ := write_ok w1 1 hi (v 1)
  obtain ⟨h3, e3, w3, s3⟩ := write_ok w2 2 hi (v 2)
  refine ⟨h3, ?_, w3, ?_⟩
  · rw [foldlM3, e1, Option.bind_some, e2, Option.bind_some, e3]
  · intro b k hk
    rw [s3 b k hk, s2 b k hk, s1 b k hk]
    by_cases hki : k = i
    · fin_cases b <;> simp [hki]
    · simp [hki]

theorem over3_ok {h : Handle ℚ} (hw : Wf h) {i c : Nat} (hi : i < 512) (v : Fin 3 → ℚ) :
    ∃ h', signals.foldlM (fun (h : Handle ℚ) b => h.writeOversampled b.val i c (v b)) h = some h' ∧ Wf h' ∧
      ∀ b k, k < 512 → slot h' b k = if i ≤ k ∧ k < i + c then some (v b, v b) else slot h b k := by
  obtain ⟨h1, e1, w1, s1⟩ := over_ok hw 0 (c := c) hi (v 0)
  obtain ⟨h2, e2, w2, s2⟩ := over_ok w1 1 (c := c) hi (v 1)
  obtain ⟨h3, e3, w3, s3⟩ := over_ok w2 2 (c := c) hi (v 2)
  refine ⟨h3, ?_, w3, ?_⟩
  · rw [foldlM3, e1, Option.bind_some, e2, Option.bind_some, e3]
  · intro b k hk
    rw [s3 b k hk, s2 b k hk, s1 b k hk]
    by_cases hki : i ≤ k ∧ k < i + c
    · fin_cases b <;> simp [hki]
    · rw [if_neg (fun h => hki h.2), if_neg (fun h => hki h.2), if_neg (fun h => hki h.2), if_neg hki]

theorem begin_ok {M : Trigger T} {s : Settings} {n : Node T} (hw : Wf n.handle) :
    ∃ n', n.begin M s = some n' ∧ Wf n'.handle ∧ (∀ b k, slot n'.handle b k = slot n.handle b k) ∧ n'.idx = n.idx ∧ n'.frameTime = n.frameTime ∧
      n'.cur = n.cur ∧ n'.trig = M.setThreshold n.trig s.thrsh (s.thrsh + 1 / 10000) := by
  have hset : ∀ (h : Handle ℚ) (b : Fin 3) (o g : ℚ), h.offsGain.length = 3 →
      h.setOffsGain b.val o g = some { h with offsGain := h.offsGain.set (b.val % 3) (o, g) } := by
    intro h b o g hl
    unfold Handle.setOffsGain
    rw [if_pos (by rw [hl]; omega)]
  unfold Node.begin
  rw [foldlM3, hset _ _ _ _ (by exact hw.og), Option.bind_some, hset _ _ _ _ (by simpa [Handle.setActive] using hw.og), Option.bind_some,
    hset _ _ _ _ (by simpa [Handle.setActive] using hw.og)]
  refine ⟨_, rfl, ?_, ?_, rfl, rfl, rfl, rfl⟩
  · by_cases hd : s.disabled = true
    · simp only [hd, if_true, Handle.setThreshold, Handle.setActive]
      exact ⟨hw.len, hw.lens, by simp only [List.length_set]; exact hw.og⟩
    · simp only [if_neg hd, Handle.setThreshold, Handle.setActive]
      exact ⟨hw.len, hw.lens, by simp only [List.length_set]; exact hw.og⟩
  · intro b k
    by_cases hd : s.disabled = true
    · simp only [hd, if_true, Handle.setThreshold, Handle.setActive]
      rfl
    · simp only [if_neg hd, Handle.setThreshold, Handle.setActive]
      rfl

/-! ## Windows -/

theorem window_self (fs : List Frame) (b : Fin 3) (i : Nat) : window fs b i i = [] := by
  unfold window; simp

theorem window_snoc (fs : List Frame) (f : Frame) (b : Fin 3) {i : Nat} (hi : i ≤ fs.length) :
    window (fs ++ [f]) b i (fs.length + 1) = window fs b i fs.length ++ [f.sig b] := by
  unfold window
  rw [List.drop_append_of_le_length hi, List.take_of_length_le (by simp; omega), List.take_of_length_le (by simp)]
  simp

theorem window_old (fs : List Frame) (f : Frame) (b : Fin 3) {i j : Nat} (hj : j ≤ fs.length) :
    window (fs ++ [f]) b i j = window fs b i j := by
  unfold window
  by_cases hi : i ≤ fs.length
  · rw [List.drop_append_of_le_length hi, List.take_append_of_le_length (by simp; omega)]
  · have : j - i = 0 := by omega
    rw [this]; simp

theorem window_quiet {fs : List Frame} (h : Quiet fs) (b : Fin 3) (i j : Nat) : ∀ x ∈ window fs b i j, -99999 ≤ x ∧ x ≤ 99999 := by
  intro x hx
  unfold window at hx
  obtain ⟨f, hf, rfl⟩ := List.mem_map.1 hx
  exact h f (List.mem_of_mem_drop (List.mem_of_mem_take hf)) b

/-- Largest and smallest, starting from a pair. -/
def gather (p : ℚ × ℚ) (l : List ℚ) : ℚ × ℚ := (l.foldl max p.1, l.foldl min p.2)

theorem gather_snoc (p : ℚ × ℚ) (l : List ℚ) (x : ℚ) : gather p (l ++ [x]) = (max (gather p l).1 x, min (gather p l).2 x) := by
  unfold gather; simp [List.foldl_append]

theorem foldl_max_ge (l : List ℚ) (a : ℚ) : a ≤ l.foldl max a ∧ ∀ x ∈ l, x ≤ l.foldl max a := by
  induction l generalizing a with
  | nil => simp
  | cons y l ih =>
    simp only [List.foldl_cons, List.mem_cons, forall_eq_or_imp]
    have := ih (max a y)
    exact ⟨le_trans (le_max_left _ _) this.1, le_trans (le_max_right _ _) this.1, this.2⟩

theorem foldl_max_mem (l : List ℚ) (a : ℚ) : l.foldl max a = a ∨ l.foldl max a ∈ l := by
  induction l generalizing a with
  | nil => left; rfl
  | cons y l ih =>
    simp only [List.foldl_cons]
    rcases ih (max a y) with h | h
    · rw [h]
      rcases max_choice a y with h1 | h1
      · left; exact h1
      · right; rw [h1]; exact List.mem_cons_self
    · right; exact List.mem_cons_of_mem _ h

theorem foldl_min_le (l : List ℚ) (a : ℚ) : l.foldl min a ≤ a ∧ ∀ x ∈ l, l.foldl min a ≤ x := by
  induction l generalizing a with
  | nil => simp
  | cons y l ih =>
    simp only [List.foldl_cons, List.mem_cons, forall_eq_or_imp]
    have := ih (min a y)
    exact ⟨le_trans this.1 (min_le_left _ _), le_trans this.1 (min_le_right _ _), this.2⟩

theorem foldl_min_mem (l : List ℚ) (a : ℚ) : l.foldl min a = a ∨ l.foldl min a ∈ l := by
  induction l generalizing a with
  | nil => left; rfl
  | cons y l ih =>
    simp only [List.foldl_cons]
    rcases ih (min a y) with h | h
    · rw [h]
      rcases min_choice a y with h1 | h1
      · left; exact h1
      · right; rw [h1]; exact List.mem_cons_self
    · right; exact List.mem_cons_of_mem _ h

theorem extremes_gather {l : List ℚ} (hl : l ≠ []) (hq : ∀ x ∈ l, -99999 ≤ x ∧ x ≤ 99999) : Extremes l (gather (-99999, 99999) l) := by
  obtain ⟨y, hy⟩ := List.exists_mem_of_ne_nil l hl
  refine ⟨?_, ?_, fun x hx => ⟨(foldl_min_le l _).2 x hx, (foldl_max_ge l _).2 x hx⟩⟩
  · rcases foldl_max_mem l (-99999) with h | h
    · have h1 := (foldl_max_ge l (-99999)).2 y hy
      have h2 := (hq y hy).1
      rw [h] at h1
      have h3 : y = -99999 := le_antisymm h1 h2
      simp only [gather, h]
      rw [← h3]; exact hy
    · exact h
  · rcases foldl_min_mem l 99999 with h | h
    · have h1 := (foldl_min_le l 99999).2 y hy
      have h2 := (hq y hy).2
      rw [h] at h1
      have h3 : y = 99999 := le_antisymm h2 h1
      simp only [gather, h]
      rw [← h3]; exact hy
    · exact h

theorem extremes_zero (l : List ℚ) : Extremes (0 :: l) (gather (0, 0) l) := by
  refine ⟨?_, ?_, ?_⟩
  · rcases foldl_max_mem l 0 with h | h
    · simp [gather, h]
    · exact List.mem_cons_of_mem _ h
  · rcases foldl_min_mem l 0 with h | h
    · simp [gather, h]
    · exact List.mem_cons_of_mem _ h
  · intro x hx
    rcases List.mem_cons.1 hx with rfl | hx
    · exact ⟨(foldl_min_le l _).1, (foldl_max_ge l _).1⟩
    · exact ⟨(foldl_min_le l _).2 x hx, (foldl_max_ge l _).2 x hx⟩

/-! ## Slow recording -/

/-- What a window starts from. -/
def initial (i : Nat) : ℚ × ℚ := if i = 0 then (0, 0) else (-99999, 99999)

/-- The time left over when a window begins. -/
def Left (s : Settings) (a : ℚ) : Prop := a = 0 ∨ s.sampleTime ≤ a ∧ a < 2 * s.sampleTime

/-- The time since the start of the recording, for constant settings. -/
def Dur (s : Settings) (c : Nat → Nat) (len : Nat) (n : Node T) : Prop :=
  ∃ a, Left s a ∧
    (∀ k ≤ n.idx, 1 ≤ k → s.sampleTime ≤ a + ((c k : ℚ) - c 0) * s.sampleTime - k * s.timePerBlock ∧
      a + ((c k : ℚ) - c 0) * s.sampleTime - k * s.timePerBlock < 2 * s.sampleTime) ∧
    (n.idx < 512 → n.frameTime = a + ((len : ℚ) - c 0) * s.sampleTime - n.idx * s.timePerBlock ∧
      (c n.idx < len → n.frameTime - s.sampleTime < s.timePerBlock)) ∧
    (n.idx = 512 → s.sampleTime ≤ n.frameTime ∧ n.frameTime < 2 * s.sampleTime)

theorem Dur.start {s : Settings} {len : Nat} {n : Node T} (h0 : n.idx = 0) (hl : Left s n.frameTime) : Dur s (fun _ => len) len n := by
  refine ⟨n.frameTime, hl, fun k hk h1 => by omega, fun _ => ⟨by rw [h0]; simp, fun h => absurd h (Nat.lt_irrefl _)⟩, fun h => by omega⟩

/-- The state of the recording: the frames, with their settings, and where the windows of the present recording begin. -/
structure Rec (hs : List (Settings × Frame)) (n : Node T) (c : Nat → Nat) : Prop where
  wf : Wf n.handle
  idx : n.idx ≤ 512
  inc : ∀ k < n.idx, c k < c (k + 1)
  last : c n.idx ≤ hs.length
  slots : ∀ k < n.idx, ∀ b, slot n.handle b k = some (gather (initial (c k)) (window (hs.map (·.2)) b (c k) (c (k + 1))))
  cur : n.idx < 512 → ∀ b, n.cur b = gather (initial (c n.idx)) (window (hs.map (·.2)) b (c n.idx) hs.length)
  dur : ∀ s, (∀ e ∈ hs, e.1 = s) → 1 ≤ s.samplesPerBlock → Dur s c hs.length n

theorem rec_new (t : T) : Rec [] (Node.new t) (fun _ => 0) where
  wf := wf_new
  idx := Nat.zero_le _
  inc := fun k hk => absurd hk (Nat.not_lt_zero k)
  last := Nat.le_refl _
  slots := fun k hk => absurd hk (Nat.not_lt_zero k)
  cur := by intro _ b; simp [Node.new, initial, window, gather]
  dur := fun s _ _ => Dur.start rfl (.inl rfl)

theorem Rec.begin {hs : List (Settings × Frame)} {n : Node T} {c : Nat → Nat} (h : Rec hs n c) (M : Trigger T) (s : Settings) :
    ∃ n', n.begin M s = some n' ∧ Rec hs n' c := by
  obtain ⟨n', e, w, sl, h1, h2, h3, -⟩ := begin_ok (M := M) (s := s) h.wf
  refine ⟨n', e, w, by rw [h1]; exact h.idx, by rw [h1]; exact h.inc, by rw [h1]; exact h.last, ?_, ?_, ?_⟩
  · rw [h1]; intro k hk b; rw [sl]; exact h.slots k hk b
  · rw [h1, h3]; exact h.cur
  · intro s hs hp
    have := h.dur s hs hp
    unfold Dur at this ⊢
    rw [h1, h2]
    exact this

theorem clamped_pos (s : Settings) : 0 < s.clamped := by
  unfold Settings.clamped
  exact lt_of_lt_of_le (by norm_num) (le_max_left _ _)

theorem srate_pos {s : Settings} (h : 1 ≤ s.samplesPerBlock) : 0 < s.srateMs := by
  unfold Settings.samplesPerBlock at h
  by_contra hc
  have := mul_nonpos_of_nonneg_of_nonpos (le_of_lt (clamped_pos s)) (not_lt.1 hc)
  linarith

theorem st_pos {s : Settings} (h : 1 ≤ s.samplesPerBlock) : 0 < s.sampleTime := by
  unfold Settings.sampleTime
  have := srate_pos h
  positivity

theorem tpb_eq {s : Settings} (h : 1 ≤ s.samplesPerBlock) : s.timePerBlock = s.samplesPerBlock * s.sampleTime := by
  unfold Settings.timePerBlock Settings.samplesPerBlock Settings.sampleTime
  have := srate_pos h
  field_simp

/-- A sample while the recording goes on. -/
theorem record_ok {hs : List (Settings × Frame)} {n : Node T} {c : Nat → Nat} (h : Rec hs n c) (s : Settings) (f : Frame) (hi : n.idx < 512) :
    ∃ n' c', n.record s f = some n' ∧ Rec (hs ++ [(s, f)]) n' c' ∧ n'.trig = n.trig := by
  have hcur : join n.cur f = fun b => gather (initial (c n.idx)) (window ((hs ++ [(s, f)]).map (·.2)) b (c n.idx) (hs.length + 1)) := by
    funext b
    have := window_snoc (hs.map (·.2)) f b (i := c n.idx) (by simpa using h.last)
    rw [List.length_map] at this
    rw [List.map_append, List.map_cons, List.map_nil, this, gather_snoc]
    unfold join
    rw [h.cur hi b]
  have hold : ∀ (b : Fin 3) (i j : Nat), j ≤ hs.length → window ((hs ++ [(s, f)]).map (·.2)) b i j = window (hs.map (·.2)) b i j := by
    intro b i j hj
    rw [List.map_append]
    exact window_old _ _ b (by simpa using hj)
  have hmono : ∀ k ≤ n.idx, c k ≤ c n.idx := by
    intro k hk
    obtain ⟨d, hd⟩ := Nat.exists_eq_add_of_le hk
    clear hk
    induction d generalizing k with
    | zero => rw [hd, Nat.add_zero]
    | succ d ih =>
      have h1 := h.inc k (by omega)
      have h2 := ih (k + 1) (by omega)
      omega
  unfold Node.record
  simp only
  by_cases ht : s.timePerBlock ≤ n.frameTime
  · rw [if_pos ht]
    obtain ⟨h', e, w, sl⟩ := write3_ok h.wf hi (join n.cur f)
    rw [e]
    refine ⟨_, fun k => if k = n.idx + 1 then hs.length + 1 else c k, rfl, ?_, rfl⟩
    have hc : ∀ k ≤ n.idx, (if k = n.idx + 1 then hs.length + 1 else c k) = c k := fun k hk => if_neg (by omega)
    have hlen : (hs ++ [(s, f)]).length = hs.length + 1 := by simp
    refine ⟨w, by simp only; omega, ?_, ?_, ?_, ?_, ?_⟩
    · intro k hk
      simp only at hk
      rw [hc k (by omega)]
      by_cases hk2 : k = n.idx
      · subst hk2
        rw [if_pos rfl]
        have := h.last
        omega
      · rw [hc (k + 1) (by omega)]
        exact h.inc k (by omega)
    · simp only [if_true, hlen]; exact Nat.le_refl _
    · intro k hk b
      simp only at hk
      rw [hc k (by omega), sl b k (by omega)]
      by_cases hk2 : k = n.idx
      · subst hk2
        rw [if_pos rfl, if_pos rfl, hcur]
      · rw [hc (k + 1) (by omega), if_neg hk2, h.slots k (by omega) b]
        have h1 := hmono (k + 1) (by omega)
        have h2 := h.last
        rw [hold b (c k) (c (k + 1)) (by omega)]
    · intro _ b
      simp only [if_true, hlen]
      rw [window_self]
      simp [empty, gather, initial]
    · intro s' hs' hp
      have hss : s = s' := hs' (s, f) (by simp)
      subst hss
      have hd := h.dur s (fun e he => hs' e (by simp [he])) hp
      obtain ⟨a, ha, hpast, hnow, -⟩ := hd
      obtain ⟨hft, hlt⟩ := hnow hi
      have hst := st_pos hp
      have htp := tpb_eq hp
      have hle : s.sampleTime ≤ s.timePerBlock := by rw [htp]; nlinarith
      have hcase : c n.idx = hs.length ∨ c n.idx < hs.length := by have := h.last; omega
      have hnew : s.sampleTime ≤ n.frameTime - s.timePerBlock + s.sampleTime ∧
          n.frameTime - s.timePerBlock + s.sampleTime < 2 * s.sampleTime := by
        refine ⟨by linarith, ?_⟩
        rcases hcase with hc0 | hc0
        · rw [← hc0] at hft
          rcases Nat.eq_zero_or_pos n.idx with h0 | h0
          · rw [h0] at hft
            have : n.frameTime = a := by rw [hft]; simp
            rcases ha with rfl | ha <;> linarith
          · have := (hpast n.idx (Nat.le_refl _) h0).2
            linarith
        · have := hlt hc0
          linarith
      have hval : a + (((hs.length + 1 : Nat) : ℚ) - c 0) * s.sampleTime - ((n.idx + 1 : Nat) : ℚ) * s.timePerBlock =
          n.frameTime - s.timePerBlock + s.sampleTime := by
        rw [hft]; push_cast; ring
      refine ⟨a, ha, ?_, ?_, ?_⟩
      · intro k hk hk1
        simp only at hk ⊢
        rw [hc 0 (by omega)]
        by_cases hk2 : k = n.idx + 1
        · subst hk2
          rw [if_pos rfl, hval]
          exact hnew
        · rw [hc k (by omega)]
          exact hpast k (by omega) hk1
      · intro _
        refine ⟨?_, ?_⟩
        · simp only
          rw [hc 0 (by omega), hlen, hval]
        · simp only [if_true, hlen]
          intro hh
          exact absurd hh (Nat.lt_irrefl _)
      · intro _
        exact hnew
  · rw [if_neg ht]
    refine ⟨_, c, rfl, ?_, rfl⟩
    have hlen : (hs ++ [(s, f)]).length = hs.length + 1 := by simp
    refine ⟨h.wf, h.idx, h.inc, by rw [hlen]; exact Nat.le_succ_of_le h.last, ?_, ?_, ?_⟩
    · intro k hk b
      simp only at hk ⊢
      have h1 := hmono (k + 1) (by omega)
      have h2 := h.last
      rw [hold b (c k) (c (k + 1)) (by omega)]
      exact h.slots k hk b
    · intro _ b
      simp only
      rw [hcur, hlen]
    · intro s' hs' hp
      have hss : s = s' := hs' (s, f) (by simp)
      subst hss
      have hd := h.dur s (fun e he => hs' e (by simp [he])) hp
      obtain ⟨a, ha, hpast, hnow, -⟩ := hd
      obtain ⟨hft, hlt⟩ := hnow hi
      refine ⟨a, ha, hpast, ?_, ?_⟩
      · intro _
        refine ⟨?_, ?_⟩
        · simp only [hlen]
          rw [hft]
          push_cast
          ring
        · intro _
          simp only
          have h1 := not_le.1 ht
          linarith
      · intro hh
        simp only at hh
        omega

/-- A frame while waiting: nothing is recorded. -/
theorem Rec.skip {hs : List (Settings × Frame)} {n : Node T} {c : Nat → Nat} (h : Rec hs n c) (s : Settings) (f : Frame) (hi : ¬ n.idx < 512) :
    Rec (hs ++ [(s, f)]) n c := by
  have hlen : (hs ++ [(s, f)]).length = hs.length + 1 := by simp
  have hmono : ∀ k ≤ n.idx, c k ≤ c n.idx := by
    intro k hk
    obtain ⟨d, hd⟩ := Nat.exists_eq_add_of_le hk
    clear hk
    induction d generalizing k with
    | zero => rw [hd, Nat.add_zero]
    | succ d ih =>
      have h1 := h.inc k (by omega)
      have h2 := ih (k + 1) (by omega)
      omega
  refine ⟨h.wf, h.idx, h.inc, by rw [hlen]; exact Nat.le_succ_of_le h.last, ?_, fun hh => absurd hh hi, ?_⟩
  · intro k hk b
    have h1 := hmono (k + 1) (by omega)
    have h2 := h.last
    rw [List.map_append, show ([(s, f)].map (·.2)) = [f] from rfl, window_old _ _ b (by simp; omega)]
    exact h.slots k hk b
  · intro s' hs' hp
    have hd := h.dur s' (fun e he => hs' e (by simp [he])) hp
    obtain ⟨a, ha, hpast, -, hw⟩ := hd
    exact ⟨a, ha, hpast, fun hh => absurd hh hi, hw⟩

theorem restart_ok {hs : List (Settings × Frame)} {n : Node T} {c : Nat → Nat} (h : Rec hs n c) (hne : hs ≠ []) (M : Trigger T) (s : Settings) (f : Frame) :
    ∃ c', Rec hs (n.restart M s f) c' := by
  unfold Node.restart
  by_cases hi : 512 ≤ n.idx
  · rw [if_pos hi]
    simp only
    have h0 : hs.length ≠ 0 := fun hh => hne (List.length_eq_zero_iff.1 hh)
    by_cases hc : (M.check n.trig (s.trigInput f)).1 = true
    · rw [if_pos hc]
      refine ⟨fun _ => hs.length, h.wf, Nat.zero_le _, fun k hk => absurd hk (Nat.not_lt_zero k), Nat.le_refl _,
        fun k hk => absurd hk (Nat.not_lt_zero k), ?_, ?_⟩
      · intro _ b
        rw [window_self]
        simp [empty, gather, initial, h0]
      · intro s' hs' hp
        exact Dur.start rfl (.inl rfl)
    · rw [if_neg hc]
      by_cases hd : s.disabled = true
      · rw [if_pos hd]
        refine ⟨fun _ => hs.length, h.wf, Nat.zero_le _, fun k hk => absurd hk (Nat.not_lt_zero k), Nat.le_refl _,
          fun k hk => absurd hk (Nat.not_lt_zero k), ?_, ?_⟩
        · intro _ b
          rw [window_self]
          simp [empty, gather, initial, h0]
        · intro s' hs' hp
          obtain ⟨a, ha, -, -, hw⟩ := h.dur s' hs' hp
          exact Dur.start rfl (.inr (hw (by have := h.idx; omega)))
      · rw [if_neg hd]
        refine ⟨c, h.wf, h.idx, h.inc, h.last, h.slots, h.cur, ?_⟩
        intro s' hs' hp
        exact h.dur s' hs' hp
  · rw [if_neg hi]
    exact ⟨c, h⟩

theorem slow_ok {hs : List (Settings × Frame)} {n : Node T} {c : Nat → Nat} (h : Rec hs n c) (M : Trigger T) {s : Settings} (hp : 1 ≤ s.samplesPerBlock)
    (f : Frame) : ∃ n' c', n.frame M s f = some n' ∧ Rec (hs ++ [(s, f)]) n' c' := by
  unfold Node.frame
  rw [if_neg (not_lt.2 hp)]
  unfold Node.slow
  by_cases hi : n.idx < 512
  · rw [if_pos hi]
    obtain ⟨n1, c1, e1, r1, -⟩ := record_ok h s f hi
    rw [e1]
    obtain ⟨c2, r2⟩ := restart_ok r1 (by simp) M s f
    exact ⟨_, c2, rfl, r2⟩
  · rw [if_neg hi]
    obtain ⟨c2, r2⟩ := restart_ok (h.skip s f hi) (by simp) M s f
    exact ⟨_, c2, rfl, r2⟩

theorem slow_frames {M : Trigger T} {s : Settings} (hp : 1 ≤ s.samplesPerBlock) (fs : List Frame) : ∀ (hs : List (Settings × Frame)) (n : Node T) (c : Nat → Nat),
    Rec hs n c → ∃ n' c', fs.foldlM (fun n f => n.frame M s f) n = some n' ∧ Rec (hs ++ fs.map (fun f => (s, f))) n' c' := by
  induction fs with
  | nil => intro hs n c h; exact ⟨n, c, rfl, by simpa using h⟩
  | cons f fs ih =>
    intro hs n c h
    obtain ⟨n1, c1, e1, r1⟩ := slow_ok h M hp f
    obtain ⟨n2, c2, e2, r2⟩ := ih _ n1 c1 r1
    refine ⟨n2, c2, ?_, by simpa using r2⟩
    rw [List.foldlM_cons, e1]
    exact e2

theorem slow_run {M : Trigger T} (bs : List (Settings × List Frame)) : ∀ (hs : List (Settings × Frame)) (n : Node T) (c : Nat → Nat),
    (∀ b ∈ bs, 1 ≤ b.1.samplesPerBlock) → Rec hs n c →
    ∃ n' c', n.run M bs = some n' ∧ Rec (hs ++ bs.flatMap (fun b => b.2.map (fun f => (b.1, f)))) n' c' := by
  induction bs with
  | nil => intro hs n c _ h; exact ⟨n, c, rfl, by simpa using h⟩
  | cons b bs ih =>
    intro hs n c hp h
    obtain ⟨n1, e1, r1⟩ := h.begin M b.1
    obtain ⟨n2, c2, e2, r2⟩ := slow_frames (M := M) (hp b List.mem_cons_self) b.2 hs n1 c r1
    obtain ⟨n3, c3, e3, r3⟩ := ih _ n2 c2 (fun b hb => hp b (List.mem_cons_of_mem _ hb)) r2
    refine ⟨n3, c3, ?_, by simpa using r3⟩
    unfold Node.run at e3 ⊢
    rw [List.foldlM_cons]
    unfold Node.process
    rw [e1, Option.bind_some, e2]
    exact e3

/-! ## Fast recording -/

/-- The state of the recording: `m` frames were recorded since the frame `start`. -/
structure Fast (s : Settings) (fs : List Frame) (n : Node T) (start m : Nat) : Prop where
  wf : Wf n.handle
  idx : n.idx = m * s.copyCount
  last : start + m ≤ fs.length
  slots : ∀ k < n.idx, k < 512 → ∀ b, ∃ f, fs[start + k / s.copyCount]? = some f ∧ slot n.handle b k = some (f.sig b, f.sig b)
  now : n.idx < 512 → start + m = fs.length

theorem fast_new (s : Settings) (t : T) : Fast s [] (Node.new t) 0 0 where
  wf := wf_new
  idx := by simp [Node.new]
  last := Nat.le_refl _
  slots := fun k hk => absurd hk (Nat.not_lt_zero k)
  now := fun _ => rfl

theorem Fast.begin {s : Settings} {fs : List Frame} {n : Node T} {start m : Nat} (h : Fast s fs n start m) (M : Trigger T) :
    ∃ n', n.begin M s = some n' ∧ Fast s fs n' start m := by
  obtain ⟨n', e, w, sl, h1, h2, h3, -⟩ := begin_ok (M := M) (s := s) h.wf
  refine ⟨n', e, w, by rw [h1]; exact h.idx, h.last, ?_, by rw [h1]; exact h.now⟩
  rw [h1]
  intro k hk hk2 b
  obtain ⟨f, h4, h5⟩ := h.slots k hk hk2 b
  exact ⟨f, h4, by rw [sl]; exact h5⟩

theorem copyCount_pos {s : Settings} (hr : 0 < s.srateMs) (hp : s.samplesPerBlock < 1) : 1 ≤ s.copyCount := by
  have h0 : 0 < s.samplesPerBlock := by
    unfold Settings.samplesPerBlock
    have := clamped_pos s
    positivity
  unfold Settings.copyCount
  have h1 : (1 : ℤ) ≤ ⌊1 / s.samplesPerBlock⌋ := by
    rw [Int.le_floor]
    rw [le_div_iff₀ h0]
    push_cast
    linarith
  omega

theorem fast_ok {s : Settings} {fs : List Frame} {n : Node T} {start m : Nat} (h : Fast s fs n start m) (M : Trigger T) (hr : 0 < s.srateMs)
    (hp : s.samplesPerBlock < 1) (f : Frame) : ∃ n' start' m', n.frame M s f = some n' ∧ Fast s (fs ++ [f]) n' start' m' := by
  have hcc := copyCount_pos hr hp
  have hold : ∀ (i : Nat) (g : Frame), fs[i]? = some g → (fs ++ [f])[i]? = some g := by
    intro i g hg
    rw [List.getElem?_append_left (List.getElem?_eq_some_iff.1 hg).1]
    exact hg
  have hfirst : ∃ n1 m1, (if n.idx < 512 then
      (signals.foldlM (fun (h : Handle ℚ) b => h.writeOversampled b.val n.idx s.copyCount (f.sig b)) n.handle).map
        (fun h => { n with handle := h, idx := n.idx + s.copyCount })
      else some n) = some n1 ∧ Fast s (fs ++ [f]) n1 start m1 := by
    by_cases hi : n.idx < 512
    · rw [if_pos hi]
      obtain ⟨h', e, w, sl⟩ := over3_ok h.wf (c := s.copyCount) hi f.sig
      rw [e]
      refine ⟨_, m + 1, rfl, w, ?_, ?_, ?_, ?_⟩
      · simp only
        rw [h.idx]; ring
      · have := h.now hi
        simp only [List.length_append, List.length_singleton]
        omega
      · intro k hk hk2 b
        simp only at hk ⊢
        rw [sl b k hk2]
        by_cases hk3 : n.idx ≤ k
        · rw [if_pos ⟨hk3, hk⟩]
          have hdiv : k / s.copyCount = m := by
            rw [h.idx] at hk3 hk
            rw [Nat.div_eq_iff (by omega)]
            constructor
            · rw [Nat.mul_comm] at hk3 ⊢; nlinarith
            · omega
          refine ⟨f, ?_, rfl⟩
          rw [hdiv, h.now hi]
          simp
        · rw [if_neg (by omega)]
          obtain ⟨g, h4, h5⟩ := h.slots k (by omega) hk2 b
          exact ⟨g, hold _ _ h4, h5⟩
      · intro _
        have := h.now hi
        simp only [List.length_append, List.length_singleton]
        omega
    · rw [if_neg hi]
      refine ⟨n, m, rfl, h.wf, h.idx, ?_, ?_, fun hh => absurd hh hi⟩
      · have := h.last
        simp only [List.length_append, List.length_singleton]
        omega
      · intro k hk hk2 b
        obtain ⟨g, h4, h5⟩ := h.slots k hk hk2 b
        exact ⟨g, hold _ _ h4, h5⟩
  obtain ⟨n1, m1, e1, r1⟩ := hfirst
  have hrestart : ∀ (t : T), Fast s (fs ++ [f]) { n1 with trig := t, frameTime := 0, idx := 0 } (fs ++ [f]).length 0 := by
    intro t
    exact ⟨r1.wf, by simp, Nat.le_refl _, fun k hk => absurd hk (Nat.not_lt_zero k), fun _ => rfl⟩
  unfold Node.frame
  rw [if_pos hp]
  unfold Node.fast
  simp only
  rw [e1]
  simp only [Option.map_some]
  by_cases hi : 512 ≤ n1.idx
  · rw [if_pos hi]
    by_cases hd : s.disabled = true
    · rw [if_pos hd]
      exact ⟨_, _, 0, rfl, hrestart n1.trig⟩
    · rw [if_neg hd]
      by_cases hc : (M.check n1.trig (s.trigInput f)).1 = true
      · rw [if_pos hc]
        exact ⟨_, _, 0, rfl, hrestart _⟩
      · rw [if_neg hc]
        exact ⟨_, start, m1, rfl, r1.wf, r1.idx, r1.last, r1.slots, r1.now⟩
  · rw [if_neg hi]
    exact ⟨n1, start, m1, rfl, r1⟩

theorem fast_frames {M : Trigger T} {s : Settings} (hr : 0 < s.srateMs) (hp : s.samplesPerBlock < 1) (gs : List Frame) :
    ∀ (fs : List Frame) (n : Node T) (start m : Nat), Fast s fs n start m →
      ∃ n' start' m', gs.foldlM (fun n f => n.frame M s f) n = some n' ∧ Fast s (fs ++ gs) n' start' m' := by
  induction gs with
  | nil => intro fs n st m h; exact ⟨n, st, m, rfl, by simpa using h⟩
  | cons f gs ih =>
    intro fs n st m h
    obtain ⟨n1, s1, m1, e1, r1⟩ := fast_ok h M hr hp f
    obtain ⟨n2, s2, m2, e2, r2⟩ := ih _ n1 s1 m1 r1
    refine ⟨n2, s2, m2, ?_, by simpa using r2⟩
    rw [List.foldlM_cons, e1]
    exact e2

theorem fast_run {M : Trigger T} {s : Settings} (hr : 0 < s.srateMs) (hp : s.samplesPerBlock < 1) (bs : List (Settings × List Frame)) :
    ∀ (fs : List Frame) (n : Node T) (start m : Nat), (∀ b ∈ bs, b.1 = s) → Fast s fs n start m →
      ∃ n' start' m', n.run M bs = some n' ∧ Fast s (fs ++ frames bs) n' start' m' := by
  induction bs with
  | nil => intro fs n st m _ h; exact ⟨n, st, m, rfl, by simpa [frames] using h⟩
  | cons b bs ih =>
    intro fs n st m hb h
    obtain ⟨n1, e1, r1⟩ := h.begin M
    obtain ⟨n2, s2, m2, e2, r2⟩ := fast_frames (M := M) hr hp b.2 fs n1 st m r1
    obtain ⟨n3, s3, m3, e3, r3⟩ := ih _ n2 s2 m2 (fun b hb' => hb b (List.mem_cons_of_mem _ hb')) r2
    refine ⟨n3, s3, m3, ?_, by simpa [frames] using r3⟩
    unfold Node.run at e3 ⊢
    rw [List.foldlM_cons]
    unfold Node.process
    rw [hb b List.mem_cons_self, e1, Option.bind_some, e2]
    exact e3

theorem frames_flat (bs : List (Settings × List Frame)) : (bs.flatMap (fun b => b.2.map (fun f => (b.1, f)))).map (·.2) = frames bs := by
  unfold frames
  induction bs with
  | nil => rfl
  | cons b bs ih => simp only [List.flatMap_cons, List.map_append, ih, List.map_map]; simp

end HexoDSP.ScopeNode
