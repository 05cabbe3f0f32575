import Verif.Lemmas.ScopeNode
/-! # The node `Scope` (C85) -/

set_option linter.unusedSectionVars false

namespace HexoDSP.ScopeNodeProps
open HexoDSP.Scope HexoDSP.ScopeNode

variable {T : Type}

/-- **C85** If a point stands for one sample or more: whatever the trigger and its source do and however the settings change from block to block, nothing
panics, and the points of the present recording are the extremes of windows that follow each other without a gap: `c k` is the frame where
the window of the point `k` begins. The very first window of a scope also has a zero in it. -/
theorem slow_points_partial (M : Trigger T) (t : T) (bs : List (Settings × List Frame)) (hslow : ∀ b ∈ bs, 1 ≤ b.1.samplesPerBlock)
    (hq : Quiet (frames bs)) : ∃ n, (Node.new t).run M bs = some n ∧ n.idx ≤ 512 ∧ ∃ c : Nat → Nat,
      (∀ k < n.idx, c k < c (k + 1)) ∧ c n.idx ≤ (frames bs).length ∧
      ∀ k < n.idx, ∀ b : Fin 3, ∃ p, n.handle.read b.val k = some p ∧
        Extremes (if c k = 0 then 0 :: window (frames bs) b (c k) (c (k + 1)) else window (frames bs) b (c k) (c (k + 1))) p := by
  obtain ⟨n, c, e, r⟩ := slow_run (M := M) bs [] (Node.new t) _ hslow (rec_new t)
  rw [List.nil_append] at r
  have hlen : (bs.flatMap (fun b => b.2.map (fun f => (b.1, f)))).length = (frames bs).length := by
    rw [← frames_flat bs, List.length_map]
  refine ⟨n, e, r.idx, c, r.inc, by rw [← hlen]; exact r.last, ?_⟩
  intro k hk b
  have hs := r.slots k hk b
  rw [frames_flat] at hs
  refine ⟨_, (read_slot _ b (by have := r.idx; omega)).trans hs, ?_⟩
  unfold initial
  by_cases h0 : c k = 0
  · rw [if_pos h0, if_pos h0]
    exact extremes_zero _
  · rw [if_neg h0, if_neg h0]
    refine extremes_gather ?_ (window_quiet hq b _ _)
    have hmono : ∀ d j, j + d = n.idx → c j ≤ c n.idx := by
      intro d
      induction d with
      | zero => intro j hj; rw [← hj, Nat.add_zero]
      | succ d ih =>
        intro j hj
        have h1 := r.inc j (by omega)
        have h2 := ih (j + 1) (by omega)
        omega
    have h1 := r.inc k hk
    have h2 := hmono (n.idx - (k + 1)) (k + 1) (by omega)
    have h3 := r.last
    intro hnil
    have := congrArg List.length hnil
    unfold window at this
    simp only [List.length_map, List.length_take, List.length_drop, List.length_nil] at this
    omega

/-- **C85** With constant settings the point `k` stands for the time it is drawn at: counted from the start of the recording its window begins
`k` times the samples of a point later, to within two samples; and the recording is up to date to within the samples of one point and one more. -/
theorem slow_times (M : Trigger T) (t : T) (s : Settings) (hslow : 1 ≤ s.samplesPerBlock) (bs : List (Settings × List Frame)) (hs : ∀ b ∈ bs, b.1 = s)
    (hq : Quiet (frames bs)) : ∃ n, (Node.new t).run M bs = some n ∧ n.idx ≤ 512 ∧ ∃ c : Nat → Nat,
      (∀ k < n.idx, c k < c (k + 1)) ∧ c n.idx ≤ (frames bs).length ∧
      (∀ k < n.idx, ∀ b : Fin 3, ∃ p, n.handle.read b.val k = some p ∧
        Extremes (if c k = 0 then 0 :: window (frames bs) b (c k) (c (k + 1)) else window (frames bs) b (c k) (c (k + 1))) p) ∧
      (∀ k ≤ n.idx, -1 < ((c k : ℚ) - c 0) - k * s.samplesPerBlock ∧ ((c k : ℚ) - c 0) - k * s.samplesPerBlock < 2) ∧
      (n.idx < 512 → ((frames bs).length : ℚ) - c n.idx < s.samplesPerBlock + 1) := by
  obtain ⟨n, c, e, r⟩ := slow_run (M := M) bs [] (Node.new t) _ (fun b hb => by rw [hs b hb]; exact hslow) (rec_new t)
  obtain ⟨n', e', -, -⟩ := slow_points_partial M t bs (fun b hb => by rw [hs b hb]; exact hslow) hq
  rw [List.nil_append] at r
  have hlen : (bs.flatMap (fun b => b.2.map (fun f => (b.1, f)))).length = (frames bs).length := by
    rw [← frames_flat bs, List.length_map]
  have hst := st_pos hslow
  have htp := tpb_eq hslow
  refine ⟨n, e, r.idx, c, r.inc, by rw [← hlen]; exact r.last, ?_, ?_, ?_⟩
  · intro k hk b
    have hsl := r.slots k hk b
    rw [frames_flat] at hsl
    refine ⟨_, (read_slot _ b (by have := r.idx; omega)).trans hsl, ?_⟩
    unfold initial
    by_cases h0 : c k = 0
    · rw [if_pos h0, if_pos h0]
      exact extremes_zero _
    · rw [if_neg h0, if_neg h0]
      refine extremes_gather ?_ (window_quiet hq b _ _)
      have hmono : ∀ d j, j + d = n.idx → c j ≤ c n.idx := by
        intro d
        induction d with
        | zero => intro j hj; rw [← hj, Nat.add_zero]
        | succ d ih =>
          intro j hj
          have h1 := r.inc j (by omega)
          have h2 := ih (j + 1) (by omega)
          omega
      have h1 := r.inc k hk
      have h2 := hmono (n.idx - (k + 1)) (k + 1) (by omega)
      have h3 := r.last
      intro hnil
      have := congrArg List.length hnil
      unfold window at this
      simp only [List.length_map, List.length_take, List.length_drop, List.length_nil] at this
      omega
  all_goals
    obtain ⟨a, ha, hpast, hnow, -⟩ := r.dur s (by
      intro e he
      obtain ⟨b, hb, hf⟩ := List.mem_flatMap.1 he
      obtain ⟨f, -, rfl⟩ := List.mem_map.1 hf
      exact hs b hb) hslow
  · intro k hk
    rcases Nat.eq_zero_or_pos k with rfl | h0
    · simp only [sub_self, Nat.cast_zero, zero_mul]
      constructor <;> norm_num
    · obtain ⟨h1, h2⟩ := hpast k hk h0
      rw [htp] at h1 h2
      constructor
      · have h3 : (-1) * s.sampleTime < (((c k : ℚ) - c 0) - k * s.samplesPerBlock) * s.sampleTime := by
          rcases ha with rfl | ha <;> nlinarith
        exact lt_of_mul_lt_mul_right h3 (le_of_lt hst)
      · have h3 : (((c k : ℚ) - c 0) - k * s.samplesPerBlock) * s.sampleTime < 2 * s.sampleTime := by
          rcases ha with rfl | ha <;> nlinarith
        exact lt_of_mul_lt_mul_right h3 (le_of_lt hst)
  · intro hi
    obtain ⟨hft, hlt⟩ := hnow hi
    rw [hlen] at hlt hft
    have hlast := r.last
    rw [hlen] at hlast
    by_cases hc : c n.idx < (frames bs).length
    · have h1 := hlt hc
      rw [hft, htp] at h1
      have h3 : ((frames bs).length - c n.idx : ℚ) * s.sampleTime < (s.samplesPerBlock + 1) * s.sampleTime := by
        rcases Nat.eq_zero_or_pos n.idx with h0 | h0
        · rw [h0] at h1 ⊢
          simp only [Nat.cast_zero, zero_mul, sub_zero] at h1
          rcases ha with rfl | ha <;> nlinarith
        · have h2 := (hpast n.idx (Nat.le_refl _) h0).1
          rw [htp] at h2
          nlinarith
      exact lt_of_mul_lt_mul_right h3 (le_of_lt hst)
    · have : c n.idx = (frames bs).length := by omega
      rw [this]
      linarith

/-- **C85** If a sample takes more than one point, with constant settings: the points of the present recording are the samples since its
start, each as often as the settings say, and while it goes on no sample is left out. -/
theorem fast_points (M : Trigger T) (t : T) (s : Settings) (hr : 0 < s.srateMs) (hfast : s.samplesPerBlock < 1) (bs : List (Settings × List Frame))
    (hs : ∀ b ∈ bs, b.1 = s) : ∃ n, (Node.new t).run M bs = some n ∧ 1 ≤ s.copyCount ∧ ∃ start,
      (∀ k < n.idx, k < 512 → ∀ b : Fin 3, ∃ f, (frames bs)[start + k / s.copyCount]? = some f ∧ n.handle.read b.val k = some (f.sig b, f.sig b)) ∧
      (n.idx < 512 → start * s.copyCount + n.idx = (frames bs).length * s.copyCount) := by
  obtain ⟨n, start, m, e, r⟩ := fast_run (M := M) hr hfast bs [] (Node.new t) 0 0 hs (fast_new s t)
  rw [List.nil_append] at r
  refine ⟨n, e, copyCount_pos hr hfast, start, ?_, ?_⟩
  · intro k hk hk2 b
    obtain ⟨f, h1, h2⟩ := r.slots k hk hk2 b
    exact ⟨f, h1, (read_slot _ b hk2).trans h2⟩
  · intro hi
    rw [← r.now hi, r.idx]
    ring

/-- What the trigger listens to: the first signal, or the trigger input if the source is `Extern` (2). -/
def heardBy (s : Settings) (f : Frame) : ℚ := if s.tsrc = 2 then f.trig else f.sig 0

/-- The trigger does not fire in these frames. -/
def Silent (M : Trigger T) (s : Settings) : T → List Frame → Prop
  | _, [] => True
  | t, f :: fs => (M.check t (heardBy s f)).1 = false ∧ Silent M s (M.check t (heardBy s f)).2 fs

/-- **C85** With a trigger a full recording stands still until the trigger fires. -/
theorem frozen_until_trigger (M : Trigger T) (s : Settings) (hd : s.tsrc ≠ 0) (fs : List Frame) : ∀ (n : Node T), 512 ≤ n.idx → Silent M s n.trig fs →
    ∃ n', fs.foldlM (fun n f => n.frame M s f) n = some n' ∧ n'.handle = n.handle ∧ n'.idx = n.idx := by
  have hdis : s.disabled = false := by unfold Settings.disabled; simpa using hd
  induction fs with
  | nil => intro n _ _; exact ⟨n, rfl, rfl, rfl⟩
  | cons f fs ih =>
    intro n hi hsil
    obtain ⟨h1, h2⟩ := hsil
    rw [show heardBy s f = s.trigInput f from rfl] at h1 h2
    have hstep : n.frame M s f = some { n with trig := (M.check n.trig (s.trigInput f)).2 } := by
      unfold Node.frame Node.fast Node.slow Node.restart
      simp only [if_neg (Nat.not_lt.2 hi), Option.map_some, if_pos hi, hdis, h1, Bool.false_eq_true, if_false, ite_self]
    obtain ⟨n', e, h3, h4⟩ := ih { n with trig := (M.check n.trig (s.trigInput f)).2 } hi h2
    refine ⟨n', ?_, h3, h4⟩
    rw [List.foldlM_cons, hstep]
    exact e

/-- **C85** When the trigger fires the recording starts anew with the next frame. -/
theorem restarts_on_trigger (M : Trigger T) (s : Settings) (n : Node T) (f : Frame) (hi : 512 ≤ n.idx)
    (hf : (M.check n.trig (heardBy s f)).1 = true) : ∃ n', n.frame M s f = some n' ∧ n'.idx = 0 ∧ n'.handle = n.handle := by
  rw [show heardBy s f = s.trigInput f from rfl] at hf
  unfold Node.frame Node.fast Node.slow Node.restart
  simp only [if_neg (Nat.not_lt.2 hi), Option.map_some, if_pos hi, hf, if_true]
  by_cases h1 : s.samplesPerBlock < 1 <;> by_cases h2 : s.disabled = true <;> simp [h1, h2]

/-! ## Examples -/

/-- A trigger that fires whenever the signal is larger than a threshold. -/
def level : Trigger ℚ := ⟨fun _ low _ => low, fun t x => (decide (t < x), t)⟩

/-- A sample rate of 1 kHz. -/
def at1k (time : ℚ) (tsrc : Int) : Settings := ⟨time, 1, 0, tsrc, 1, fun _ => (0, 1)⟩

/-- The same value on all inputs. -/
def flat (x : ℚ) : Frame := ⟨fun _ => x, x⟩

/-- What a point shows after some blocks. -/
def shows (bs : List (Settings × List Frame)) (k : Nat) : Option (ℚ × ℚ) := ((Node.new (0 : ℚ)).run level bs).bind (fun n => n.handle.read 0 k)

/-- **C85** does not hold for the very first point: the signal is 5 all the time, the point reaches down to 0. -/
theorem first_point_wrong : shows [(at1k 1024 0, List.replicate 5 (flat 5))] 0 = some (5, 0) ∧
    shows [(at1k 1024 0, List.replicate 5 (flat 5))] 1 = some (5, 5) := by
  constructor <;> decide +kernel

/-- **C85** does not hold if the time is turned down and up again in the middle of a point: the point keeps a sample from before that is not
next to the others (here the 7; the 5 in between is not in the point). -/
theorem stale_window : shows [(at1k 1024 0, [flat 1, flat 1, flat 1, flat 7]), (at1k 256 0, [flat 5]), (at1k 1024 0, [flat 1])] 3 = some (7, 1) := by
  decide +kernel

/-- **C85** does not hold for the time range if a point stands for less than a sample but for more than half of one: then every sample takes one
point, and the 512 points show up to twice the time that was set. -/
theorem time_range_wrong (s : Settings) (h1 : 1 / 2 < s.samplesPerBlock) (h2 : s.samplesPerBlock < 1) : s.copyCount = 1 := by
  have h0 : 0 < s.samplesPerBlock := by linarith
  unfold Settings.copyCount
  have : ⌊1 / s.samplesPerBlock⌋ = 1 := by
    rw [Int.floor_eq_iff]
    constructor
    · rw [le_div_iff₀ h0]; push_cast; linarith
    · rw [div_lt_iff₀ h0]; push_cast; linarith
  rw [this]
  rfl

example : (at1k 300 0).samplesPerBlock = 300 / 512 := by
  norm_num [at1k, Settings.samplesPerBlock, Settings.clamped]

-- the hypotheses: two blocks, a change of the time in between, an external trigger
example : ∀ b ∈ [(at1k 1024 0, [flat 1, flat 2, flat 3]), (at1k 700 2, [flat (-1), flat 4])], 1 ≤ b.1.samplesPerBlock := by
  intro b hb
  simp only [List.mem_cons, List.not_mem_nil, or_false] at hb
  rcases hb with rfl | rfl <;> norm_num [at1k, Settings.samplesPerBlock, Settings.clamped]

example : shows [(at1k 1024 0, [flat 1, flat 2, flat 3]), (at1k 700 2, [flat (-1), flat 4, flat 8])] 1 = some (4, -1) := by decide +kernel

example : shows [(at1k 100 0, [flat 1, flat 2, flat 3])] 9 = some (2, 2) ∧ (at1k 100 0).copyCount = 5 := by
  constructor <;> decide +kernel

end HexoDSP.ScopeNodeProps
