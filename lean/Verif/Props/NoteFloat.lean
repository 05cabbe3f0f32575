import Verif.Model.NoteFloat
import Verif.Model.Rounded
import Verif.Model.Tracker
import Verif.Lemmas.NormFloat
import Verif.Props.FormFMFloat
import Verif.Props.MidiGate
/-!
# Played notes are in tune with `f32` numbers (C147)
-/

set_option linter.unusedSectionVars false

namespace HexoDSP.NoteFloatProps
open HexoDSP HexoDSP.SinSpec HexoDSP.FloatLemmas HexoDSP.FormFMFloatProps HexoDSP.NoteFloat HexoDSP.Midi HexoDSP.MidiSpec HexoDSP.MidiGate HexoDSP.MidiGateSpec

variable {rn : ℚ → ℚ} {T G : Type}

/-- Rounding errors by the size of the number. -/
theorem err (hr : Nearest rn) {x : ℚ} (j : ℤ) (h1 : -125 ≤ j) (h2 : j ≤ 127) {b e : ℚ} (hb : b = (2 : ℚ) ^ j) (he : e = (2 : ℚ) ^ (j - 25)) (hx : |x| ≤ b) : |rn x - x| ≤ e := by
  rw [he]; exact rn_err hr h1 h2 (by rw [← hb]; exact hx)

theorem nat_exact (hr : Nearest rn) {n : ℕ} (hn : n ≤ 2 ^ 24) : rn n = n := by
  have := int_f32 (m := n) (by rw [abs_of_nonneg (by omega)]; exact_mod_cast hn)
  exact rn_fix hr (by exact_mod_cast this)

theorem int_exact (hr : Nearest rn) {m : ℤ} (hm : |m| ≤ 2 ^ 24) : rn m = m := rn_fix hr (int_f32 hm)

/-- The pitch of a MIDI note before detuning. -/
theorem base_pitch (hr : Nearest rn) {k : ℕ} (hk : k ≤ 127) : |rn (rn (rn k - rn (69 : ℕ)) / rn (120 : ℕ)) - ((k : ℚ) - 69) / 120| ≤ 1 / 2 ^ 25 := by
  have a : rn (k : ℚ) = k := nat_exact hr (by omega)
  have b : rn ((69 : ℕ) : ℚ) = (69 : ℕ) := nat_exact hr (by norm_num)
  have c : rn ((120 : ℕ) : ℚ) = (120 : ℕ) := nat_exact hr (by norm_num)
  have d : rn ((k : ℚ) - (69 : ℕ)) = k - (69 : ℕ) := by
    have := int_exact hr (m := (k : ℤ) - 69) (by rw [abs_le]; constructor <;> omega)
    push_cast at this ⊢
    exact this
  rw [a, b, c, d]
  push_cast
  have k0 : (0 : ℚ) ≤ k := Nat.cast_nonneg _
  have k1 : (k : ℚ) ≤ 127 := by exact_mod_cast hk
  exact err hr 0 (by norm_num) (by norm_num) (b := 1) (by norm_num) (by norm_num) (by rw [abs_le]; constructor <;> linarith)

/-- **C147** The pitch the MIDI note input puts out, with `f32` arithmetic, in every frame of every history of blocks, notes, channels and gate modes: that of the note played last, 120 steps to the unit (ten octaves), note 69 at 0
(440 Hz), moved by the detune input; up to `2^-23`, which is less than two thousandths of a cent. -/
theorem midi_in_tune (hr : Nearest rn) (E : Ext (Rounded rn) T G) (bs : List (Block (Rounded rn))) (ho : ∀ b ∈ bs, Ordered b.notes) (os : List (Out (Rounded rn)))
    (leds : List (Rounded rn)) (n' : Node (Rounded rn) T G) (h : Node.blocks E (Node.new E) bs = some (os, leds, n')) (f : Nat) (fr : Frame (Rounded rn))
    (hf : (framesOf bs)[f]? = some fr) (hd : |fr.det.val| ≤ 1) :
    ∃ o, os[f]? = some o ∧ ∀ k v, ((played ((framesOf bs).take (f + 1))).getLast?.getD (0, 0)) = (k, v) → k ≤ 127 →
      o.vel = v ∧ |o.freq.val - (((k : ℚ) - 69) / 120 + fr.det.val)| ≤ 1 / 2 ^ 23 := by
  obtain ⟨o, h1, h2⟩ := MidiGateProps.notes_any_mode E bs ho os leds n' h f fr hf
  refine ⟨o, h1, fun k v hkv hk => ?_⟩
  obtain ⟨h3, h4⟩ := h2 k v hkv
  refine ⟨h3, ?_⟩
  have e : o.freq.val = rn (rn (rn (rn k - rn (69 : ℕ)) / rn (120 : ℕ)) + fr.det.val) := by rw [h4]; rfl
  rw [e]
  have p := base_pitch hr hk
  have k0 : (0 : ℚ) ≤ k := Nat.cast_nonneg _
  have k1 : (k : ℚ) ≤ 127 := by exact_mod_cast hk
  generalize rn (rn (rn k - rn (69 : ℕ)) / rn (120 : ℕ)) = P at *
  obtain ⟨p1, p2⟩ := abs_le.1 p
  obtain ⟨d1, d2⟩ := abs_le.1 hd
  have q := err hr (x := P + fr.det.val) 1 (by norm_num) (by norm_num) (b := 2) (e := 1 / 2 ^ 24) (by norm_num) (by norm_num) (by
    rw [abs_le]; norm_num at p1 p2; constructor <;> linarith)
  obtain ⟨q1, q2⟩ := abs_le.1 q
  rw [abs_le]
  norm_num at p1 p2 q1 q2 ⊢
  constructor <;> linarith

/-- **C147** The pitch of a note in a note column of the tracker, with `f32` arithmetic: on the same scale, as precise. -/
theorem tracker_in_tune (hr : Nearest rn) {k : ℕ} (hk : k ≤ 127) : |trackerPitch rn k - ((k : ℚ) - 69) / 120| ≤ 1 / 2 ^ 23 := by
  have k0 : (0 : ℚ) ≤ k := Nat.cast_nonneg _
  have k1 : (k : ℚ) ≤ 127 := by exact_mod_cast hk
  unfold trackerPitch
  rw [int_exact hr (m := (k : ℤ) - 69) (by rw [abs_le]; constructor <;> omega)]
  push_cast
  have a := err hr (x := 1 / 10) (-3) (by norm_num) (by norm_num) (b := 1 / 8) (e := 1 / 2 ^ 28) (by norm_num) (by norm_num) (by norm_num [abs_le])
  generalize rn (1 / 10) = c at *
  obtain ⟨a1, a2⟩ := abs_le.1 a
  have x : |((k : ℚ) - 69) * c - (k - 69) / 10| ≤ 69 / 2 ^ 28 := by
    have e : ((k : ℚ) - 69) * c - (k - 69) / 10 = (k - 69) * (c - 1 / 10) := by ring
    rw [e, abs_mul]
    have : |(k : ℚ) - 69| ≤ 69 := by rw [abs_le]; constructor <;> linarith
    calc _ ≤ 69 * (1 / 2 ^ 28 : ℚ) := mul_le_mul this a (abs_nonneg _) (by norm_num)
      _ = _ := by norm_num
  obtain ⟨x1, x2⟩ := abs_le.1 x
  have b := err hr (x := ((k : ℚ) - 69) * c) 3 (by norm_num) (by norm_num) (b := 8) (e := 1 / 2 ^ 22) (by norm_num) (by norm_num) (by
    rw [abs_le]; norm_num at x1 x2; constructor <;> linarith)
  generalize ((k : ℚ) - 69) * c = y at *
  generalize rn y = z at *
  obtain ⟨b1, b2⟩ := abs_le.1 b
  have d := err hr (x := z / 12) 0 (by norm_num) (by norm_num) (b := 1) (e := 1 / 2 ^ 25) (by norm_num) (by norm_num) (by
    rw [abs_le]; norm_num at x1 x2 b1 b2; constructor <;> linarith)
  generalize rn (z / 12) = w at *
  obtain ⟨d1, d2⟩ := abs_le.1 d
  norm_num at x1 x2 b1 b2 d1 d2
  have w1 : w ≤ 1 := by linarith
  have w2 : -1 ≤ w := by linarith
  rw [min_eq_left w1, max_eq_right w2, abs_le]
  norm_num
  constructor <;> linarith

/-- **C147** A melody keeps its shape: a higher note number is a higher pitch, by a semitone for each step up to the rounding. -/
theorem tracker_rises (hr : Nearest rn) {k l : ℕ} (hkl : k < l) (hl : l ≤ 127) : trackerPitch rn k < trackerPitch rn l := by
  have a := abs_le.1 (tracker_in_tune hr (k := k) (by omega))
  have b := abs_le.1 (tracker_in_tune hr (k := l) hl)
  have : (k : ℚ) + 1 ≤ l := by exact_mod_cast hkl
  norm_num at a b
  linarith

/-- **C147** The concert pitch (note 69) is exact in the tracker. -/
theorem tracker_a_exact (hr : Nearest rn) : trackerPitch rn 69 = 0 := by
  have z : rn 0 = 0 := rn_fix hr f32_zero
  unfold trackerPitch
  norm_num [z]

/-- **C147** With exact numbers this is the pitch of C34. -/
theorem same_tracker_pitch (k : ℕ) : trackerPitch id k = Tracker.clamp (Tracker.notePitch k) (-1) 1 := rfl

/-- **C147** The two are not the same number: note 6 differs in the last digit between the keyboard and the tracker. -/
theorem last_digit_differs (hr : Nearest rn) : rn (rn (rn (6 : ℕ) - rn (69 : ℕ)) / rn (120 : ℕ)) ≠ trackerPitch rn 6 := by
  have U : ∀ {x : ℚ} (m e : ℤ), 2 ^ 23 < |m| → |m| < 2 ^ 24 → -149 ≤ e → e ≤ 104 → 2 * |x - m * (2 : ℚ) ^ e| < (2 : ℚ) ^ e → rn x = m * (2 : ℚ) ^ e :=
    fun m e a b c d h => rn_unique hr a b c d h
  have a : rn ((6 : ℕ) : ℚ) = (6 : ℕ) := nat_exact hr (by norm_num)
  have b : rn ((69 : ℕ) : ℚ) = (69 : ℕ) := nat_exact hr (by norm_num)
  have c : rn ((120 : ℕ) : ℚ) = (120 : ℕ) := nat_exact hr (by norm_num)
  have d : rn (-63) = -63 := by have := int_exact hr (m := -63) (by norm_num); push_cast at this; exact this
  have t : rn (1 / 10) = 13421773 / 2 ^ 27 :=
    (U 13421773 (-27) (by norm_num) (by norm_num) (by norm_num) (by norm_num) (by norm_num [abs_lt])).trans (by norm_num)
  have m : rn (-63 / 120) = -8808038 / 2 ^ 24 :=
    (U (-8808038) (-24) (by norm_num) (by norm_num) (by norm_num) (by norm_num) (by norm_num [abs_lt])).trans (by norm_num)
  have p : rn (-63 * (13421773 / 2 ^ 27)) = -13212058 / 2 ^ 21 :=
    (U (-13212058) (-21) (by norm_num) (by norm_num) (by norm_num) (by norm_num) (by norm_num [abs_lt])).trans (by norm_num)
  have q : rn (-13212058 / 2 ^ 21 / 12) = -8808039 / 2 ^ 24 :=
    (U (-8808039) (-24) (by norm_num) (by norm_num) (by norm_num) (by norm_num) (by norm_num [abs_lt])).trans (by norm_num)
  have e1 : rn (rn (rn (6 : ℕ) - rn (69 : ℕ)) / rn (120 : ℕ)) = -8808038 / 2 ^ 24 := by
    rw [a, b, c, show (((6 : ℕ) : ℚ) - (69 : ℕ)) = -63 by norm_num, d, show ((120 : ℕ) : ℚ) = 120 by norm_num, m]
  have e2 : trackerPitch rn 6 = -8808039 / 2 ^ 24 := by
    unfold trackerPitch
    rw [show ((((6 : ℕ) : ℤ) - 69 : ℤ) : ℚ) = -63 by norm_num, d, t, p, q, min_eq_left (by norm_num), max_eq_right (by norm_num)]
  rw [e1, e2]
  norm_num

/-- A block of four frames with a note in the second, a little detuned. -/
def exBlock (rn : ℚ → ℚ) : Block (Rounded rn) := ⟨0, 0, 4, [⟨1, .noteOn 0 60 ⟨1 / 2⟩⟩], fun _ => ⟨1 / 1024⟩, fun _ => ⟨6⟩⟩

/-- Generators that are not used in the gate mode "MIDI". -/
def exGen (rn : ℚ → ℚ) : Ext (Rounded rn) Unit Unit := ⟨(), id, fun _ => (0, ()), (), id, fun _ _ => (0, ()), fun _ => 0⟩

example : ∃ rn, Nearest rn ∧ ∃ os leds n', Node.blocks (exGen rn) (Node.new (exGen rn)) [exBlock rn] = some (os, leds, n') ∧ (∀ b ∈ [exBlock rn], Ordered b.notes) ∧
    ∃ fr, (framesOf [exBlock rn])[2]? = some fr ∧ |fr.det.val| ≤ 1 ∧ (played ((framesOf [exBlock rn]).take 3)).getLast?.getD (0, 0) = (60, ⟨1 / 2⟩) := by
  obtain ⟨rn, hr⟩ := nearest_exists
  have ho : ∀ b ∈ [exBlock rn], Ordered b.notes := by simp [exBlock, Ordered]
  obtain ⟨os, leds, n', h, -, -⟩ := MidiGateProps.never_panics (exGen rn) [exBlock rn] (by simp [exBlock]) ho (Node.new (exGen rn))
  exact ⟨rn, hr, os, leds, n', h, ho, _, rfl, by norm_num [exBlock, abs_le], rfl⟩

end HexoDSP.NoteFloatProps
