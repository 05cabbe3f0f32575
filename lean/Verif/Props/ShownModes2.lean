import Verif.Props.ShownModes
import Verif.Model.Osc
import Verif.Model.MidiGate
import Verif.Model.Reverb
import Verif.Model.SFilter
import Verif.Model.BiqFilt
import Verif.Model.Quant
set_option linter.unusedSectionVars false

/-! # C135: more modes that do what their names say -/

namespace HexoDSP.ShownModesProps
open HexoDSP.Table HexoDSP.SettingNames HexoDSP.SettingNamesSpec HexoDSP.SettingNamesProps

open HexoDSP.Osc in
/-- **C135** Basic oscillator: the wave that is shown is played; the pulse with its DC part removed is "Pulse-DC". -/
theorem bosc {S : Type} (E : Blep S) (n : BOsc S) (f : BFrame) (t : String) (m : Int) (h : Shown "bosc" "wtype" t m) :
    (t = "Sin" → (n.tick E m f).2 = (E.sin n.osc f.freq n.israte).2) ∧ (t = "Tri" → (n.tick E m f).2 = (E.tri n.osc f.freq n.israte).2) ∧
    (t = "Saw" → (n.tick E m f).2 = (E.saw n.osc f.freq n.israte).2) ∧
    (t = "Pulse" → (n.tick E m f).2 = (E.pulseNoDc n.osc f.freq n.israte f.pw).2) ∧
    (t = "Pulse-DC" → (n.tick E m f).2 = (E.pulse n.osc f.freq n.israte f.pw).2) := by
  obtain ⟨k, rfl, hk⟩ := shown_get (p := ⟨"wtype", NodeId.fromStr "bosc", 3⟩) (l := ["Sin", "Tri", "Saw", "Pulse", "Pulse-DC"]) (o := "?") (lo := 0)
    (hi := 4) h (by decide +kernel) (by decide +kernel) rfl rfl rfl
  refine ⟨?_, ?_, ?_, ?_, ?_⟩ <;> rintro rfl <;> rcases k with _ | _ | _ | _ | _ | k <;> simp at hk <;> rfl

open HexoDSP.Osc in
/-- **C135** V oscillator: with "Off" one number of the oscillator makes a frame and the resampler is not touched, with "On" four numbers go through
the resampler. -/
theorem vosc {S O : Type} (E : Vps S O) (n : VOsc S O) (c : VSet) (f : VFrame) (t : String) (h : Shown "vosc" "ovrsmpl" t c.ovrsmpl) :
    (t = "Off" → (n.tick E c f).1.over = n.over ∧ ∃ d v, (n.tick E c f).1.osc = (E.next n.osc f.freq (n.israte * 4) d v).1) ∧
    (t = "On" → ∃ l, l.length = 4 ∧ (n.tick E c f).2 = (E.down n.over l).2 ∧ (n.tick E c f).1.over = (E.down n.over l).1) := by
  obtain ⟨k, hm, hk⟩ := shown_get (p := ⟨"ovrsmpl", NodeId.fromStr "vosc", 7⟩) (l := ["Off", "On"]) (o := "?") (lo := 0) (hi := 1) h
    (by decide +kernel) (by decide +kernel) rfl rfl rfl
  constructor <;> rintro rfl <;> rcases k with _ | _ | k <;> simp at hk
  · have : c.ovrsmpl ≠ 1 := by rw [hm]; decide
    simp only [VOsc.tick, this, if_false]
    exact ⟨trivial, _, _, by norm_num [OVERSAMPLING]; rfl⟩
  · have : c.ovrsmpl = 1 := by rw [hm]; rfl
    simp only [VOsc.tick, this, if_true]
    exact ⟨_, rfl, rfl, rfl⟩

open HexoDSP.MidiGate in
/-- **C135** MIDI input: with "MIDI" the gate is 1 as long as the note is held, with "Trigger" it is the signal of the trigger, with "Gate Len" that of
the gate of the given length; a note that has just been struck again is a frame of 0. -/
theorem midip {V T G : Type} [OfNat V 0] [OfNat V 1] (E : Ext V T G) (len : V) (n : MidiGate.Node V T G) (t : String) (m : Int)
    (h : Shown "midip" "gmode" t m) :
    (t = "MIDI" → n.gate E m len = (if n.base.curGate > 0 then 1 else 0, n)) ∧
    (t = "Trigger" → (n.gate E m len).1 = (E.trigNext n.trigSig).1) ∧
    (t = "Gate Len" → (n.gate E m len).1 = if n.base.nextGate > 0 then 0 else (E.gateNext n.gateSig len).1) := by
  obtain ⟨k, rfl, hk⟩ := shown_get (p := ⟨"gmode", NodeId.fromStr "midip", 3⟩) (l := ["MIDI", "Trigger", "Gate Len"]) (o := "?") (lo := 0) (hi := 2) h
    (by decide +kernel) (by decide +kernel) rfl rfl rfl
  refine ⟨?_, ?_, ?_⟩ <;> rintro rfl <;> rcases k with _ | _ | _ | k <;> simp [MidiGate.Node.gate] at hk ⊢
  split <;> rfl

open HexoDSP.Reverb in
/-- **C135** Comb filter: "FedBack" feeds the output back, "FedForw" the input forward. -/
theorem comb {S : Type} (E : Line S) (s : S) (f : CFrame) (t : String) (h : Shown "comb" "mode" t f.mode) :
    (t = "FedBack" → combTick E s f = E.feedback s f.time f.g f.inp) ∧
    (t = "FedForw" → combTick E s f = E.feedforward s f.time f.g f.inp) := by
  obtain ⟨k, hm, hk⟩ := shown_get (p := ⟨"mode", NodeId.fromStr "comb", 3⟩) (l := ["FedBack", "FedForw"]) (o := "?") (lo := 0) (hi := 1) h
    (by decide +kernel) (by decide +kernel) rfl rfl rfl
  constructor <;> rintro rfl <;> rcases k with _ | _ | k <;> simp [combTick, hm] at hk ⊢

open HexoDSP.SFilter in
/-- **C135** Simple filter: each name stands for the filter of that kind and the output (low, high, band, notch, peak) it names. -/
theorem sfilter (E : SFilter.Ext) (isr : ℚ) (mem : Mem) (f : SFilter.Frame) (t : String) (m : Int) (h : Shown "sfilter" "ftype" t m) :
    ∃ freq res inp y, (tick E isr (SFilter.asI8 m) mem f).map Prod.fst = some y ∧
    (f.freq ∈ Set.Icc 2 16000 → freq = f.freq) ∧ (f.res ∈ Set.Icc 0 (99/100) → res = f.res) ∧ (f.inp ∈ Set.Icc (-1) 1 → inp = f.inp) ∧
    (t = "LP 1p" → y = (E.lp1 f.inp freq isr mem.z).1) ∧ (t = "LP 1pt" → y = (E.lp1t f.inp freq isr mem.z).1) ∧
    (t = "HP 1p" → y = (E.hp1 f.inp freq isr mem.z mem.y).1) ∧ (t = "HP 1pt" → y = (E.hp1t f.inp freq isr mem.z).1) ∧
    (t = "LP 12c" → y = (E.hal f.inp freq res isr mem.z mem.y).2.2.2) ∧ (t = "HP 12c" → y = (E.hal f.inp freq res isr mem.z mem.y).1) ∧
    (t = "BP 12c" → y = (E.hal f.inp freq res isr mem.z mem.y).2.2.1) ∧ (t = "NO 12c" → y = (E.hal f.inp freq res isr mem.z mem.y).2.1) ∧
    (t = "LP 12s" → y = (E.simper f.inp freq res isr mem.k mem.h).1) ∧ (t = "HP 12s" → y = (E.simper f.inp freq res isr mem.k mem.h).2.2.1) ∧
    (t = "BP 12s" → y = (E.simper f.inp freq res isr mem.k mem.h).2.1) ∧
    (t = "NO 12s" → y = (E.simper f.inp freq res isr mem.k mem.h).1 + (E.simper f.inp freq res isr mem.k mem.h).2.2.1) ∧
    (t = "PK 12s" → y = (E.simper f.inp freq res isr mem.k mem.h).1 - (E.simper f.inp freq res isr mem.k mem.h).2.2.1) ∧
    (t = "LP 24m" → y = (E.moog inp freq res isr mem.z mem.y mem.k mem.h mem.delay).1) := by
  obtain ⟨k, rfl, hk⟩ := shown_get (p := ⟨"ftype", NodeId.fromStr "sfilter", 3⟩) (l := ["LP 1p", "LP 1pt", "HP 1p", "HP 1pt", "LP 12c", "HP 12c", "BP 12c",
    "NO 12c", "LP 12s", "HP 12s", "BP 12s", "NO 12s", "PK 12s", "LP 24m"]) (o := "?") (lo := 0) (hi := 13) h
    (by decide +kernel) (by decide +kernel) rfl rfl rfl
  have inside : ∀ (lo hi a b x : ℚ), lo ≤ a → b ≤ hi → x ∈ Set.Icc a b → SFilter.clamp lo hi x = x := by
    rintro lo hi a b x h1 h2 ⟨h3, h4⟩
    unfold SFilter.clamp
    rw [if_neg (by linarith), if_neg (by linarith)]
  have hk3 : k < 14 := by
    by_contra hc
    rw [List.getElem?_eq_none (by simp; omega)] at hk; cases hk
  interval_cases k <;> simp at hk <;> subst hk
  · exact ⟨SFilter.clamp 1 22000 f.freq, f.res, f.inp, _, rfl, inside _ _ _ _ _ (by norm_num) (by norm_num), fun _ => rfl, fun _ => rfl, by simp⟩
  · exact ⟨SFilter.clamp 1 22000 f.freq, f.res, f.inp, _, rfl, inside _ _ _ _ _ (by norm_num) (by norm_num), fun _ => rfl, fun _ => rfl, by simp⟩
  · exact ⟨SFilter.clamp 1 22000 f.freq, f.res, f.inp, _, rfl, inside _ _ _ _ _ (by norm_num) (by norm_num), fun _ => rfl, fun _ => rfl, by simp⟩
  · exact ⟨SFilter.clamp 1 22000 f.freq, f.res, f.inp, _, rfl, inside _ _ _ _ _ (by norm_num) (by norm_num), fun _ => rfl, fun _ => rfl, by simp⟩
  · exact ⟨SFilter.clamp 2 16000 f.freq, SFilter.clamp 0 (99/100) f.res, f.inp, _, rfl, inside _ _ _ _ _ (by norm_num) (by norm_num),
      inside _ _ _ _ _ (by norm_num) (by norm_num), fun _ => rfl, by simp⟩
  · exact ⟨SFilter.clamp 1 16000 f.freq, SFilter.clamp 0 (99/100) f.res, f.inp, _, rfl, inside _ _ _ _ _ (by norm_num) (by norm_num),
      inside _ _ _ _ _ (by norm_num) (by norm_num), fun _ => rfl, by simp⟩
  · exact ⟨SFilter.clamp 1 16000 f.freq, SFilter.clamp 0 (99/100) f.res, f.inp, _, rfl, inside _ _ _ _ _ (by norm_num) (by norm_num),
      inside _ _ _ _ _ (by norm_num) (by norm_num), fun _ => rfl, by simp⟩
  · exact ⟨SFilter.clamp 1 16000 f.freq, SFilter.clamp 0 (99/100) f.res, f.inp, _, rfl, inside _ _ _ _ _ (by norm_num) (by norm_num),
      inside _ _ _ _ _ (by norm_num) (by norm_num), fun _ => rfl, by simp⟩
  · exact ⟨SFilter.clamp 1 22000 f.freq, SFilter.clamp 0 1 f.res, f.inp, _, rfl, inside _ _ _ _ _ (by norm_num) (by norm_num),
      inside _ _ _ _ _ (by norm_num) (by norm_num), fun _ => rfl, by simp⟩
  · exact ⟨SFilter.clamp 1 22000 f.freq, SFilter.clamp 0 1 f.res, f.inp, _, rfl, inside _ _ _ _ _ (by norm_num) (by norm_num),
      inside _ _ _ _ _ (by norm_num) (by norm_num), fun _ => rfl, by simp⟩
  · exact ⟨SFilter.clamp 1 22000 f.freq, SFilter.clamp 0 1 f.res, f.inp, _, rfl, inside _ _ _ _ _ (by norm_num) (by norm_num),
      inside _ _ _ _ _ (by norm_num) (by norm_num), fun _ => rfl, by simp⟩
  · exact ⟨SFilter.clamp 1 22000 f.freq, SFilter.clamp 0 1 f.res, f.inp, _, rfl, inside _ _ _ _ _ (by norm_num) (by norm_num),
      inside _ _ _ _ _ (by norm_num) (by norm_num), fun _ => rfl, by simp⟩
  · exact ⟨SFilter.clamp 1 22000 f.freq, SFilter.clamp 0 1 f.res, f.inp, _, rfl, inside _ _ _ _ _ (by norm_num) (by norm_num),
      inside _ _ _ _ _ (by norm_num) (by norm_num), fun _ => rfl, by simp⟩
  · exact ⟨SFilter.clamp 1 20000 f.freq, SFilter.clamp 0 1 f.res, SFilter.clamp (-1) 1 f.inp, _, rfl, inside _ _ _ _ _ (by norm_num) (by norm_num),
      inside _ _ _ _ _ (by norm_num) (by norm_num), inside _ _ _ _ _ (by norm_num) (by norm_num), by simp⟩

/-- The number of filters a sample passes, one after the other, with all the states kept. -/
def passes {C M X : Type} (E : BiqFilt.Ext C M X) (l : List (C × M)) (x : X) : X := l.foldl (fun y c => (E.tick c.1 c.2 y).1) x

theorem through_passes {C M X : Type} (E : BiqFilt.Ext C M X) (k : Nat) (l : List (C × M)) (x : X) (h : k ≤ l.length) :
    ∃ cs, BiqFilt.through E k l x = some (passes E (l.take k) x, cs) := by
  induction k generalizing l x with
  | zero => exact ⟨l, rfl⟩
  | succ k ih =>
    match l, h with
    | c :: l, h =>
      obtain ⟨cs, e⟩ := ih l (E.tick c.1 c.2 x).1 (by simpa using h)
      exact ⟨(c.1, (E.tick c.1 c.2 x).2) :: cs, by simp only [BiqFilt.through, e]; rfl⟩

open HexoDSP.BiqFilt in
/-- **C135** Biquad filter, after any change of the type: "Res" is one resonator whatever the order, "BtW LP" with the order shown as `u` is that many
lowpass filters in a row. -/
theorem biqfilt {C M X : Type} (E : BiqFilt.Ext C M X) (n : BiqFilt.Node C M) (b : BiqFilt.Block X) (x : X) (hx : b.inp = [x]) (t u : String)
    (h4 : n.cascade.length = 4) (hn : (n.otype : ℤ) ≠ b.ftype)
    (h : Shown "biqfilt" "ftype" t b.ftype) (h1 : Shown "biqfilt" "order" u b.order) :
    ∃ y n', n.process E b = some ([y], n') ∧
    (t = "Res" → y = (E.tick (E.resonator n.srate (clampFreq b.freq) b.q) E.m0 x).1) ∧
    (t = "BtW LP" → y = passes E (List.replicate (FormatSpec.decimal u.toList) (E.butter n.srate (clampFreq b.freq), E.m0)) x) := by
  obtain ⟨i, hi, hi'⟩ := shown_get (p := ⟨"ftype", NodeId.fromStr "biqfilt", 4⟩) (l := ["BtW LP", "Res"]) (o := "?") (lo := 0) (hi := 1) h
    (by decide +kernel) (by decide +kernel) rfl rfl rfl
  obtain ⟨j, hj, hj'⟩ := shown_get (p := ⟨"order", NodeId.fromStr "biqfilt", 5⟩) (l := ["1", "2", "3", "4"]) (o := "?") (lo := 0) (hi := 3) h1
    (by decide +kernel) (by decide +kernel) rfl rfl rfl
  have hi2 : i < 2 := by
    by_contra hc
    rw [List.getElem?_eq_none (by simp; omega)] at hi'; cases hi'
  have hj4 : j < 4 := by
    by_contra hc
    rw [List.getElem?_eq_none (by simp; omega)] at hj'; cases hj'
  have ht : asU8 b.ftype = i := by rw [hi]; unfold asU8; omega
  have ho : asU8 b.order = j := by rw [hj]; unfold asU8; omega
  have hne : asU8 b.ftype ≠ n.otype := by rw [ht]; intro e; apply hn; rw [hi, e]
  have hdec : ∀ d : Fin 4, FormatSpec.decimal (["1", "2", "3", "4"][d.1]'(by simp)).toList = d.1 + 1 := by decide +kernel
  have hu : FormatSpec.decimal u.toList = j + 1 := by
    rw [List.getElem?_eq_getElem (by simpa using hj4)] at hj'
    injection hj' with hj'
    rw [← hj']; exact hdec ⟨j, hj4⟩
  have hup : (n.update E b).cascade = List.replicate 4 ((if i = 1 then E.resonator n.srate (clampFreq b.freq) b.q
      else E.butter n.srate (clampFreq b.freq)), E.m0) := by
    unfold BiqFilt.Node.update
    simp only
    rw [if_pos (Or.inl hne), ht, List.map_const', h4]
  obtain ⟨cs, e⟩ := through_passes E ((if i = 1 then 0 else j) + 1) (n.update E b).cascade x (by
    rw [hup, List.length_replicate]; split <;> omega)
  refine ⟨passes E ((n.update E b).cascade.take ((if i = 1 then 0 else j) + 1)) x, { n.update E b with cascade := cs }, ?_, ?_, ?_⟩
  · simp only [BiqFilt.Node.process, ht, ho, hx, BiqFilt.loop, e]
    rfl
  · rintro rfl
    have : i = 1 := by interval_cases i <;> simp at hi' ⊢
    subst this
    rw [hup]
    rfl
  · rintro rfl
    have : i = 0 := by interval_cases i <;> simp at hi' ⊢
    subst this
    rw [hup, hu, List.take_replicate, Nat.min_eq_left (by simp; omega)]
    rfl

/-- **C135** Chromatic quantizer: the number of octaves shown is the one set, with `-` before those below and `+` before those above. -/
theorem cqnt (m : Int) (t : String) :
    (Shown "cqnt" "omin" t m → ∃ l, t = String.ofList ('-' :: l) ∧ m = FormatSpec.decimal l) ∧
    (Shown "cqnt" "omax" t m → ∃ l, t = String.ofList ('+' :: l) ∧ m = FormatSpec.decimal l) := by
  constructor <;> intro h
  · obtain ⟨k, rfl, hk⟩ := shown_get (p := ⟨"omin", NodeId.fromStr "cqnt", 3⟩) (l := ["-0", "-1", "-2", "-3", "-4"]) (o := "?") (lo := 0) (hi := 4) h
      (by decide +kernel) (by decide +kernel) rfl rfl rfl
    rcases k with _ | _ | _ | _ | _ | k <;> simp at hk <;> subst hk
    · exact ⟨['0'], by decide +kernel, by decide +kernel⟩
    · exact ⟨['1'], by decide +kernel, by decide +kernel⟩
    · exact ⟨['2'], by decide +kernel, by decide +kernel⟩
    · exact ⟨['3'], by decide +kernel, by decide +kernel⟩
    · exact ⟨['4'], by decide +kernel, by decide +kernel⟩
  · obtain ⟨k, rfl, hk⟩ := shown_get (p := ⟨"omax", NodeId.fromStr "cqnt", 4⟩) (l := ["+0", "+1", "+2", "+3", "+4"]) (o := "?") (lo := 0) (hi := 4) h
      (by decide +kernel) (by decide +kernel) rfl rfl rfl
    rcases k with _ | _ | _ | _ | _ | k <;> simp at hk <;> subst hk
    · exact ⟨['0'], by decide +kernel, by decide +kernel⟩
    · exact ⟨['1'], by decide +kernel, by decide +kernel⟩
    · exact ⟨['2'], by decide +kernel, by decide +kernel⟩
    · exact ⟨['3'], by decide +kernel, by decide +kernel⟩
    · exact ⟨['4'], by decide +kernel, by decide +kernel⟩

/-- A case: the third order of the biquad filter is shown as "3". -/
example : Shown "biqfilt" "order" "3" 2 :=
  ⟨⟨"order", NodeId.fromStr "biqfilt", 5⟩, 0, 3, by decide +kernel, by decide +kernel, by decide, by decide,
    names_of (l := ["1", "2", "3", "4"]) (o := "?") rfl 2 (by decide)⟩

end HexoDSP.ShownModesProps
