import Verif.Props.SettingNames
import Verif.Spec.ShownModes
import Verif.Model.Noise
import Verif.Model.Delay
import Verif.Model.TSeqNode
import Verif.Model.IoNodes
import Verif.Model.MapNodes
import Verif.Model.FVaFilt
import Verif.Model.Sampl
import Verif.Model.ScopeNode
import Mathlib.Tactic.Linarith
import Mathlib.Tactic.Ring
set_option linter.unusedSectionVars false

/-! # C135: the node does what the name of its mode says -/

namespace HexoDSP.ShownModesProps
open HexoDSP.Table HexoDSP.SettingNames HexoDSP.SettingNamesSpec HexoDSP.SettingNamesProps

/-- From the text to the value. -/
theorem shown_get {node param t : String} {m : Int} {p : ParamId} {l : List String} {o : String} {lo hi : Int}
    (h : Shown node param t m) (hp : (NodeId.fromStr node).inpParam param = some p) (hm : p.settingMinMax = some (lo, hi)) (hlo : lo = 0)
    (hhi : hi + 1 = l.length) (hf : faOf p = some (.names l o)) : ∃ n : Nat, m = n ∧ l[n]? = some t := by
  obtain ⟨p', lo', hi', h1, h2, h3, h4, h5⟩ := h
  rw [hp] at h1; injection h1 with h1; subst h1
  rw [hm] at h2; injection h2 with h2; injection h2 with e1 e2; subst e1; subst e2
  obtain ⟨n, rfl⟩ : ∃ n : Nat, m = n := ⟨m.toNat, by omega⟩
  have hn : n < l.length := by omega
  rw [names_of hf n hn] at h5
  exact ⟨n, rfl, by rw [List.getElem?_eq_getElem hn]; exact h5⟩

/-- **C135** Noise: "Bipolar" plays the random numbers between 0 and 1 stretched to -1 to 1, "Unipolar" as they are. -/
theorem noise {S : Type} (R : Noise.Rng S) (n : Noise.Node S) (f : Noise.Frame) (t : String) (m : Int) (h : Shown "noise" "mode" t m) :
    (t = "Bipolar" → (Noise.tick R m n f).2 = ((R.next n.rng).2 * 2 - 1) * f.atv + f.offs) ∧
    (t = "Unipolar" → (Noise.tick R m n f).2 = (R.next n.rng).2 * f.atv + f.offs) := by
  obtain ⟨k, rfl, hk⟩ := shown_get (p := ⟨"mode", NodeId.fromStr "noise", 2⟩) (l := ["Bipolar", "Unipolar"]) (o := "?") (lo := 0) (hi := 1) h
    (by decide +kernel) (by decide +kernel) rfl rfl rfl
  constructor <;> rintro rfl <;> rcases k with _ | _ | k <;> simp [Noise.tick] at hk ⊢

/-- **C135** Delay: "Time" does not look at the trigger, "Sync" not at the time. -/
theorem delay {B C : Type} (E : Delay.Ext B C) (n : Delay.Node B C) (f : Delay.Frame) (x : ℚ) (t : String) (m : Int)
    (h : Shown "delay" "mode" t m) :
    (t = "Time" → Delay.tick E m n { f with trig := x } = Delay.tick E m n f ∧
      (Delay.tick E m n f).2 = E.crossfade f.inp (E.readCubic n.buffer f.time) (Delay.clamp 0 1 f.mix)) ∧
    (t = "Sync" → Delay.tick E m n { f with time := x } = Delay.tick E m n f ∧
      (Delay.tick E m n f).2 = E.crossfade f.inp (E.readAt n.buffer (E.tickClock n.clock f.trig).2) (Delay.clamp 0 1 f.mix)) := by
  obtain ⟨k, rfl, hk⟩ := shown_get (p := ⟨"mode", NodeId.fromStr "delay", 5⟩) (l := ["Time", "Sync"]) (o := "?") (lo := 0) (hi := 1) h
    (by decide +kernel) (by decide +kernel) rfl rfl rfl
  constructor <;> rintro rfl <;> rcases k with _ | _ | k <;> simp [Delay.tick] at hk ⊢

/-- **C135** Sequencer: with "RowT" a period of the clock is a row, with "PatT" the pattern, with "Phase" the input is the phase itself. -/
theorem tseq {C T R : Type} (e : TSeqNode.Ext C T R) (plen : ℚ) (c : C) (x : ℚ) (t : String) (m : Int) (h : Shown "tseq" "cmode" t m) :
    (t = "RowT" → (TSeqNode.phaseOf e m plen c x).1 = (e.clockNext c plen x).1 / plen) ∧
    (t = "PatT" → (TSeqNode.phaseOf e m plen c x).1 = (e.clockNext c 1 x).1) ∧
    (t = "Phase" → 0 ≤ x → x < 1 → (TSeqNode.phaseOf e m plen c x).1 = x) := by
  obtain ⟨k, rfl, hk⟩ := shown_get (p := ⟨"cmode", NodeId.fromStr "tseq", 2⟩) (l := ["RowT", "PatT", "Phase"]) (o := "?") (lo := 0) (hi := 2) h
    (by decide +kernel) (by decide +kernel) rfl rfl rfl
  refine ⟨?_, ?_, ?_⟩ <;> rintro rfl <;> rcases k with _ | _ | _ | k <;> simp [TSeqNode.phaseOf] at hk ⊢
  intro h0 h1
  rw [abs_of_nonneg h0]
  simp [Tracker.fract, Int.floor_eq_zero_iff.2 ⟨h0, h1⟩]
  intro hx
  linarith

open HexoDSP.IoNodes in
/-- **C135** Amplifier: with "Clip" a negative `att` is silence, with "Allow" it acts like the positive one. -/
theorem amp (G : Gain) (c : In) (f : Nat) (hf : f < c.nframes) (t : String) (h : Shown "amp" "neg_att" t (setAt c 0)) :
    (t = "Clip" → inAt c 2 f ≤ 0 → IoNodes.amp G c 0 f = 0) ∧
    (t = "Allow" → IoNodes.amp G c 0 f = inAt c 0 f * |inAt c 2 f| * Curve.denorm G .gain (inAt c 1 f)) := by
  obtain ⟨k, hm, hk⟩ := shown_get (p := ⟨"neg_att", NodeId.fromStr "amp", 3⟩) (l := ["Allow", "Clip"]) (o := "?") (lo := 0) (hi := 1) h
    (by decide +kernel) (by decide +kernel) rfl rfl rfl
  constructor <;> rintro rfl <;> rcases k with _ | _ | k <;> simp at hk
  · intro h0
    simp [IoNodes.amp, hm, wr, hf, Curve.denorm, max_eq_right h0]
  · simp [IoNodes.amp, hm, wr, hf, Curve.denorm]

open HexoDSP.IoNodes in
/-- **C135** Output: with "Mono" both channels of the sound card get the first input, with "Stereo" the second one gets the second input. -/
theorem out {τ : Type} (G : Gain) (hst : Host τ) (c : In) (f : Nat) (hf : f < c.nframes) (t : String) (h : Shown "out" "mono" t (setAt c 0)) :
    (IoNodes.out G hst c).out 0 f = Curve.denorm G .vol (inAt c 2 f) * inAt c 0 f ∧
    (t = "Mono" → (IoNodes.out G hst c).out 1 f = Curve.denorm G .vol (inAt c 2 f) * inAt c 0 f) ∧
    (t = "Stereo" → (IoNodes.out G hst c).out 1 f = Curve.denorm G .vol (inAt c 2 f) * inAt c 1 f) := by
  obtain ⟨k, hm, hk⟩ := shown_get (p := ⟨"mono", NodeId.fromStr "out", 3⟩) (l := ["Stereo", "Mono"]) (o := "?") (lo := 0) (hi := 1) h
    (by decide +kernel) (by decide +kernel) rfl rfl rfl
  refine ⟨?_, ?_, ?_⟩
  · unfold IoNodes.out
    split <;> simp [Host.write, hf]
  · rintro rfl
    rcases k with _ | _ | k <;> simp at hk
    simp [IoNodes.out, hm, Host.write, hf]
  · rintro rfl
    rcases k with _ | _ | k <;> simp at hk
    simp [IoNodes.out, hm, Host.write, hf]

open HexoDSP.MapNodes in
/-- **C135** Map: with "Clip" the output stays between `min` and `max`, with "Off" it follows the input beyond them. -/
theorem map (inp atv offs imin imax lo hi : ℚ) (t : String) (m : Int) (h : Shown "map" "clip" t m) :
    (t = "Clip" → min lo hi ≤ MapNodes.map m inp atv offs imin imax lo hi ∧ MapNodes.map m inp atv offs imin imax lo hi ≤ max lo hi) ∧
    (t = "Off" → eps ≤ imax - imin → imin ≤ inp * atv + offs →
      MapNodes.map m inp atv offs imin imax lo hi = lo + (hi - lo) * ((inp * atv + offs - imin) / (imax - imin))) := by
  obtain ⟨k, rfl, hk⟩ := shown_get (p := ⟨"clip", NodeId.fromStr "map", 7⟩) (l := ["Off", "Clip"]) (o := "?") (lo := 0) (hi := 1) h
    (by decide +kernel) (by decide +kernel) rfl rfl rfl
  constructor <;> rintro rfl <;> rcases k with _ | _ | k <;> simp at hk
  · unfold MapNodes.map
    simp only
    rw [if_neg (by decide)]
    split
    · rename_i hl
      unfold clamp
      rw [min_eq_left hl.le, max_eq_right hl.le]
      exact ⟨le_max_left _ _, max_le hl.le (min_le_right _ _)⟩
    · rename_i hl
      have hl := not_lt.1 hl
      unfold clamp
      rw [min_eq_right hl, max_eq_left hl]
      exact ⟨le_max_left _ _, max_le hl (min_le_right _ _)⟩
  · intro he hi'
    have hpos : (0 : ℚ) < imax - imin := lt_of_lt_of_le (by unfold eps; norm_num) he
    unfold MapNodes.map position
    simp only
    rw [if_pos (by decide), abs_of_pos hpos, if_neg (not_lt.2 he), abs_of_nonneg (div_nonneg (by linarith) hpos.le)]

open HexoDSP.MapNodes in
/-- **C135** SMap: from where to where the modes map. "Unipolar" maps 0 to `min` and 1 to `max`, "Bipolar" -1 and 1, the other two the other way
around; with "Clip" nothing leaves the range. -/
theorem smap (s lo hi : ℚ) (t u : String) (m c : Int) (h : Shown "smap" "mode" t m) (h' : Shown "smap" "clip" u c) :
    ∃ y, MapNodes.smap m c s lo hi = some y ∧
    (u = "Off" →
      (t = "Unipolar" → y = (1 - s) * lo + s * hi) ∧ (t = "Bipolar" → y = ((1 - s) * lo + (s + 1) * hi) / 2) ∧
      (t = "UniInv" → y = (1 - s) * hi + s * lo) ∧ (t = "BiInv" → y = ((1 - s) * hi + (s + 1) * lo) / 2)) ∧
    (u = "Clip" → min lo hi ≤ y ∧ y ≤ max lo hi ∧
      (t = "Unipolar" → 0 ≤ s → s ≤ 1 → y = (1 - s) * lo + s * hi) ∧ (t = "Bipolar" → -1 ≤ s → s ≤ 1 → y = ((1 - s) * lo + (s + 1) * hi) / 2) ∧
      (t = "UniInv" → 0 ≤ s → s ≤ 1 → y = (1 - s) * hi + s * lo) ∧ (t = "BiInv" → -1 ≤ s → s ≤ 1 → y = ((1 - s) * hi + (s + 1) * lo) / 2)) := by
  obtain ⟨k, rfl, hk⟩ := shown_get (p := ⟨"mode", NodeId.fromStr "smap", 3⟩) (l := ["Unipolar", "Bipolar", "UniInv", "BiInv"]) (o := "") (lo := 0)
    (hi := 3) h (by decide +kernel) (by decide +kernel) rfl rfl rfl
  obtain ⟨j, rfl, hj⟩ := shown_get (p := ⟨"clip", NodeId.fromStr "smap", 4⟩) (l := ["Off", "Clip"]) (o := "?") (lo := 0) (hi := 1) h'
    (by decide +kernel) (by decide +kernel) rfl rfl rfl
  have box : ∀ x : ℚ, 0 ≤ x → x ≤ 1 → min lo hi ≤ lo + (hi - lo) * x ∧ lo + (hi - lo) * x ≤ max lo hi := by
    intro x h0 h1
    rcases le_total lo hi with hl | hl
    · rw [min_eq_left hl, max_eq_right hl]; constructor <;> nlinarith
    · rw [min_eq_right hl, max_eq_left hl]; constructor <;> nlinarith
  have unit : ∀ x : ℚ, 0 ≤ clamp x 0 1 ∧ clamp x 0 1 ≤ 1 := fun x => ⟨le_max_left _ _, max_le (by norm_num) (min_le_right _ _)⟩
  have same : ∀ x : ℚ, 0 ≤ x → x ≤ 1 → clamp x 0 1 = x := by
    intro x h0 h1; unfold clamp; rw [min_eq_left h1, max_eq_right h0]
  rcases k with _ | _ | _ | _ | k <;> simp at hk <;> subst hk <;> rcases j with _ | _ | j <;> simp at hj <;> subst hj
  · exact ⟨_, rfl, by simp; ring, by simp⟩
  · refine ⟨_, rfl, by simp, fun _ => ⟨(box _ (unit s).1 (unit s).2).1, (box _ (unit s).1 (unit s).2).2, ?_, by simp⟩⟩
    intro _ h0 h1; rw [same s h0 h1]; ring
  · exact ⟨_, rfl, by simp; ring, by simp⟩
  · refine ⟨_, rfl, by simp, fun _ => ⟨(box _ (unit _).1 (unit _).2).1, (box _ (unit _).1 (unit _).2).2, by simp, ?_, by simp⟩⟩
    intro _ h0 h1; rw [same _ (by linarith) (by linarith)]; ring
  · exact ⟨_, rfl, by simp; ring, by simp⟩
  · refine ⟨_, rfl, by simp, fun _ => ⟨(box _ (by linarith [(unit s).2]) (by linarith [(unit s).1])).1,
      (box _ (by linarith [(unit s).2]) (by linarith [(unit s).1])).2, by simp, by simp, ?_, by simp⟩⟩
    intro _ h0 h1; rw [same s h0 h1]; ring
  · exact ⟨_, rfl, by simp; ring, by simp⟩
  · refine ⟨_, rfl, by simp, fun _ => ⟨(box _ (by linarith [(unit ((s + 1) * (1 / 2))).2]) (by linarith [(unit ((s + 1) * (1 / 2))).1])).1,
      (box _ (by linarith [(unit ((s + 1) * (1 / 2))).2]) (by linarith [(unit ((s + 1) * (1 / 2))).1])).2, by simp, by simp, by simp, ?_⟩⟩
    intro _ h0 h1; rw [same _ (by linarith) (by linarith)]; ring

open HexoDSP.FVaFilt in
/-- The names of the ladder modes. -/
def ladderName : LadderMode → String
  | .LP6 => "LP 6dB" | .LP12 => "LP 12dB" | .LP18 => "LP 18dB" | .LP24 => "LP 24dB"
  | .HP6 => "HP 6dB" | .HP12 => "HP 12dB" | .HP18 => "HP 18dB" | .HP24 => "HP 24dB"
  | .BP12 => "BP 12dB" | .BP24 => "BP 24dB" | .N12 => "N 12dB"

open HexoDSP.FVaFilt in
/-- The names of the modes of the state variable filter. -/
def svfName : SvfMode → String
  | .LP => "LP" | .HP => "HP" | .BP1 => "BP1" | .BP2 => "BP2" | .Notch => "Notch"

open HexoDSP.FVaFilt in
/-- **C135** Analog filter: the mode shown is the one set, and the filter shown is the one that is heard. -/
theorem fvafilt {X CS MS CV MV CL ML D U : Type} (E : Ext X CS MS CV MV CL ML D U) (n : Node CS MS CV MV CL ML D U) (s : Setting)
    (f : FVaFilt.Frame X) (x : X) (t u v : String) (h : Shown "fvafilt" "ftype" t s.ftype) (h1 : Shown "fvafilt" "smode" u s.smode)
    (h2 : Shown "fvafilt" "lmode" v s.lmode) :
    svfName (tuple s f).params.mode = u ∧ ladderName (tuple s f).params.ladder = v ∧
    (t = "Ladder" → (n.filt E (asI8 s.ftype) x).1 = (E.ladTick n.ladder.1 n.params n.ladder.2 x).1) ∧
    (t = "SVF" → (n.filt E (asI8 s.ftype) x).1 = (E.svfTick n.svf.1 n.params n.svf.2 x).1) ∧
    (t = "SallenKey" → (n.filt E (asI8 s.ftype) x).1 = (E.skTick n.sk.1 n.params n.sk.2 x).1) := by
  obtain ⟨k, hk, hk'⟩ := shown_get (p := ⟨"ftype", NodeId.fromStr "fvafilt", 5⟩) (l := ["Ladder", "SVF", "SallenKey"]) (o := "?") (lo := 0)
    (hi := 2) h (by decide +kernel) (by decide +kernel) rfl rfl rfl
  obtain ⟨i, hi, hi'⟩ := shown_get (p := ⟨"smode", NodeId.fromStr "fvafilt", 6⟩) (l := ["LP", "HP", "BP1", "BP2", "Notch"]) (o := "?") (lo := 0)
    (hi := 4) h1 (by decide +kernel) (by decide +kernel) rfl rfl rfl
  obtain ⟨j, hj, hj'⟩ := shown_get (p := ⟨"lmode", NodeId.fromStr "fvafilt", 7⟩) (l := ["LP 6dB", "LP 12dB", "LP 18dB", "LP 24dB", "HP 6dB", "HP 12dB",
    "HP 18dB", "HP 24dB", "BP 12dB", "BP 24dB", "N 12dB"]) (o := "?") (lo := 0) (hi := 10) h2 (by decide +kernel) (by decide +kernel) rfl rfl rfl
  refine ⟨?_, ?_, ?_⟩
  · simp only [Tuple.params, tuple, hi]
    have hi3 : i < 5 := by
      by_contra hc
      rw [List.getElem?_eq_none (by simp; omega)] at hi'; cases hi'
    interval_cases i <;> simp at hi' <;> subst hi' <;> rfl
  · simp only [Tuple.params, tuple, hj]
    have hj3 : j < 11 := by
      by_contra hc
      rw [List.getElem?_eq_none (by simp; omega)] at hj'; cases hj'
    interval_cases j <;> simp at hj' <;> subst hj' <;> rfl
  · rw [hk]
    refine ⟨?_, ?_, ?_⟩ <;> rintro rfl <;> rcases k with _ | _ | _ | k <;> simp at hk' <;> rfl

open HexoDSP.Sampl in
/-- **C135** Sample player: loop, declick and direction are on exactly if the display says so. -/
theorem sampl (interp : List ℚ → ℕ → ℚ → ℚ) (checked : Bool) (srate ms : ℚ) (k : Knobs) (l : List ℚ) (t u v : String)
    (h : Shown "sampl" "pmode" t k.pmode) (h1 : Shown "sampl" "dclick" u k.dclick) (h2 : Shown "sampl" "dir" v k.dir) :
    ((cfgOf interp checked srate ms k l).doLoop = true ↔ t = "Loop") ∧
    ((cfgOf interp checked srate ms k l).declick = true ↔ u = "On") ∧
    ((cfgOf interp checked srate ms k l).reverse = true ↔ v = "Reverse") := by
  obtain ⟨a, ha, ha'⟩ := shown_get (p := ⟨"pmode", NodeId.fromStr "sampl", 7⟩) (l := ["Loop", "OneShot"]) (o := "?") (lo := 0) (hi := 1) h
    (by decide +kernel) (by decide +kernel) rfl rfl rfl
  obtain ⟨b, hb, hb'⟩ := shown_get (p := ⟨"dclick", NodeId.fromStr "sampl", 8⟩) (l := ["Off", "On"]) (o := "?") (lo := 0) (hi := 1) h1
    (by decide +kernel) (by decide +kernel) rfl rfl rfl
  obtain ⟨c, hc, hc'⟩ := shown_get (p := ⟨"dir", NodeId.fromStr "sampl", 9⟩) (l := ["Forward", "Reverse"]) (o := "?") (lo := 0) (hi := 1) h2
    (by decide +kernel) (by decide +kernel) rfl rfl rfl
  simp only [cfgOf, ha, hb, hc]
  refine ⟨?_, ?_, ?_⟩
  · rcases a with _ | _ | a <;> simp at ha' <;> subst ha' <;> simp
  · rcases b with _ | _ | b <;> simp at hb' <;> subst hb' <;> simp
  · rcases c with _ | _ | c <;> simp at hc' <;> subst hc' <;> simp

open HexoDSP.ScopeNode in
/-- **C135** Scope: "Off" ignores triggers, "Intern" takes them from the first signal, "Extern" from the trigger input. -/
theorem scope (s : Settings) (f : ScopeNode.Frame) (t : String) (h : Shown "scope" "tsrc" t s.tsrc) :
    (s.disabled = true ↔ t = "Off") ∧ (t = "Intern" → s.trigInput f = f.sig 0) ∧ (t = "Extern" → s.trigInput f = f.trig) := by
  obtain ⟨k, hk, hk'⟩ := shown_get (p := ⟨"tsrc", NodeId.fromStr "scope", 12⟩) (l := ["Off", "Intern", "Extern"]) (o := "?") (lo := 0) (hi := 2) h
    (by decide +kernel) (by decide +kernel) rfl rfl rfl
  simp only [Settings.disabled, Settings.trigInput, hk]
  rcases k with _ | _ | _ | k <;> simp at hk' <;> subst hk' <;> simp

/-- A case: mode 1 of the noise is shown as "Unipolar". -/
example : Shown "noise" "mode" "Unipolar" 1 :=
  ⟨⟨"mode", NodeId.fromStr "noise", 2⟩, 0, 1, by decide +kernel, by decide +kernel, by decide, by decide,
    names_of (l := ["Bipolar", "Unipolar"]) (o := "?") rfl 1 (by decide)⟩

end HexoDSP.ShownModesProps
