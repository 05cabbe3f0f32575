import Verif.Lemmas.MidiGate
import Verif.Props.Midi
/-!
# The gate modes of the MIDI note input (C133)
-/

set_option linter.unusedSectionVars false

namespace HexoDSP.MidiGateProps
open HexoDSP.Midi HexoDSP.MidiSpec HexoDSP.MidiGate HexoDSP.MidiGateSpec HexoDSP.MidiGate.Lemmas

variable {V T G : Type} [Add V] [Sub V] [Div V] [NatCast V] [OfNat V 0] [OfNat V 1]

/-- **C133** Blocks of at least one frame never panic. -/
theorem never_panics (E : Ext V T G) (bs : List (Block V)) (hn : ∀ b ∈ bs, 0 < b.nframes) (ho : ∀ b ∈ bs, Ordered b.notes) :
    ∀ n : Node V T G, ∃ os leds n', Node.blocks E n bs = some (os, leds, n') ∧ os.length = (framesOf bs).length ∧ leds.length = bs.length := by
  induction bs with
  | nil => intro n; exact ⟨[], [], n, rfl, rfl, rfl⟩
  | cons b bs ih =>
    intro n
    have hl : (play E n (framesOf [b])).1.length = b.nframes := by rw [play_length]; simp [framesOf]
    have hne : (play E n (framesOf [b])).1 ≠ [] := by
      intro h; rw [h] at hl; have := hn b List.mem_cons_self; simp at hl; omega
    obtain ⟨os, leds, n', h, h1, h2⟩ := ih (fun b hb => hn b (List.mem_cons_of_mem _ hb))
      (fun b hb => ho b (List.mem_cons_of_mem _ hb)) (play E n (framesOf [b])).2
    refine ⟨(play E n (framesOf [b])).1 ++ os, ((play E n (framesOf [b])).1.getLast hne).gate :: leds, n', ?_, ?_, by simp [h2]⟩
    · simp only [Node.blocks, Node.process, block_play E b (ho b List.mem_cons_self), List.getLast?_eq_some_getLast hne,
        Option.map_some, Option.bind_some, h]
    · rw [framesOf_cons b bs, List.length_append, List.length_append, h1, play_length]

/-- **C133** After a block the LED shows the gate of its last frame. -/
theorem led_shows_gate (E : Ext V T G) (n : Node V T G) (b : Block V) (ho : Ordered b.notes) (os : List (Out V)) (led : V)
    (n' : Node V T G) (h : n.process E b = some (os, led, n')) :
    os.length = b.nframes ∧ ∃ o, os[b.nframes - 1]? = some o ∧ led = o.gate := by
  simp only [Node.process, block_play E b ho] at h
  obtain ⟨o, h1, h2⟩ := Option.map_eq_some_iff.1 h
  simp only [Prod.mk.injEq] at h2
  obtain ⟨rfl, rfl, -⟩ := h2
  have hl : (play E n (framesOf [b])).1.length = b.nframes := by rw [play_length]; simp [framesOf]
  refine ⟨hl, o, ?_, rfl⟩
  rw [← hl, ← List.getLast?_eq_getElem?, h1]

/-- **C133** Whatever the gate mode and the channel are and however they change: the outputs `vel` and `freq` are in each frame those
of the note played last (on the channel that was listened to when it was played). -/
theorem notes_any_mode (E : Ext V T G) (bs : List (Block V)) (ho : ∀ b ∈ bs, Ordered b.notes) (os : List (Out V)) (leds : List V)
    (n' : Node V T G) (h : Node.blocks E (Node.new E) bs = some (os, leds, n')) (f : Nat) (fr : Frame V)
    (hf : (framesOf bs)[f]? = some fr) :
    ∃ o, os[f]? = some o ∧
      ∀ k v, ((played ((framesOf bs).take (f + 1))).getLast?.getD (0, 0)) = (k, v) →
        o.vel = v ∧ o.freq = ((k : V) - ((69 : Nat) : V)) / ((120 : Nat) : V) + fr.det := by
  obtain ⟨rfl, -⟩ := blocks_play E bs ho _ _ _ _ h
  refine ⟨_, play_get E _ _ f fr hf, ?_⟩
  -- the note in the state is the last one played
  have hev : ∀ (chan : Nat) (es : List (Ev V)) (s : MidiP V) (l : List (Nat × V)),
      (s.curNote, s.curVel) = l.getLast?.getD (0, 0) →
      ((es.foldl (MidiP.event chan) s).curNote, (es.foldl (MidiP.event chan) s).curVel) =
        (l ++ es.filterMap fun e => match e with
          | .noteOn c n v => if c = chan then some (n, v) else none
          | _ => none).getLast?.getD (0, 0) := by
    intro chan es
    induction es with
    | nil => intro s l hl; simpa using hl
    | cons e es ih =>
      intro s l hl
      rw [List.foldl_cons]
      cases e with
      | noteOn c k v =>
        by_cases hc : c = chan
        · have := ih (MidiP.event chan s (.noteOn c k v)) (l ++ [(k, v)])
            (by simp [MidiP.event, hc])
          rw [this, List.filterMap_cons]
          simp [hc]
        · have e1 : MidiP.event chan s (.noteOn c k v) = s := by simp [MidiP.event, hc]
          rw [e1, ih s l hl, List.filterMap_cons]
          simp [hc]
      | noteOff c k =>
        rw [ih (MidiP.event chan s (.noteOff c k)) l (by
          rw [← hl]; simp only [MidiP.event]; split <;> [rfl; (split <;> rfl)]), List.filterMap_cons]
      | cc a b d => rw [List.filterMap_cons]; exact ih s l hl
  have hg : ∀ (n : Node V T G) (m : Int) (x : V), (n.gate E m x).2.base.curNote = n.base.curNote ∧ (n.gate E m x).2.base.curVel = n.base.curVel := by
    intro n m x
    unfold Node.gate
    split
    · exact ⟨rfl, rfl⟩
    · split
      · split <;> exact ⟨rfl, rfl⟩
      · exact ⟨rfl, rfl⟩
  have hs : ∀ (s : MidiP V), s.frameStart.curNote = s.curNote ∧ s.frameStart.curVel = s.curVel := by
    intro s
    unfold MidiP.frameStart
    split <;> [exact ⟨rfl, rfl⟩; (split <;> exact ⟨rfl, rfl⟩)]
  have hstep : ∀ (n : Node V T G) (x : Frame V) (l : List (Nat × V)), (n.base.curNote, n.base.curVel) = l.getLast?.getD (0, 0) →
      ((step E n x).2.base.curNote, (step E n x).2.base.curVel) = (l ++ played [x]).getLast?.getD (0, 0) := by
    intro n x l hl
    rw [(step_eq E n x).1, (hg _ _ _).1, (hg _ _ _).2, mid_base, MidiP.frame,
      hev x.chan x.es n.base.frameStart l (by rw [(hs _).1, (hs _).2]; exact hl)]
    simp only [played, List.flatMap_cons, List.flatMap_nil, List.append_nil]
    rfl
  have hplay : ∀ (F : List (Frame V)) (n : Node V T G) (l : List (Nat × V)), (n.base.curNote, n.base.curVel) = l.getLast?.getD (0, 0) →
      ((play E n F).2.base.curNote, (play E n F).2.base.curVel) = (l ++ played F).getLast?.getD (0, 0) := by
    intro F
    induction F with
    | nil => intro n l hl; simpa [play, played] using hl
    | cons x F ih =>
      intro n l hl
      have := ih (step E n x).2 (l ++ played [x]) (hstep n x l hl)
      simp only [play]
      rw [this]
      congr 2
      simp [played]
  intro k v hkv
  have := hplay ((framesOf bs).take (f + 1)) (Node.new E) [] rfl
  rw [List.nil_append, hkv, play_snoc E _ _ f fr hf] at this
  simp only [Prod.mk.injEq] at this
  constructor
  · exact this.2
  · rw [← this.1]; rfl

/-- **C133** In the mode "Trigger" the gate is the output of the trigger generator, which is triggered once for each note played on
the channel, in the frame of the note, before its output. Note offs have no effect. -/
theorem trigger_mode (E : Ext V T G) (bs : List (Block V)) (ho : ∀ b ∈ bs, Ordered b.notes) (os : List (Out V)) (leds : List V)
    (n' : Node V T G) (h : Node.blocks E (Node.new E) bs = some (os, leds, n')) (f : Nat) (fr : Frame V)
    (hf : (framesOf bs)[f]? = some fr) (hm : fr.gmode = 1) :
    ∃ o, os[f]? = some o ∧
      o.gate = (E.trigNext (times E.trig fr.ons (trigAfter E E.trigNew ((framesOf bs).take f)))).1 := by
  obtain ⟨rfl, -⟩ := blocks_play E bs ho _ _ _ _ h
  refine ⟨_, play_get E _ _ f fr hf, ?_⟩
  rw [(step_eq E _ fr).2, Node.gate, if_pos hm]
  show (E.trigNext (mid E _ fr).trigSig).1 = _
  rw [(mid_sig E _ fr).1, play_trig]
  rfl

/-- **C133** In the mode "MIDI" (as well as in every mode that does not exist) the node is that of C25. -/
theorem midi_mode (E : Ext V T G) (chan : Int) (bs : List (Block V)) (ho : ∀ b ∈ bs, Ordered b.notes)
    (hb : ∀ b ∈ bs, b.chan = chan ∧ b.gmode ≠ 1 ∧ b.gmode ≠ 2) (os : List (Out V)) (leds : List V)
    (n' : Node V T G) (h : Node.blocks E (Node.new E) bs = some (os, leds, n')) :
    os = (MidiP.blocks chan MidiP.new (bs.map fun b => ⟨b.nframes, b.notes, b.det⟩)).1.map
      fun o => ⟨o.freq, if o.gate then 1 else 0, o.vel⟩ := by
  obtain ⟨rfl, -⟩ := blocks_play E bs ho _ _ _ _ h
  rw [Midi.blocks_play _ _ (by simpa using ho)]
  have hfr : ∀ x ∈ framesOf bs, x.chan = (chan % 16).toNat ∧ x.gmode ≠ 1 ∧ x.gmode ≠ 2 := by
    intro x hx
    simp only [framesOf, List.mem_flatMap, List.mem_map] at hx
    obtain ⟨b, hb', i, -, rfl⟩ := hx
    obtain ⟨rfl, h2, h3⟩ := hb b hb'
    exact ⟨rfl, h2, h3⟩
  have hmap : ((bs.map fun b => (⟨b.nframes, b.notes, b.det⟩ : NoteBlock V)).flatMap
      fun b => (List.range b.nframes).map fun i => (at' b.notes i, b.det i)) = (framesOf bs).map fun x => (x.es, x.det) := by
    clear h ho hb hfr
    induction bs with
    | nil => rfl
    | cons b bs ih => rw [framesOf_cons, List.map_append, List.map_cons, List.flatMap_cons, ih]; simp [framesOf]
  rw [hmap]
  generalize framesOf bs = F at hfr
  have key : ∀ (F : List (Frame V)), (∀ x ∈ F, x.chan = (chan % 16).toNat ∧ x.gmode ≠ 1 ∧ x.gmode ≠ 2) →
      ∀ (n : Node V T G), (play E n F).1 = (MidiP.play (chan % 16).toNat n.base (F.map fun x => (x.es, x.det))).1.map
        fun o => ⟨o.freq, if o.gate then 1 else 0, o.vel⟩ := by
    intro F
    induction F with
    | nil => intro _ n; rfl
    | cons x F ih =>
      intro hF n
      obtain ⟨h1, h2, h3⟩ := hF x List.mem_cons_self
      have hmid : (step E n x).2 = mid E n x := by
        rw [(step_eq E n x).1]; simp [Node.gate, h2, h3]
      have hbase : (mid E n x).base = MidiP.frame (chan % 16).toNat n.base x.es := by rw [mid_base, h1]
      simp only [play, List.map_cons, MidiP.play]
      rw [ih (fun y hy => hF y (List.mem_cons_of_mem _ hy)), hmid, hbase]
      congr 1
      have hgate : (step E n x).1 = ⟨(((mid E n x).base.curNote : V) - ((69 : Nat) : V)) / ((120 : Nat) : V) + x.det,
          if (mid E n x).base.curGate > 0 then 1 else 0, (mid E n x).base.curVel⟩ := by
        unfold step Node.frame
        simp only [Node.gate, if_neg h2, if_neg h3]
        rfl
      rw [hgate, hbase]
      simp [MidiP.out]
  exact key F hfr (Node.new E)

/-- **C133** In the mode "Gate Len" the gate is the output of the gate generator, which is triggered once for each note, except in
frames (`cut`) where it is forced to zero and the generator stands still. Only frames with a note on are cut.

When notes are played in a frame without a release: it is cut if there are two or more of them. A single one in the
first frame is not cut. Behind a frame without releases it is cut exactly if the gate was up there (or was cut
there). Behind a frame that ends with the release of the last note played it is not cut: this is where the pause is
missing, see `pause_missed`. A frame that ends with the release of the last note played is not cut. All other
cases are in `gate_len_exact`. Missing is the pause that the property promises, because it is not always there. -/
theorem gate_len_mode_partial (E : Ext V T G) (bs : List (Block V)) (ho : ∀ b ∈ bs, Ordered b.notes) (os : List (Out V)) (leds : List V)
    (n' : Node V T G) (h : Node.blocks E (Node.new E) bs = some (os, leds, n')) :
    ∃ cut : List Bool, cut.length = (framesOf bs).length ∧
      ∀ f fr, (framesOf bs)[f]? = some fr → fr.gmode = 2 → ∃ o c, os[f]? = some o ∧ cut[f]? = some c ∧
        (c = true → o.gate = 0 ∧ 0 < fr.ons) ∧
        (c = false → o.gate = (E.gateNext (times E.gate fr.ons
          (gateAfter E E.gateNew ((framesOf bs).take f) (cut.take f))) fr.len).1) ∧
        (f = 0 → fr.NoOff → 0 < fr.ons → (c = true ↔ 2 ≤ fr.ons)) ∧
        (∀ f' p, f = f' + 1 → (framesOf bs)[f']? = some p → p.gmode = 2 → p.NoOff → fr.NoOff → 0 < fr.ons →
          ∃ po pc, os[f']? = some po ∧ cut[f']? = some pc ∧
            (c = true ↔ 2 ≤ fr.ons ∨ pc = true ∨ 0 < E.ceilU8 po.gate)) ∧
        (∀ f' p, f = f' + 1 → (framesOf bs)[f']? = some p → p.EndsWithOff (lastKey ((framesOf bs).take f)) →
          fr.NoOff → 0 < fr.ons → (c = true ↔ 2 ≤ fr.ons)) ∧
        (fr.EndsWithOff (lastKey ((framesOf bs).take (f + 1))) → c = false) := by
  obtain ⟨rfl, -⟩ := blocks_play E bs ho _ _ _ _ h
  refine ⟨cuts E (Node.new E) (framesOf bs), cuts_length _ _ _, ?_⟩
  intro f fr hf hm
  have hkey : ∀ f fr, (framesOf bs)[f]? = some fr →
      (mid E (play E (Node.new E) ((framesOf bs).take f)).2 fr).base.curNote = lastKey ((framesOf bs).take (f + 1)) := by
    intro f fr hf
    rw [key_mid E _ fr _ (key_play E ((framesOf bs).take f) (Node.new E) [] rfl)]
    obtain ⟨hl, rfl⟩ := List.getElem?_eq_some_iff.1 hf
    have e : played ((framesOf bs).take (f + 1)) = played ((framesOf bs).take f) ++ played [(framesOf bs)[f]] := by
      rw [← List.take_append_getElem hl, played, List.flatMap_append]; rfl
    rw [lastKey, e, List.nil_append]
    rfl
  refine ⟨_, _, play_get E _ _ f fr hf, cuts_get E _ _ f fr hf, ?_, ?_, ?_, ?_, ?_, ?_⟩
  · intro hc
    unfold isCut at hc
    simp only [decide_eq_true_eq] at hc
    refine ⟨?_, ?_⟩
    · rw [(step_eq E _ fr).2]; simp [Node.gate, hc.1, hc.2]
    · apply Nat.pos_of_ne_zero
      intro h0
      have := nextGate_of_no_on fr.chan fr.es h0 (play E (Node.new E) ((framesOf bs).take f)).2.base.frameStart
        (by rw [frameStart_next]; decide)
      have h2 := hc.2
      rw [mid_base, MidiP.frame] at h2
      omega
  · intro hc
    unfold isCut at hc
    simp only [decide_eq_false_iff_not, hm, true_and] at hc
    rw [(step_eq E _ fr).2, cuts_take]
    have : (Node.gate E fr.gmode fr.len (mid E (play E (Node.new E) ((framesOf bs).take f)).2 fr)).1 =
        (E.gateNext (mid E (play E (Node.new E) ((framesOf bs).take f)).2 fr).gateSig fr.len).1 := by
      simp [Node.gate, hm, hc]
    rw [this, (mid_sig E _ fr).2, play_gate]
    rfl
  · rintro rfl hno hp
    rw [ons_cut E _ fr hm hno hp]
    simp [play, Node.new, MidiP.new, MidiP.frameStart]
  · rintro f' p rfl hp hpm hpo hno hons
    refine ⟨_, _, play_get E _ _ f' p hp, cuts_get E _ _ f' p hp, ?_⟩
    rw [ons_cut E _ fr hm hno hons, play_snoc E _ _ f' p hp, level_after E _ p hpm hpo]
  · rintro f' p rfl hp hpe hno hons
    rw [ons_cut E _ fr hm hno hons, play_snoc E _ _ f' p hp,
      (released_down E _ p (released_next E _ p _ hpe (hkey f' p hp))).2]
    simp
  · intro he
    exact (released_down E _ fr (released_next E _ fr _ he (hkey f fr hf))).1

/-- **C133** The mode "Gate Len" with any events in any frames, and any changes of mode and channel. `up` says for each frame if the
gate counts as up at its beginning. A frame is cut (the gate is forced to zero and the generator stands still) exactly
if a note finds the gate up and the last note is not released after it in this frame (`Restarted`). Behind such a frame
the gate counts as up; it counts as down behind a frame that ends with a release of the last note (`Released`: no note
finds the gate up after it). Behind all other frames it counts as up if the output is up, in the other modes if the
notes of the frame left it up. In the mode "MIDI" this is also the output. -/
theorem gate_len_exact (E : Ext V T G) (bs : List (Block V)) (ho : ∀ b ∈ bs, Ordered b.notes) (os : List (Out V)) (leds : List V)
    (n' : Node V T G) (h : Node.blocks E (Node.new E) bs = some (os, leds, n')) :
    ∃ cut up : List Bool, cut.length = (framesOf bs).length ∧ up.length = (framesOf bs).length ∧
      ∀ f fr, (framesOf bs)[f]? = some fr → ∃ o c u, os[f]? = some o ∧ cut[f]? = some c ∧ up[f]? = some u ∧
        (fr.gmode = 2 →
          (c = true ↔ Restarted fr.chan u (lastKey ((framesOf bs).take f)) fr.es) ∧
          o.gate = if c then 0 else (E.gateNext (times E.gate fr.ons
            (gateAfter E E.gateNew ((framesOf bs).take f) (cut.take f))) fr.len).1) ∧
        (fr.gmode ≠ 1 → fr.gmode ≠ 2 → o.gate = if upAfter fr.chan u fr.es then 1 else 0) ∧
        (f = 0 → u = false) ∧
        (∀ u', up[f + 1]? = some u' → (u' = true ↔
          Restarted fr.chan u (lastKey ((framesOf bs).take f)) fr.es ∨
          (¬ Released fr.chan u (lastKey ((framesOf bs).take f)) fr.es ∧
            if fr.gmode = 2 then 0 < E.ceilU8 o.gate else upAfter fr.chan u fr.es = true))) := by
  obtain ⟨rfl, -⟩ := blocks_play E bs ho _ _ _ _ h
  refine ⟨cuts E (Node.new E) (framesOf bs),
    (List.range (framesOf bs).length).map fun f => upOf (play E (Node.new E) ((framesOf bs).take f)).2,
    cuts_length _ _ _, by simp, ?_⟩
  intro f fr hf
  have hl : f < (framesOf bs).length := (List.getElem?_eq_some_iff.1 hf).1
  have hkey : (play E (Node.new E) ((framesOf bs).take f)).2.base.curNote = lastKey ((framesOf bs).take f) := by
    rw [key_play E ((framesOf bs).take f) (Node.new E) [] rfl, List.nil_append]; rfl
  refine ⟨_, _, upOf (play E (Node.new E) ((framesOf bs).take f)).2, play_get E _ _ f fr hf, cuts_get E _ _ f fr hf,
    by simp [hl], ?_, ?_, ?_, ?_⟩
  · intro hm
    refine ⟨by rw [cut_exact E _ fr hm, hkey], ?_⟩
    have hg := (mid_sig E (play E (Node.new E) ((framesOf bs).take f)).2 fr).2
    rw [play_gate, ← cuts_take] at hg
    rw [(step_eq E _ fr).2]
    unfold isCut Node.gate
    by_cases hc : (mid E (play E (Node.new E) ((framesOf bs).take f)).2 fr).base.nextGate > 0
    · simp [hm, hc]
    · simp only [hm, hc]
      simp only [and_false, decide_false, if_false, if_true, Bool.false_eq_true]
      rw [hg]
      rfl
  · intro h1 h2
    have := (events_exact fr.chan fr.es (play E (Node.new E) ((framesOf bs).take f)).2.base.frameStart (frameStart_next _)).1
    rw [(step_eq E _ fr).2, Node.gate, if_neg h1, if_neg h2, mid_base, MidiP.frame]
    simp only [gt_iff_lt, this]
    rfl
  · rintro rfl
    simp [play, upOf, Node.new, MidiP.new, MidiP.frameStart]
  · intro u' hu'
    have : u' = upOf (play E (Node.new E) ((framesOf bs).take (f + 1))).2 := by
      simp only [List.getElem?_map, Option.map_eq_some_iff] at hu'
      obtain ⟨i, hi, rfl⟩ := hu'
      obtain ⟨_, hi'⟩ := List.getElem?_eq_some_iff.1 hi
      rw [List.getElem_range] at hi'
      rw [hi']
    rw [this, play_snoc E _ _ f fr hf, up_exact, hkey]

/-! ## An example of the generators -/

/-- Generators that count samples: a trigger lasts two samples, a gate as many as the length says. -/
def exExt : Ext Int Nat (Nat × Bool) where
  trigNew := 0
  trig := fun _ => 2
  trigNext := fun n => if 0 < n then (1, n - 1) else (0, 0)
  gateNew := (0, false)
  gate := fun _ => (0, true)
  gateNext := fun g len => if g.2 ∧ (g.1 : Int) < len then (1, (g.1 + 1, true)) else (0, (0, false))
  ceilU8 := fun v => v.toNat

/-- The gates of a run with the example generators. -/
def gates (bs : List (Block Int)) : Option (List Int) :=
  (Node.blocks exExt (Node.new exExt) bs).map fun r => r.1.map fun o => o.gate

/-- A note, played again four samples later while the gate is up: the pause is heard. -/
def exRestart : List (Block Int) :=
  [⟨0, 2, 8, [⟨1, .noteOn 0 60 1⟩, ⟨5, .noteOn 0 62 1⟩], fun _ => 0, fun _ => 6⟩]

example : gates exRestart = some [0, 1, 1, 1, 1, 0, 1, 1] ∧ (∀ b ∈ exRestart, Ordered b.notes) ∧
    (∀ b ∈ exRestart, 0 < b.nframes) := by
  refine ⟨by decide +kernel, ?_, by decide⟩
  simp [exRestart, Ordered]

example : ∃ fr p : Frame Int, (framesOf exRestart)[5]? = some fr ∧ (framesOf exRestart)[4]? = some p ∧ p.NoOff ∧ fr.NoOff ∧
    fr.ons = 1 ∧ fr.gmode = 2 ∧ p.gmode = 2 :=
  ⟨⟨0, 2, [.noteOn 0 62 1], 0, 6⟩, ⟨0, 2, [], 0, 6⟩, rfl, rfl, fun n h => by simp at h, fun n h => by simp at h, rfl, rfl, rfl⟩

/-- A chord: all of its frame is cut, also if the gate was down. -/
def exChord : List (Block Int) :=
  [⟨0, 2, 6, [⟨1, .noteOn 0 60 1⟩, ⟨1, .noteOn 0 64 1⟩, ⟨1, .noteOn 0 67 1⟩, ⟨3, .noteOff 0 67⟩, ⟨4, .noteOn 0 62 1⟩], fun _ => 0, fun _ => 6⟩]

example : gates exChord = some [0, 0, 1, 1, 1, 1] ∧ (∀ b ∈ exChord, Ordered b.notes) ∧
    ∃ fr p c : Frame Int, (framesOf exChord)[1]? = some c ∧ c.NoOff ∧ c.ons = 3 ∧
      (framesOf exChord)[4]? = some fr ∧ (framesOf exChord)[3]? = some p ∧
      p.EndsWithOff (lastKey ((framesOf exChord).take 4)) ∧ fr.NoOff ∧ fr.ons = 1 := by
  refine ⟨by decide +kernel, by simp [exChord, Ordered], ⟨0, 2, [.noteOn 0 62 1], 0, 6⟩, ⟨0, 2, [.noteOff 0 67], 0, 6⟩,
    ⟨0, 2, [.noteOn 0 60 1, .noteOn 0 64 1, .noteOn 0 67 1], 0, 6⟩, rfl, ?_, rfl, rfl, rfl, ⟨[], rfl⟩, ?_, rfl⟩ <;>
    intro n h <;> simp at h

/-- A frame with several events: the note is released and played again, and again released. -/
example : gates [⟨0, 2, 7, [⟨1, .noteOn 0 60 1⟩, ⟨3, .noteOff 0 60⟩, ⟨3, .noteOn 0 62 1⟩, ⟨5, .noteOn 0 64 1⟩, ⟨5, .noteOff 0 64⟩],
    fun _ => 0, fun _ => 6⟩] = some [0, 1, 1, 0, 1, 1, 1] ∧
    Restarted 0 true 60 ([.noteOff 0 60, .noteOn 0 62 1] : List (Ev Int)) ∧
    Released 0 true 62 ([.noteOn 0 64 1, .noteOff 0 64] : List (Ev Int)) := by
  refine ⟨by decide +kernel, ⟨1, ⟨⟨62, 1, rfl⟩, rfl⟩, fun j hj h => ?_⟩, ⟨1, rfl, fun j hj h => ?_⟩⟩
  · have := release_lt h; simp at this; omega
  · have := restart_lt h; simp at this; omega

/-- **C133** (negation) The help says that the gate restarts after a short pause when a new note is played. If the old note is released
in the frame directly before the new one there is no pause: the gate stays up, and what is driven by it is not
started again. One frame later or earlier the pause is there. -/
theorem pause_missed :
    gates [⟨0, 2, 8, [⟨1, .noteOn 0 60 1⟩, ⟨4, .noteOff 0 60⟩, ⟨5, .noteOn 0 62 1⟩], fun _ => 0, fun _ => 6⟩] = some [0, 1, 1, 1, 1, 1, 1, 1] ∧
    gates [⟨0, 2, 8, [⟨1, .noteOn 0 60 1⟩, ⟨3, .noteOff 0 60⟩, ⟨5, .noteOn 0 62 1⟩], fun _ => 0, fun _ => 6⟩] = some [0, 1, 1, 1, 1, 0, 1, 1] ∧
    gates [⟨0, 2, 8, [⟨1, .noteOn 0 60 1⟩, ⟨5, .noteOff 0 60⟩, ⟨5, .noteOn 0 62 1⟩], fun _ => 0, fun _ => 6⟩] = some [0, 1, 1, 1, 1, 0, 1, 1] := by
  decide +kernel

/-- **C133** (negation) A trigger is not always sent when its note is played: the notes played in another mode leave a trigger behind
which is sent, without any note, when the mode is changed to "Trigger". This holds for every generator that
sends a one after it is triggered. -/
theorem late_trigger (E : Ext V T G) (hE : (E.trigNext (E.trig E.trigNew)).1 = 1) (vel : V) (mode : Int) (hmode : mode ≠ 1) :
    ∃ os leds n', Node.blocks E (Node.new E)
        [⟨0, mode, 64, [⟨0, .noteOn 0 60 vel⟩], fun _ => 0, fun _ => 0⟩, ⟨0, 1, 64, [], fun _ => 0, fun _ => 0⟩] = some (os, leds, n') ∧
      (∃ o, os[64]? = some o ∧ o.gate = 1) := by
  have ho : ∀ b ∈ ([⟨0, mode, 64, [⟨0, .noteOn 0 60 vel⟩], fun _ => 0, fun _ => 0⟩, ⟨0, 1, 64, [], fun _ => 0, fun _ => 0⟩] : List (Block V)),
      Ordered b.notes := by
    intro b hb; simp only [List.mem_cons, List.not_mem_nil, or_false] at hb
    rcases hb with rfl | rfl <;> simp [Ordered]
  obtain ⟨os, leds, n', h, -⟩ := never_panics E _ (by simp) ho (Node.new E)
  refine ⟨os, leds, n', h, ?_⟩
  obtain ⟨o, h1, h2⟩ := trigger_mode E _ ho os leds n' h 64 ⟨0, 1, [], 0, 0⟩ rfl rfl
  refine ⟨o, h1, ?_⟩
  rw [h2]
  have key : ∀ (k : Nat) (t : T), trigAfter E t (List.replicate k ⟨0, mode, [], 0, 0⟩) = t := by
    intro k
    induction k with
    | zero => intro t; rfl
    | succ k ih => intro t; rw [List.replicate_succ, trigAfter, if_neg hmode]; exact ih t
  have e : ((framesOf ([⟨0, mode, 64, [⟨0, .noteOn 0 60 vel⟩], fun _ => 0, fun _ => 0⟩, ⟨0, 1, 64, [], fun _ => 0, fun _ => 0⟩] : List (Block V))).take 64) =
      ⟨0, mode, [.noteOn 0 60 vel], 0, 0⟩ :: List.replicate 63 ⟨0, mode, [], 0, 0⟩ := rfl
  rw [e, trigAfter, if_neg hmode, key]
  exact hE

/-- **C25** (negation) The channel must stay the same: if another channel is selected while a note is held, its note off is not
heard and the gate stays up, for any number of blocks, until a note comes on the new channel. -/
theorem channel_change_hangs (E : Ext V T G) (vel : V) (bs : List (Block V)) (ho : ∀ b ∈ bs, Ordered b.notes)
    (hb : ∀ b ∈ bs, b.gmode = 0 ∧ b.chan = 1 ∧ ∀ e ∈ b.notes, e.kind = .noteOff 0 60) (os : List (Out V)) (leds : List V)
    (n' : Node V T G)
    (h : Node.blocks E (Node.new E) (⟨0, 0, 64, [⟨0, .noteOn 0 60 vel⟩], fun _ => 0, fun _ => 0⟩ :: bs) = some (os, leds, n')) :
    ∀ o ∈ os, o.gate = 1 := by
  obtain ⟨rfl, -⟩ := blocks_play E _ (by
    intro b hb'
    rcases List.mem_cons.1 hb' with rfl | hb'
    · simp [Ordered]
    · exact ho b hb') _ _ _ _ h
  have hfr : ∀ x ∈ framesOf bs, x.gmode = 0 ∧ x.es.filter (mine x.chan) = [] := by
    intro x hx
    simp only [framesOf, List.mem_flatMap, List.mem_map] at hx
    obtain ⟨b, hb', i, -, rfl⟩ := hx
    obtain ⟨h1, h2, h3⟩ := hb b hb'
    refine ⟨h1, ?_⟩
    rw [List.filter_eq_nil_iff]
    intro e he
    simp only [at', List.mem_map, List.mem_filter] at he
    obtain ⟨y, ⟨hy, -⟩, rfl⟩ := he
    rw [h3 y hy, h2]
    show ¬ mine (1 % 16 : Int).toNat (Ev.noteOff 0 60 : Ev V) = true
    simp [mine]
  have key : ∀ (F : List (Frame V)), (∀ x ∈ F, x.gmode = 0 ∧ x.es.filter (mine x.chan) = []) → ∀ (n : Node V T G),
      n.base.curGate = 1 → n.base.nextGate = 0 → ∀ o ∈ (play E n F).1, o.gate = 1 := by
    intro F
    induction F with
    | nil => intro _ n _ _ o ho; simp [play] at ho
    | cons x F ih =>
      intro hF n h1 h2 o ho'
      obtain ⟨hm, hx⟩ := hF x List.mem_cons_self
      have hbase : (mid E n x).base.curGate = 1 ∧ (mid E n x).base.nextGate = 0 := by
        rw [mid_base, MidiP.frame, fold_mine, hx]
        simp [MidiP.frameStart, h1, h2]
      simp only [play, List.mem_cons] at ho'
      rcases ho' with rfl | ho'
      · rw [(step_eq E n x).2]
        simp [Node.gate, hm, hbase.1]
      · refine ih (fun y hy => hF y (List.mem_cons_of_mem _ hy)) _ ?_ ?_ o ho'
        · rw [(step_eq E n x).1]; simp [Node.gate, hm, hbase.1]
        · rw [(step_eq E n x).1]; simp [Node.gate, hm, hbase.2]
  have e : framesOf (⟨0, 0, 64, [⟨0, .noteOn 0 60 vel⟩], fun _ => 0, fun _ => 0⟩ :: bs) =
      ⟨0, 0, [.noteOn 0 60 vel], 0, 0⟩ :: (List.replicate 63 ⟨0, 0, [], 0, 0⟩ ++ framesOf bs) := by
    rw [framesOf_cons]; rfl
  rw [e]
  intro o ho'
  simp only [play, List.mem_cons] at ho'
  rcases ho' with rfl | ho'
  · simp [step, Node.frame, Node.event, Node.gate, Node.new, MidiP.new, MidiP.frameStart]
  · refine key _ ?_ _ ?_ ?_ o ho'
    · intro x hx
      rcases List.mem_append.1 hx with hx | hx
      · rw [List.eq_of_mem_replicate hx]; exact ⟨rfl, rfl⟩
      · exact hfr x hx
    · simp [step, Node.frame, Node.event, Node.gate, Node.new, MidiP.new, MidiP.frameStart]
    · simp [step, Node.frame, Node.event, Node.gate, Node.new, MidiP.new, MidiP.frameStart]

example : gates [⟨0, 0, 2, [⟨0, .noteOn 0 60 1⟩], fun _ => 0, fun _ => 0⟩, ⟨1, 0, 3, [⟨0, .noteOff 0 60⟩], fun _ => 0, fun _ => 0⟩,
    ⟨0, 0, 2, [], fun _ => 0, fun _ => 0⟩] = some [1, 1, 1, 1, 1, 1, 1] := by decide +kernel

example : (exExt.trigNext (exExt.trig exExt.trigNew)).1 = 1 ∧
    gates [⟨0, 0, 3, [⟨0, .noteOn 0 60 1⟩], fun _ => 0, fun _ => 0⟩, ⟨0, 1, 4, [], fun _ => 0, fun _ => 0⟩] = some [1, 1, 1, 1, 1, 0, 0] ∧
    gates [⟨0, 1, 5, [⟨1, .noteOn 0 60 1⟩, ⟨2, .noteOff 0 60⟩, ⟨3, .noteOn 1 60 1⟩], fun _ => 0, fun _ => 0⟩] = some [0, 1, 1, 0, 0] := by
  decide +kernel

end HexoDSP.MidiGateProps
