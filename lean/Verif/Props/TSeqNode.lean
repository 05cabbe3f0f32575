import Verif.Lemmas.TSeqNode
/-!
# The tracker sequencer node (C87)
-/

set_option linter.unusedSectionVars false

namespace HexoDSP.TSeqProps
open HexoDSP.Tracker HexoDSP.TrackerSpec HexoDSP.GateSpec HexoDSP.TSeqNode HexoDSP.TSeqSpec HexoDSP.TSeqLemmas

variable {C T R : Type}

/-- **C87** For every history of edits, updates, blocks and creations of the node in which the queue of the tracker has room: once edits have
stopped, six updates are sent and 64 or more blocks have passed, every block plays the shown pattern: each of the six pairs of outputs is heard as
its column is shown, in every frame, at the phase of that frame. Columns that are not changed after the last change of the number of rows and
the last re-creation of the node are left out. -/
theorem pattern_heard_partial (e : Ext C T R) (he : GoodClock e) (checked : Bool) (n0 : Node C T R) (evs : List (Ev R)) (w : World) (n : Node C T R)
    (hr : run e checked (World.new, n0) evs = some (w, n)) (hl : okLoads (calls evs)) (hroom : Roomy checked (calls evs))
    (hb : w.backend.isSome = true) (hq : w.queue.length ≤ 58) (hrows : w.pat.rows ≠ 0)
    (blocks : List (Int × List (ℚ × ℚ))) (hlen : 64 ≤ blocks.length) (hne : ∀ b ∈ blocks, b.2 ≠ []) :
    ∃ w' n', run e checked (w, n) (List.replicate 6 (.op .send) ++ blocks.map (fun b => .block b.1 b.2)) = some (w', n') ∧
      ∀ (cmode : Int) (frames : List (ℚ × ℚ)), frames ≠ [] → ∃ o n'', process e w' n' cmode frames = some (o, w', n'') ∧
        ∀ c, c < 6 → recent true c (calls evs).reverse = true → ∃ trk gat, o.trk c = some trk ∧ o.gat c = some gat ∧
          HeardBlock (w.pat.colTypes c) w.pat.rows (fun r => w.pat.data r c) (phases e cmode w.pat.rows n'.clock n'.trig frames).1 trk gat := by
  have hw := run_world evs _ _ hr
  have hsm : Small w := small_run _ _ _ small_new hl hw
  obtain ⟨w', bk, h1, h2, h3, h4, h5, h6, h7⟩ :=
    TrackerProps.flush_all (b := true) (calls evs) w hw hl (fun h => by cases h) hroom hb hq blocks.length hlen
  rw [TrackerProps.run_append] at h1
  cases hs : w.run checked (List.replicate 6 .send) with
  | none => rw [hs] at h1; cases h1
  | some w1 =>
    rw [hs, Option.bind_some] at h1
    have hsm1 : Small w1 := small_run _ _ _ hsm (fun repr h => by simp at h) hs
    have hsm' : Small w' := small_run _ _ _ hsm1 (fun repr h => by simp at h) h1
    obtain ⟨n', hn⟩ := run_blocks (e := e) blocks w1 w' n hsm1 hne h1
    have hops : run e checked (w, n) (List.replicate 6 (.op .send)) = some (w1, n) := by
      have := run_ops (e := e) _ w w1 n hs
      rwa [List.map_replicate] at this
    refine ⟨w', n', by rw [TSeqLemmas.run_append, hops, Option.bind_some]; exact hn, ?_⟩
    intro cmode frames hf
    have hpoll : w'.checkUpdates = some (false, w') := by unfold World.checkUpdates; rw [h2, h3]
    obtain ⟨o, n'', p1, p2⟩ := process_spec e hsm' n' cmode hf hpoll h2
    refine ⟨o, n'', p1, ?_⟩
    intro c hc hrec
    obtain ⟨a1, a2, a3⟩ := h7 c hc hrec
    obtain ⟨m0, buf0, out, m1, q1, q2, q3⟩ := p2 c hc
    have hrw := a1 rfl
    have hmax : max bk.seq.rows 1 = w.pat.rows := by rw [hrw]; omega
    rw [hmax] at q1
    have hpos : (0 : ℚ) < (w.pat.rows : ℚ) := by exact_mod_cast Nat.pos_of_ne_zero hrows
    exact ⟨_, _, q2, q3, playCol_heard hc hrw (Nat.pos_of_ne_zero hrows) hsm.pat a2 (a3 hrows (Or.inl rfl))
      (phases_unit e he cmode hpos frames _ _) q1⟩

/-- **C87** In every history a block of at least one frame is processed, whatever the inputs and the mode are. -/
theorem block_works (e : Ext C T R) (checked : Bool) (n0 : Node C T R) (evs : List (Ev R)) (w : World) (n : Node C T R)
    (hr : run e checked (World.new, n0) evs = some (w, n)) (hl : okLoads (calls evs)) (cmode : Int) (frames : List (ℚ × ℚ)) (hf : frames ≠ []) :
    (process e w n cmode frames).isSome = true := by
  obtain ⟨o, w1, n', f, h, _⟩ := process_total e (small_run _ _ _ small_new hl (run_world evs _ _ hr)) n cmode hf
  rw [h]; rfl

/-- **C87** In the phase mode the phase is the part after the point of the clock input without its sign. -/
theorem phase_mode (e : Ext C T R) (cmode : Int) (h0 : cmode ≠ 0) (h1 : cmode ≠ 1) (plen : ℚ) : ∀ (frames : List (ℚ × ℚ)) (c : C) (t : T),
    (phases e cmode plen c t frames).1 = frames.map (fun f => |f.1| - ((⌊|f.1|⌋ : Int) : ℚ))
  | [], c, t => rfl
  | (x, g) :: rest, c, t => by
    simp only [phases, List.map_cons, phase_mode e cmode h0 h1 plen rest]
    congr 1
    unfold phaseOf fract
    rw [if_neg h0, if_neg h1, if_pos (abs_nonneg x)]

theorem clock_modes_aux (e : Ext C T R) (cmode : Int) (plen limit : ℚ) (scale : ℚ → ℚ)
    (hp : ∀ c x, phaseOf e cmode plen c x = (scale (e.clockNext c limit x).1, (e.clockNext c limit x).2)) :
    ∀ (frames : List (ℚ × ℚ)) (c : C) (t : T) (i : Nat) (f : ℚ × ℚ), frames[i]? = some f →
      (phases e cmode plen c t frames).1[i]? = some (scale (clockAt e limit (c, t) (frames.take i) f))
  | [], c, t, i, f, h => by simp at h
  | (x, g) :: rest, c, t, i, f, h => by
    cases i with
    | zero =>
      simp only [List.getElem?_cons_zero, Option.some.injEq] at h
      subst h
      simp only [phases, List.getElem?_cons_zero, List.take_zero, hp]
      rfl
    | succ i =>
      simp only [List.getElem?_cons_succ] at h
      simp only [phases, List.getElem?_cons_succ, List.take_succ_cons, hp]
      rw [clock_modes_aux e cmode plen limit scale hp rest _ _ i f h]
      rfl

/-- **C87** In the mode for one trigger per row the clock runs through the rows; a trigger at the sync input restarts it before its frame. -/
theorem row_mode (e : Ext C T R) (plen : ℚ) (frames : List (ℚ × ℚ)) (c : C) (t : T) (i : Nat) (f : ℚ × ℚ) (h : frames[i]? = some f) :
    (phases e 0 plen c t frames).1[i]? = some (clockAt e plen (c, t) (frames.take i) f / plen) :=
  clock_modes_aux e 0 plen plen (fun v => v / plen) (fun c x => by unfold phaseOf; rw [if_pos rfl]) frames c t i f h

/-- **C87** In the mode for one trigger per pattern the clock gives the phase. -/
theorem pattern_mode (e : Ext C T R) (plen : ℚ) (frames : List (ℚ × ℚ)) (c : C) (t : T) (i : Nat) (f : ℚ × ℚ) (h : frames[i]? = some f) :
    (phases e 1 plen c t frames).1[i]? = some (clockAt e 1 (c, t) (frames.take i) f) :=
  clock_modes_aux e 1 plen 1 (fun v => v) (fun c x => by unfold phaseOf; rw [if_neg (by decide), if_pos rfl]) frames c t i f h

/-- **C87** In the row mode row `k` is heard when the clock has gone through `k` rows and at least 0.00001 of the next. -/
theorem row_of_clock {rows k : Nat} (hk : k < rows) {v : ℚ} (h1 : (k : ℚ) + 1 / 100000 ≤ v) (h2 : v < (k : ℚ) + 1) :
    ∃ x, At rows (v / rows) k x := by
  have hr : (0 : ℚ) < rows := by exact_mod_cast (by omega : 0 < rows)
  have hk' : (k : ℚ) + 1 ≤ rows := by exact_mod_cast hk
  have hk0 : (0 : ℚ) ≤ k := Nat.cast_nonneg k
  have e1 : v / rows * ((rows : ℚ) - 1 / 100000) = v - v / rows * (1 / 100000) := by field_simp
  have h3 : v / rows ≤ 1 := by rw [div_le_one hr]; linarith
  have h4 : 0 ≤ v / rows := div_nonneg (by linarith) hr.le
  refine ⟨v / rows * ((rows : ℚ) - 1 / 100000) - k, hk, by ring, ?_, ?_⟩ <;> rw [e1] <;> linarith

/-- **C87** (negation) At the very phase where row `k` begins the row before it is still heard. -/
theorem row_begins_late {rows k : Nat} (h0 : 0 < k) (hk : k < rows) : ∃ x, At rows ((k : ℚ) / rows) (k - 1) x := by
  obtain ⟨j, rfl⟩ : ∃ j, k = j + 1 := ⟨k - 1, by omega⟩
  have hr : (0 : ℚ) < rows := by exact_mod_cast (by omega : 0 < rows)
  have hk' : ((j + 1 : Nat) : ℚ) < rows := by exact_mod_cast hk
  have hj : (0 : ℚ) < ((j + 1 : Nat) : ℚ) := by exact_mod_cast h0
  have e1 : ((j + 1 : Nat) : ℚ) / rows * ((rows : ℚ) - 1 / 100000) = ((j + 1 : Nat) : ℚ) - ((j + 1 : Nat) : ℚ) / rows * (1 / 100000) := by
    field_simp
  have h3 : ((j + 1 : Nat) : ℚ) / rows < 1 := by rw [div_lt_one hr]; exact hk'
  have h4 : 0 < ((j + 1 : Nat) : ℚ) / rows := div_pos hj hr
  have ej : ((j + 1 : Nat) : ℚ) = (j : ℚ) + 1 := by push_cast; ring
  refine ⟨((j + 1 : Nat) : ℚ) / rows * ((rows : ℚ) - 1 / 100000) - j, by omega, ?_, ?_, ?_⟩
  · rw [Nat.add_sub_cancel]; ring
  · rw [e1]; linarith
  · rw [e1]; linarith

/-- **C87** (negation) A block without frames panics as soon as the node has a tracker. -/
theorem empty_block_panics (e : Ext C T R) (w : World) (n : Node C T R) (hb : w.backend.isSome = true) (cmode : Int) :
    process e w n cmode [] = none := by
  cases hp : process e w n cmode [] with
  | none => rfl
  | some r =>
    exfalso
    unfold process at hp
    cases hb0 : w.backend with
    | none => rw [hb0] at hb; cases hb
    | some b =>
      simp only [hb0] at hp
      split at hp
      · cases hp
      · split at hp
        · cases hp
        · split at hp
          · cases hp
          · next o n' _ => simp [phases] at hp

/-- **C87** The display shows the value of the first track and the phase of the last frame. -/
theorem display (e : Ext C T R) (w w' : World) (n n' : Node C T R) (cmode : Int) (frames : List (ℚ × ℚ)) (o : Outs) (hb : w.backend.isSome = true)
    (h : process e w n cmode frames = some (o, w', n')) :
    ∃ trk bk a p, o.trk 0 = some trk ∧ w'.backend = some bk ∧ trk.getLast? = some a ∧
      (phases e cmode (max bk.seq.rows 1 : Nat) n.clock n.trig frames).1.getLast? = some p ∧ o.led = some (a, p) := by
  unfold process at h
  cases hb0 : w.backend with
  | none => rw [hb0] at hb; cases hb
  | some b =>
    simp only [hb0] at h
    split at h
    · cases h
    · rename_i w1 _
      split at h
      · cases h
      · rename_i bk hbk
        split at h
        · cases h
        · rename_i o1 n1 _
          cases ht : o1.trk 0 with
          | none => simp only [ht, Option.getD_none, List.getLast?_nil] at h; cases h
          | some trk =>
            simp only [ht, Option.getD_some] at h
            cases ha : trk.getLast? with
            | none => simp only [ha] at h; cases h
            | some a =>
              cases hp : (phases e cmode (max bk.seq.rows 1 : Nat) n.clock n.trig frames).1.getLast? with
              | none => simp only [ha, hp] at h; cases h
              | some p =>
                simp only [ha, hp, Option.some.injEq, Prod.mk.injEq] at h
                obtain ⟨rfl, rfl, -⟩ := h
                exact ⟨trk, bk, a, p, ht, hbk, ha, hp, rfl⟩

/-- **C87** A new node draws a random number for the first gate it plays, in whatever row, if the gate leaves a choice. -/
theorem first_gate_draws (e : Ext C T R) (seed : R) (b : Backend) {col : Nat} (hc : col < 6) (ht : b.colTypes col = .gate) (h0 : 0 < b.seq.rows) {p : ℚ} (hp0 : 0 ≤ p)
    (hp1 : p ≤ 1) (hr : lineOf b.seq.rows p < 256) (hp : ((b.seq.data col (lineOf b.seq.rows p)).1.toBits e.enc &&& 0xF00) >>> 8 < 15) (buf : List (ℚ × ℚ)) {r : List (ℚ × ℚ) × Node C T R}
    (h : playCol e b (Node.new e seed) col [p] buf = some r) :
    r.2.rands col = (lineOf b.seq.rows p, (e.rand seed).1) ∧ r.2.rng = (e.rand seed).2 := by
  have hne : 99999 ≠ lineOf b.seq.rows p := by omega
  unfold playCol at h
  rw [if_neg (by omega), if_neg (by omega), ht] at h
  obtain ⟨q, h1, rfl⟩ := Option.map_eq_some_iff.1 h
  simp only [GateSeq.gateBlock] at h1
  split at h1
  · cases h1
  · rename_i o d hg
    simp only [Option.map_some, Option.some.injEq] at h1
    subst h1
    unfold GateSeq.gateAt at hg
    rw [if_neg (by omega), clamp_unit hp0 hp1] at hg
    change (if 256 ≤ lineOf b.seq.rows p then none else GateSeq.gateSample _ _ _ (b.seq.data col (lineOf b.seq.rows p)) (lineOf b.seq.rows p) _) = _ at hg
    rw [if_neg (by omega)] at hg
    unfold GateSeq.gateSample at hg
    have hd : GateSeq.Dice.draw e.rand { rng := (Node.new e seed).rng, line := ((Node.new e seed).rands col).1, val := ((Node.new e seed).rands col).2 }
        (lineOf b.seq.rows p) = ((e.rand seed).1, { rng := (e.rand seed).2, line := lineOf b.seq.rows p, val := (e.rand seed).1 }) := if_pos hne
    simp only [hd] at hg
    split at hg
    · cases hg
    · rw [if_pos hp] at hg
      split at hg
      · cases hg
      · split at hg <;> (cases hg; simp [upd])

/-- A clock that counts triggers, one per frame with an input above 0.5. -/
def exExt : Ext ℚ Bool Nat :=
  { clockNew := 0, clockSync := fun _ => 0,
    clockNext := fun c limit x => let v := c + if x > 1 / 2 then 1 else 0; let v := if 0 ≤ v ∧ v < limit then v else 0; (v, v),
    trigNew := false, trigCheck := fun t x => (!t && decide (x > 1 / 2), decide (x > 1 / 2)), rand := fun r => (1 / 2, r + 1), enc := fun _ => 0 }

theorem exExt_good : GoodClock exExt := by
  intro c limit x hl
  simp only [exExt]
  generalize c + _ = v
  split
  · next h => exact ⟨h.1, h.2.le⟩
  · exact ⟨le_refl _, hl.le⟩

/-- Four rows; a step column with two cells, a gate column with one. -/
def exEvs : List (Ev Nat) :=
  [.newNode 0, .op (.setRows 4), .op (.setColType 0 .step), .op (.setColType 1 .gate), .op (.setCell 0 0 0xFFF), .op (.setCell 2 0 0), .op (.setCell 1 1 0xFFF)]

/-- The blocks that let the edits arrive. -/
def exBlocks : List (Int × List (ℚ × ℚ)) := List.replicate 64 (2, [(0, 0)])

/-- The hypotheses are met: the history runs, the queue is empty and both columns count as recent. -/
example : (match run exExt true (World.new, Node.new exExt 0) exEvs with
    | some (w, _) => w.backend.isSome && decide (w.queue.length ≤ 58) && decide (w.pat.rows = 4) &&
        recent true 0 (calls exEvs).reverse && recent true 1 (calls exEvs).reverse
    | none => false) = true := by decide +kernel

/-- Played by the phase: row 0, 1, 2 and 3 of both columns; and by triggers, with a restart. -/
example : (match run exExt true (World.new, Node.new exExt 0) (exEvs ++ List.replicate 6 (.op .send) ++ exBlocks.map (fun b => .block b.1 b.2)) with
    | some (w, n) =>
      (match process exExt w n 2 [(1 / 8, 0), (-3 / 8, 0), (13 / 8, 0), (7 / 8, 0)], process exExt w n 1 [(0, 0), (0, 1)] with
      | some (o, _, _), some (o', _, _) =>
        decide (o.trk 0 = some [1, 1, 0, 0]) && decide (o.gat 0 = some [1, 0, 1, 0]) && decide (o.trk 1 = some [0, 1, 0, 0]) &&
          decide (o.gat 1 = some [0, 1, 0, 0]) && decide (o'.trk 0 = some [1, 1])
      | _, _ => false)
    | none => false) = true := by decide +kernel

end HexoDSP.TSeqProps
