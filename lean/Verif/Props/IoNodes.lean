import Verif.Lemmas.IoNodes
import Verif.Props.PatchTimed
import Verif.Props.Norm
/-!
# What the sound card hears (C91)
-/

set_option linter.unusedSectionVars false

namespace HexoDSP.IoProps
open HexoDSP.Table HexoDSP.Engine HexoDSP.IoNodes HexoDSP.EngineSpec HexoDSP.Patch
open HexoDSP.Matrix (MatrixError Matrix)
open HexoDSP.Repr (SAtom)
open HexoDSP.PatchProps

variable {M τ P PR B BR : Type} {G : Gain} {other : τ → In → τ × (Nat → Block ℝ)} {feed : Nat → Nat → τ → τ}
variable {E : Env Kind ℝ (SAtom ℝ) P PR B BR} {s s0 s1 : FM Kind ℝ (SAtom ℝ) M (Host τ) P B} {hand : Hand Kind}

local notation "T" => table G
local notation "a0" => (SAtom.setting 0 : SAtom ℝ)

/-- Taking messages when there are none changes nothing. -/
theorem poll_nothing {w : World Node ℝ (SAtom ℝ) M (Host τ)} (hq : w.queue = []) : w.step T a0 (run G other) .poll = some (w, none) := by
  simp only [World.step, hq, Exec.applyAll]
  cases w
  subst hq
  rfl

theorem list_piece {α : Type} (n f : Nat) (g : Nat → α) (rest : List α) (h : f < n) : ((List.range n).map g ++ rest)[f]? = some (g f) := by
  rw [List.getElem?_append_left (by simpa using h)]
  simp [h]

theorem list_rest {α : Type} (n i : Nat) (g : Nat → α) (rest : List α) : ((List.range n).map g ++ rest)[n + i]? = rest[i]? := by
  rw [List.getElem?_append_right (by simp)]
  simp

theorem blocks_heard (hs : Reach T a0 (run G other) E Room s) {op : FOp Kind ℝ (SAtom ℝ) P PR B BR} (ht : op.Typed) (hu : op.Uploads s)
    (h : s.step T a0 (run G other) E op = some (s0, none)) (hr : Room s0)
    {sp : FM Kind ℝ (SAtom ℝ) M (Host τ) P B} (htime : Timely T a0 (run G other) E sp hand) (hg : FOp.Gentle hand (.poll : FOp Kind ℝ (SAtom ℝ) P PR B BR))
    {sq : FM Kind ℝ (SAtom ℝ) M (Host τ) P B} {err : Option (MatrixError Node)} (hpoll : sp.step T a0 (run G other) E .poll = some (sq, err))
    (L : Node → Nat → Nat) :
    ∀ (fuel : Nat) (sc : FM Kind ℝ (SAtom ℝ) M (Host τ) P B) (hc : Hand Kind) (offs : Nat) (input l r : List ℝ) (w' : World Node ℝ (SAtom ℝ) M (Host τ)),
      Since T a0 (run G other) E Room s0 sc → Room sc → sc.world.queue = [] → sc.world.conf = sp.world.conf →
      Between T a0 (run G other) E sq (hand.step T sp (.poll : FOp Kind ℝ (SAtom ℝ) P PR B BR)) sc hc → (∀ n i, hc.clock.left n i = L n i - offs) →
      input.length ≤ fuel → blocks G other feed fuel sc.world offs input = some (w', l, r) →
      Heard G s0.grid sp.world.conf (fun n i => L n i - offs) input l r := by
  intro fuel
  induction fuel with
  | zero =>
    intro sc hc offs input l r w' _ _ _ _ _ _ hlen hb
    simp only [blocks, Option.some.injEq, Prod.mk.injEq] at hb
    obtain ⟨-, rfl, rfl⟩ := hb
    have : input = [] := List.length_eq_zero_iff.1 (by omega)
    subst this
    exact ⟨rfl, rfl, fun k hk => absurd hk (by simp)⟩
  | succ fuel ih =>
    intro sc hc offs input l r w' hsince hroom hq hconf hbet hleft hlen hb
    rw [blocks] at hb
    split at hb
    · rename_i h0
      simp only [Option.some.injEq, Prod.mk.injEq] at hb
      obtain ⟨-, rfl, rfl⟩ := hb
      exact ⟨h0.symm, h0.symm, fun k hk => absurd hk (by omega)⟩
    · rename_i h0
      generalize hn : (if 128 ≤ input.length then 128 else input.length) = n at hb
      have hn' : n = min 128 input.length := by rw [← hn]; split <;> omega
      simp only at hb
      generalize hst : ({ inp := fun _ f => input.getD f 0, out := fun _ _ => 0, rest := feed offs n sc.world.st.rest } : Host τ) = st at hb
      have hout : World.mk sc.world.conf sc.world.queue sc.world.exec sc.world.shared st = (sc.outside st).world := rfl
      rw [hout] at hb
      cases hstep : (sc.outside st).world.step T a0 (run G other) (.process n) with
      | none => rw [hstep] at hb; cases hb
      | some x =>
        obtain ⟨w1, out⟩ := x
        rw [hstep] at hb
        simp only at hb
        obtain ⟨⟨w2, l2, r2⟩, hrec, heq⟩ := Option.map_eq_some_iff.1 hb
        simp only [Prod.mk.injEq] at heq
        obtain ⟨rfl, rfl, rfl⟩ := heq
        obtain ⟨res, rfl⟩ : ∃ res, out = some res := by
          simp only [World.step] at hstep
          obtain ⟨x, -, hx⟩ := Option.map_eq_some_iff.1 hstep
          simp only [Prod.mk.injEq] at hx
          exact ⟨_, hx.2.symm⟩
        -- the state before and after the block
        have hroomO : Room (sc.outside st) := hroom
        have hsO : Since T a0 (run G other) E Room s0 (sc.outside st) := .outside st hsince hroomO
        have hbO := Between.outside st hbet
        have hworld : ∃ e : Exec Node ℝ (SAtom ℝ) M, ∃ sh, w1 = { (sc.outside st).world with exec := e, shared := sh, st := w1.st } := by
          simp only [World.step] at hstep
          obtain ⟨x, -, hx⟩ := Option.map_eq_some_iff.1 hstep
          simp only [Prod.mk.injEq] at hx
          exact ⟨x.1, _, by rw [← hx.1]⟩
        have hq1 : w1.queue = [] := by obtain ⟨e, sh, hw⟩ := hworld; rw [hw]; exact hq
        have hconf1 : w1.conf = sp.world.conf := by obtain ⟨e, sh, hw⟩ := hworld; rw [hw]; exact hconf
        have hnext : (sc.outside st).step T a0 (run G other) E (.process n) = some ({ sc.outside st with world := w1 }, none) := by
          simp only [FM.step, FM.call, hstep, Option.map_some]
        have hroom1 : Room { sc.outside st with world := w1 } := by
          refine ⟨?_, ?_⟩
          · show w1.queue.length < queueCapacity
            rw [hq1]; show 0 < queueCapacity; decide
          · show w1.conf.nodes.length ≤ 256
            rw [hconf1, ← hconf]; exact hroom.2
        -- the first block
        have hgrid : GridFlow T s0.grid sp.world.conf n res.calls := by
          have := grid_plays (fun n => inCount_le n) hs ht hu h hr hsO (poll_nothing (w := (sc.outside st).world) hq) hstep
          rwa [show (sc.outside st).world.conf = sp.world.conf from hconf] at this
        have hfol : ∃ t, Follows T a0 (run G other) (sc.outside st).world t := by
          obtain ⟨t, hf⟩ := reach_follows hs
          have hi := reach_inv hs
          obtain ⟨t0, f0, p0⟩ := plays_upload two_follows hi ht (uses_follows _) hu h hr hf
          obtain ⟨-, t1, f1, -⟩ := since_plays (inv_step hi ht h) f0 p0 hsO
          exact ⟨t1, f1⟩
        obtain ⟨t, hf⟩ := hfol
        obtain ⟨hruns, hflow⟩ := FlowProps.block_is_dataflow (fun n => inCount_le n) hf hstep
        have hsound := sounds_of_runs hruns hflow
        have hrest : Heard G s0.grid sp.world.conf (fun n' i => L n' i - (offs + n)) (input.drop n) l2 r2 := by
          refine ih { sc.outside st with world := w1 } (hc.step T (sc.outside st) (.process n : FOp Kind ℝ (SAtom ℝ) P PR B BR)) (offs + n) (input.drop n) l2 r2 w2
            (Since.step (op := .process n) hsO trivial hnext trivial hroom1) hroom1 hq1 hconf1 (Between.step (op := .process n) hbO trivial trivial (by simp) hnext hroom1) ?_ ?_ hrec
          · intro n' i
            simp only [Hand.step, hleft]
            omega
          · rw [List.length_drop]; omega
        obtain ⟨hl, hr', hblocks⟩ := hrest
        rw [List.length_drop] at hl hr' hblocks
        refine ⟨by simp [hl]; omega, by simp [hr']; omega, ?_⟩
        intro k hk
        cases k with
        | zero =>
          refine ⟨res.calls, w1.st.out, ?_, ?_, ?_, ?_⟩
          · simpa [hn'] using hgrid
          · have e1 : (sc.outside st).world.st.inp = fun _ f => input.getD (128 * 0 + f) 0 := by
              show st.inp = _
              rw [← hst]; simp
            have e2 : (sc.outside st).world.st.out = fun _ _ => 0 := by
              show st.out = _
              rw [← hst]
            rw [e1, e2] at hsound
            simpa [hn'] using hsound
          · intro f hf'
            have hf' : f < n := by simpa [hn'] using hf'
            simp only [Nat.mul_zero, Nat.zero_add]
            exact ⟨list_piece _ _ _ _ hf', list_piece _ _ _ _ hf'⟩
          · intro c hc' i hi
            obtain ⟨blk, b1, b2⟩ := PatchTimedProps.knob_heard_partial (fun n => inCount_le n) htime hg hpoll hbO hstep c hc' i hi
            clear hstep hpoll h hnext hrec hb
            refine ⟨blk, b1, fun f hf' hle => b2 f (by omega) ?_⟩
            rw [hleft]
            simpa using hle
        | succ k =>
          have h128 : n = 128 := by omega
          subst h128
          obtain ⟨cs, card, g1, g2, g3, g4⟩ := hblocks k (by omega)
          have e1 : min 128 (input.length - 128 - 128 * k) = min 128 (input.length - 128 * (k + 1)) := by omega
          rw [e1] at g1 g2 g3 g4
          refine ⟨cs, card, g1, ?_, ?_, ?_⟩
          · have e2 : (fun (_ f : Nat) => (input.drop 128).getD (128 * k + f) 0) = fun (_ f : Nat) => input.getD (128 * (k + 1) + f) 0 := by
              funext _ f
              simp only [List.getD_eq_getElem?_getD, List.getElem?_drop]
              congr 2; omega
            rw [e2] at g2
            exact g2
          · intro f hf'
            have := g3 f hf'
            rw [show 128 * (k + 1) + f = 128 + (128 * k + f) by omega, list_rest, list_rest]
            exact this
          · intro c hc' i hi
            obtain ⟨blk, b1, b2⟩ := g4 c hc' i hi
            exact ⟨blk, b1, fun f hf' hle => b2 f hf' (by simp only at hle ⊢; omega)⟩

theorem since_room (hr : Room s0) (h : Since T a0 (run G other) E Room s0 s1) : Room s1 := by
  cases h with
  | refl => exact hr
  | step _ _ _ _ h => exact h
  | outside _ _ h => exact h

/-- **C91** What `test_run_input` returns is the grid, as it was when the last successful `sync` (or load, or clear) made a program of it, playing the given signal
into both input channels, with the values set since: from frame `slope` on for knobs turned just before, at once for those that had arrived. -/
theorem recording (hs : Reach T a0 (run G other) E Room s) {op : FOp Kind ℝ (SAtom ℝ) P PR B BR} (ht : op.Typed) (hu : op.Uploads s)
    (h : s.step T a0 (run G other) E op = some (s0, none)) (hr : Room s0) (hsince : Since T a0 (run G other) E Room s0 s1)
    (htime : Timely T a0 (run G other) E s1 hand) (hg : FOp.Gentle hand (.poll : FOp Kind ℝ (SAtom ℝ) P PR B BR))
    {slope : Nat} {input l r : List ℝ} {w' : World Node ℝ (SAtom ℝ) M (Host τ)}
    (hrun : testRunInput G other feed slope s1.world input = some (w', l, r)) :
    Heard G s0.grid s1.world.conf (fun n i => if (n, i) ∈ hand.sent then slope + 1 else hand.clock.left n i) input l r := by
  have hroom := since_room hr hsince
  obtain ⟨w1, hw1⟩ : ∃ w1, ({ s1.world with exec := s1.world.exec.setSlope slope } : World Node ℝ (SAtom ℝ) M (Host τ)) = w1 := ⟨_, rfl⟩
  have hset' : s1.world.step T a0 (run G other) (.setSlope slope) = some (w1, none) := by rw [← hw1]; rfl
  rw [testRunInput, hset'] at hrun
  simp only at hrun
  have hset : s1.step T a0 (run G other) E (.setSlope slope) = some ({ s1 with world := w1 }, none) := by
    simp only [FM.step, FM.call, hset', Option.map_some]
  have hconf1 : w1.conf = s1.world.conf := by rw [← hw1]
  have hqueue1 : w1.queue = s1.world.queue := by rw [← hw1]
  have hroom1 : Room { s1 with world := w1 } := ⟨by show w1.queue.length < _; rw [hqueue1]; exact hroom.1, by show w1.conf.nodes.length ≤ _; rw [hconf1]; exact hroom.2⟩
  have hs1 : Since T a0 (run G other) E Room s0 { s1 with world := w1 } :=
    Since.step (op := .setSlope slope) hsince trivial hset trivial hroom1
  have ht1 : Timely T a0 (run G other) E { s1 with world := w1 } (hand.step T s1 (.setSlope slope : FOp Kind ℝ (SAtom ℝ) P PR B BR)) :=
    Timely.step (op := .setSlope slope) htime trivial trivial hset hroom1
  cases hap : w1.exec.applyAll w1.shared w1.queue with
  | none =>
    rw [show w1.step T a0 (run G other) .poll = none by simp only [World.step, hap, Option.map_none]] at hrun
    cases hrun
  | some x =>
    have hstep' : w1.step T a0 (run G other) .poll = some ({ w1 with queue := [], exec := x.1, shared := x.2 }, none) := by
      simp only [World.step, hap, Option.map_some]
    rw [hstep'] at hrun
    simp only at hrun
    have hstep : ({ s1 with world := w1 } : FM Kind ℝ (SAtom ℝ) M (Host τ) P B).step T a0 (run G other) E .poll =
        some ({ s1 with world := { w1 with queue := [], exec := x.1, shared := x.2 } }, none) := by
      simp only [FM.step, FM.call, hstep', Option.map_some]
    have hroom2 : Room ({ s1 with world := { w1 with queue := [], exec := x.1, shared := x.2 } } : FM Kind ℝ (SAtom ℝ) M (Host τ) P B) :=
      ⟨by show 0 < queueCapacity; decide, hroom1.2⟩
    have := blocks_heard (feed := feed) hs ht hu h hr ht1 hg hstep (fun n i => if (n, i) ∈ hand.sent then slope + 1 else hand.clock.left n i) input.length
      { s1 with world := { w1 with queue := [], exec := x.1, shared := x.2 } } _ 0 input l r w' (Since.step (op := .poll) hs1 trivial hstep trivial hroom2) hroom2 rfl rfl (.refl _ _)
      (fun n i => by simp only [Hand.step, Nat.sub_zero]; exact if_congr Iff.rfl rfl rfl) (Nat.le_refl _) hrun
    simp only [Nat.sub_zero, hconf1] at this
    exact this

/-! ## Simple patches -/

section
variable {m : Matrix Node} {conf : Conf Node ℝ (SAtom ℝ)} {late : Node → Nat → Nat} {input l r : List ℝ}

/-- The frame `t` of a recording: frame `f` of some block. -/
theorem heard_at (hh : Heard G m conf late input l r) {t : Nat} (ht : t < input.length) :
    ∃ cs card nf f rec, f < nf ∧ rec 0 f = input.getD t 0 ∧ rec 1 f = input.getD t 0 ∧ GridFlow T m conf nf cs ∧ Sounds G nf rec (fun _ _ => 0) card cs ∧
      l[t]? = some (card 0 f) ∧ r[t]? = some (card 1 f) ∧
      ∀ c ∈ cs, ∀ i, i < (table G).inCount c.node → ∃ blk, c.params[i]? = some blk ∧ (late c.node i ≤ t + 1 → blk f = paramIn T conf c.node i) := by
  obtain ⟨cs, card, g1, g2, g3, g4⟩ := hh.2.2 (t / 128) (by omega)
  have hf : t % 128 < min 128 (input.length - 128 * (t / 128)) := by omega
  have e : 128 * (t / 128) + t % 128 = t := by omega
  obtain ⟨h1, h2⟩ := g3 _ hf
  rw [e] at h1 h2
  refine ⟨cs, card, _, t % 128, _, hf, by simp only [e], by simp only [e], g1, g2, h1, h2, fun c hc i hi => ?_⟩
  obtain ⟨blk, b1, b2⟩ := g4 c hc i hi
  exact ⟨blk, b1, fun hl => b2 _ hf (by omega)⟩

/-- Nothing is plugged into input `i` of node `n`. -/
def NoWire (m : Matrix Node) (n : Node) (i : Nat) : Prop := ∀ p d e, m.Wire p d e → ¬ (e.dst = n ∧ e.dstInput = i)

theorem out_count {n : Node} (h : n.Is "out") : (table G).inCount n = 3 ∧ (table G).atCount n = 1 := by
  have := rows_out _ h
  exact ⟨by show (row n.kind).params.length = 3; rw [this]; rfl, by show (row n.kind).atoms.length = 1; rw [this]; rfl⟩

theorem inp_count {n : Node} (h : n.Is "inp") : (table G).inCount n = 1 ∧ (table G).outCount n = 2 := by
  have := rows_inp _ h
  exact ⟨by show (row n.kind).params.length = 1; rw [this]; rfl, by show (row n.kind).outs.length = 2; rw [this]; rfl⟩

theorem amp_count {n : Node} (h : n.Is "amp") : (table G).inCount n = 3 ∧ (table G).atCount n = 1 ∧ (table G).outCount n = 1 := by
  have := rows_amp _ h
  exact ⟨by show (row n.kind).params.length = 3; rw [this]; rfl, by show (row n.kind).atoms.length = 1; rw [this]; rfl,
    by show (row n.kind).outs.length = 1; rw [this]; rfl⟩

theorem same_call {cs : List (Call Node ℝ (SAtom ℝ))} (h : (cs.map (·.node)).Nodup) {a b : Call Node ℝ (SAtom ℝ)} (ha : a ∈ cs) (hb : b ∈ cs) (hn : a.node = b.node) :
    a = b := List.inj_on_of_nodup_map h ha hb hn

/-- **C91** Without an `Out` node on the grid there is silence. -/
theorem no_out_silence (hh : Heard G m conf late input l r) (hno : ∀ n, OnGrid m n → ¬ n.Is "out") {t : Nat} (ht : t < input.length) :
    l[t]? = some 0 ∧ r[t]? = some 0 := by
  obtain ⟨cs, card, nf, f, rec, hf, -, -, hg, hsd, h1, h2, -⟩ := heard_at hh ht
  have := hsd.silent (fun c hc => hno _ ((hg.nodes _).1 (List.mem_map_of_mem hc)))
  rw [h1, h2, this]
  exact ⟨rfl, rfl⟩

theorem last_out {cs : List (Call Node ℝ (SAtom ℝ))} : (∃ c ∈ cs, c.node.Is "out") →
    ∃ pre c post, cs = pre ++ c :: post ∧ c.node.Is "out" ∧ ∀ c' ∈ post, ¬ c'.node.Is "out" := by
  induction cs with
  | nil => rintro ⟨c, hc, -⟩; cases hc
  | cons a cs ih =>
    intro h
    by_cases hr : ∃ c ∈ cs, c.node.Is "out"
    · obtain ⟨pre, c, post, rfl, h1, h2⟩ := ih hr
      exact ⟨a :: pre, c, post, rfl, h1, h2⟩
    · obtain ⟨c, hc, hn⟩ := h
      cases hc with
      | head => exact ⟨[], a, cs, rfl, hn, fun c' hc' h' => hr ⟨c', hc', h'⟩⟩
      | tail _ hc => exact absurd ⟨c, hc, hn⟩ hr

/-- The value of an input without a wire, once its knob has arrived. -/
theorem free_value {cs : List (Call Node ℝ (SAtom ℝ))} {nf f t : Nat} (hg : GridFlow T m conf nf cs)
    (hp : ∀ c ∈ cs, ∀ i, i < (table G).inCount c.node → ∃ blk, c.params[i]? = some blk ∧ (late c.node i ≤ t + 1 → blk f = paramIn T conf c.node i))
    {c : Call Node ℝ (SAtom ℝ)} (hc : c ∈ cs) {i : Nat} (hi : i < (table G).inCount c.node) (hw : NoWire m c.node i) {x : Block ℝ} (hx : c.inputs[i]? = some x)
    (hl : late c.node i ≤ t + 1) : x f = paramIn T conf c.node i := by
  obtain ⟨blk, b1, b2⟩ := hp c hc i hi
  have := hg.free c hc i hi (fun p d e h _ => hw p d e h)
  rw [hx, b1, Option.some.injEq] at this
  rw [this]; exact b2 hl

/-- **C91** The only `Out` node on the grid, with nothing plugged into its volume: what it gets at `ch1` (frame by frame, times its volume) is heard left, what it
gets at `ch2` is heard right; with `mono` on, `ch1` is heard on both sides. -/
theorem only_out {n : Node} (hh : Heard G m conf late input l r) (hon : OnGrid m n) (hn : n.Is "out") (honly : ∀ n', OnGrid m n' → n'.Is "out" → n' = n)
    (hvol : NoWire m n 2) {t : Nat} (ht : t < input.length) (hlate : late n 2 ≤ t + 1) :
    ∃ cs c nf f ch1 ch2 vol rec card, f < nf ∧ GridFlow T m conf nf cs ∧ Sounds G nf rec (fun _ _ => 0) card cs ∧ c ∈ cs ∧ c.node = n ∧ c.inputs = [ch1, ch2, vol] ∧
      rec 0 f = input.getD t 0 ∧ rec 1 f = input.getD t 0 ∧
      (∀ c ∈ cs, ∀ i, i < (table G).inCount c.node → ∃ blk, c.params[i]? = some blk ∧ (late c.node i ≤ t + 1 → blk f = paramIn T conf c.node i)) ∧
      l[t]? = some (volume G (paramIn T conf n 2) * ch1 f) ∧
      r[t]? = some (volume G (paramIn T conf n 2) * (if atomI (atomIn T conf n 0) > 0 then ch1 f else ch2 f)) := by
  obtain ⟨cs, card, nf, f, rec, hf, hr0, hr1, hg, hsd, h1, h2, hp⟩ := heard_at hh ht
  obtain ⟨c0, hc0, hcn⟩ := List.mem_map.1 ((hg.nodes n).2 hon)
  obtain ⟨pre, c, post, hcs, hc, hlast⟩ := last_out ⟨c0, hc0, hcn ▸ hn⟩
  have hmem : c ∈ cs := by rw [hcs]; simp
  have hcn : c.node = n := honly _ ((hg.nodes _).1 (List.mem_map_of_mem hmem)) hc
  obtain ⟨ch1, ch2, vol, mono, i1, i2, i3⟩ := hsd.out pre c post hcs hc hlast
  obtain ⟨c1, c2⟩ := i3 f hf
  have hv : vol f = paramIn T conf n 2 := by
    rw [← hcn]
    exact free_value hg hp hmem (by rw [hcn, (out_count hn).1]; decide) (hcn ▸ hvol) (by rw [i1]; rfl) (hcn ▸ hlate)
  have hm : mono = atomIn T conf n 0 := by
    have := hg.atoms c hmem 0 (by rw [hcn, (out_count hn).2]; decide)
    rw [i2, hcn] at this
    simpa using this
  refine ⟨cs, c, nf, f, ch1, ch2, vol, rec, card, hf, hg, hsd, hmem, hcn, i1, hr0, hr1, hp, ?_, ?_⟩
  · rw [h1, c1, hv]
  · rw [h2, c2, hv, hm]

/-- A cable, the only one into its input. -/
def Plug (m : Matrix Node) (e : HexoDSP.Matrix.Edge Node) : Prop :=
  ∃ p d, m.Wire p d e ∧ ∀ p' d' e', m.Wire p' d' e' → e'.dst = e.dst → e'.dstInput = e.dstInput → (p', d') = (p, d)

theorem plug_on {e : HexoDSP.Matrix.Edge Node} (h : Plug m e) : OnGrid m e.src ∧ OnGrid m e.dst := by
  obtain ⟨p, d, ⟨-, q, a, b, -, ha, hb, ha', -, hb', -⟩, -⟩ := h
  exact ⟨⟨p.1, p.2, a, ha, ha'⟩, ⟨q.1, q.2, b, hb, hb'⟩⟩

/-- What goes through a cable without a modulation amount. -/
theorem through {cs : List (Call Node ℝ (SAtom ℝ))} {nf : Nat} (hg : GridFlow T m conf nf cs) {e : HexoDSP.Matrix.Edge Node} (h : Plug m e)
    (hi : e.dstInput < (table G).inCount e.dst) (ho : e.srcOut < (table G).outCount e.src) (hmod : conf.getModamt (.input e.dst e.dstInput) = none)
    {k s : Call Node ℝ (SAtom ℝ)} (hk : k ∈ cs) (hkn : k.node = e.dst) (hs : s ∈ cs) (hsn : s.node = e.src) :
    ∃ x, s.outputs[e.srcOut]? = some x ∧ k.inputs[e.dstInput]? = some x := by
  obtain ⟨p, d, hw, hu⟩ := h
  obtain ⟨k', hk', hkn', s', hs', hsn', x, y, par, e1, e2, -, e3⟩ := hg.wire p d e hw hi ho hu
  rw [hmod] at e3
  simp only at e3
  have h1 : k' = k := same_call hg.once hk' hk (hkn'.trans hkn.symm)
  have h2 : s' = s := same_call hg.once hs' hs (hsn'.trans hsn.symm)
  subst h1 h2
  exact ⟨y, e1, by rw [e2, e3]⟩

theorem has_call {cs : List (Call Node ℝ (SAtom ℝ))} {nf : Nat} (hg : GridFlow T m conf nf cs) {n : Node} (h : OnGrid m n) : ∃ c ∈ cs, c.node = n :=
  List.mem_map.1 ((hg.nodes n).2 h)

/-- An `Inp` node without a wire into its volume puts out the recorded signal times its volume. -/
theorem inp_out {cs : List (Call Node ℝ (SAtom ℝ))} {nf f t : Nat} {rec card : Nat → Block ℝ} (hg : GridFlow T m conf nf cs) (hsd : Sounds G nf rec (fun _ _ => 0) card cs)
    (hp : ∀ c ∈ cs, ∀ i, i < (table G).inCount c.node → ∃ blk, c.params[i]? = some blk ∧ (late c.node i ≤ t + 1 → blk f = paramIn T conf c.node i))
    {s : Call Node ℝ (SAtom ℝ)} (hs : s ∈ cs) (hn : s.node.Is "inp") (hv : NoWire m s.node 0) (hl : late s.node 0 ≤ t + 1) (hf : f < nf)
    {x : Block ℝ} (hx : s.outputs[0]? = some x) : x f = volume G (paramIn T conf s.node 0) * rec 0 f := by
  obtain ⟨v, s1, s2, j1, j2, j3⟩ := hsd.inp s hs hn
  rw [j2] at hx
  simp only [List.getElem?_cons_zero, Option.some.injEq] at hx
  have hv : v f = paramIn T conf s.node 0 :=
    free_value hg hp hs (by rw [(inp_count hn).1]; decide) hv (by rw [j1]; rfl) hl
  rw [← hx, (j3 f hf).1, hv]

/-- **C91** A cable from the first output of an `Inp` node to the first channel of the only `Out` node, and nothing plugged into the volumes of the two: the recording
is the given signal times the two volumes, frame by frame, without delay. -/
theorem straight_through (hh : Heard G m conf late input l r) {e : HexoDSP.Matrix.Edge Node} (hw : Plug m e)
    (hsrc : e.src.Is "inp") (hso : e.srcOut = 0) (hdst : e.dst.Is "out") (hdi : e.dstInput = 0) (hv1 : NoWire m e.src 0) (hv2 : NoWire m e.dst 2)
    (hout : ∀ n', OnGrid m n' → n'.Is "out" → n' = e.dst) (hmod : conf.getModamt (.input e.dst 0) = none)
    {t : Nat} (ht : t < input.length) (hl1 : late e.src 0 ≤ t + 1) (hl2 : late e.dst 2 ≤ t + 1) :
    l[t]? = some (volume G (paramIn T conf e.dst 2) * (volume G (paramIn T conf e.src 0) * input.getD t 0)) := by
  obtain ⟨cs, c, nf, f, ch1, ch2, vol, rec, card, hf, hg, hsd, hmem, hcn, hin, hr0, -, hp, h1, -⟩ := only_out hh (plug_on hw).2 hdst hout hv2 ht hl2
  obtain ⟨s, hs, hsn⟩ := has_call hg (plug_on hw).1
  obtain ⟨x, e1, e2⟩ := through hg hw (by rw [hdi, (out_count hdst).1]; decide) (by rw [hso, (inp_count hsrc).2]; decide) (hdi ▸ hmod) hmem hcn hs hsn
  rw [hdi, hin] at e2
  simp only [List.getElem?_cons_zero, Option.some.injEq] at e2
  have := inp_out hg hsd hp hs (hsn ▸ hsrc) (hsn ▸ hv1) (hsn ▸ hl1) hf (hso ▸ e1)
  rw [h1, e2, this, hsn, hr0]

/-- **C91** All volumes at their defaults: the recording is the given signal. -/
theorem default_volume (hG : G.Ok) {n : Node} : (n.Is "out" → volume G ((table G).normDef n 2) = 1) ∧ (n.Is "inp" → volume G ((table G).normDef n 0) = 1) := by
  have h1 : Curve.denorm G .vol (Curve.norm G .vol 1) = 1 := by
    refine ((NormProps.good_curve hG .vol).onto 1 ?_ ?_).2.2
    · rw [← hG.zero]; exact (hG.mono (-90) 0 (by norm_num) (by norm_num) (by norm_num)).le
    · rw [← hG.zero]; exact (hG.mono 0 18 (by norm_num) (by norm_num) (by norm_num)).le
  have h2 : Curve.norm G .vol ((1 : ℚ) : ℝ) = Curve.norm G .vol 1 := by norm_num
  constructor
  · intro hn
    have := rows_out _ hn
    rw [← volume_eq]
    have e : (table G).normDef n 2 = Curve.norm G .vol ((1 : ℚ) : ℝ) := by
      simp only [table, this]; rfl
    rw [e, h2, h1]
  · intro hn
    have := rows_inp _ hn
    rw [← volume_eq]
    have e : (table G).normDef n 0 = Curve.norm G .vol ((1 : ℚ) : ℝ) := by
      simp only [table, this]; rfl
    rw [e, h2, h1]

theorem default_gain (hG : G.Ok) {n : Node} (hn : n.Is "amp") : gain G ((table G).normDef n 1) = 1 := by
  have h1 : Curve.denorm G .gain (Curve.norm G .gain 1) = 1 := by
    refine ((NormProps.good_curve hG .gain).onto 1 ?_ ?_).2.2
    · rw [← hG.zero]; exact (hG.mono (-24) 0 (by norm_num) (by norm_num) (by norm_num)).le
    · rw [← hG.zero]; exact (hG.mono 0 24 (by norm_num) (by norm_num) (by norm_num)).le
  have h2 : Curve.norm G .gain ((1 : ℚ) : ℝ) = Curve.norm G .gain 1 := by norm_num
  have := rows_amp _ hn
  rw [← gain_eq]
  have e : (table G).normDef n 1 = Curve.norm G .gain ((1 : ℚ) : ℝ) := by
    simp only [table, this]; rfl
  rw [e, h2, h1]

/-- **C91** The same with the volumes at their defaults: the recording is the given signal. -/
theorem unity (hG : G.Ok) (hh : Heard G m conf late input l r) {e : HexoDSP.Matrix.Edge Node} (hw : Plug m e)
    (hsrc : e.src.Is "inp") (hso : e.srcOut = 0) (hdst : e.dst.Is "out") (hdi : e.dstInput = 0) (hv1 : NoWire m e.src 0) (hv2 : NoWire m e.dst 2)
    (hout : ∀ n', OnGrid m n' → n'.Is "out" → n' = e.dst) (hmod : conf.getModamt (.input e.dst 0) = none)
    (hl1 : late e.src 0 ≤ 1) (hl2 : late e.dst 2 ≤ 1) (hd1 : paramIn T conf e.src 0 = (table G).normDef e.src 0)
    (hd2 : paramIn T conf e.dst 2 = (table G).normDef e.dst 2) : l = input := by
  refine List.ext_getElem? fun t => ?_
  by_cases ht : t < input.length
  · rw [straight_through hh hw hsrc hso hdst hdi hv1 hv2 hout hmod ht (by omega) (by omega), hd1, hd2, (default_volume hG).1 hdst,
      (default_volume hG).2 hsrc, List.getD_eq_getElem?_getD, List.getElem?_eq_getElem ht]
    simp
  · rw [List.getElem?_eq_none (by rw [hh.1]; omega), List.getElem?_eq_none (by omega)]

/-- **C91** A switch, such as the one for mono, is on if it is a positive number; a fraction below one counts as zero. -/
theorem switch_on (a : SAtom ℝ) : atomI a > 0 ↔ (∃ i, a = .setting i ∧ 0 < i) ∨ ∃ x, a = .param x ∧ 1 ≤ x := by
  cases a with
  | setting i => simp [atomI]
  | param x =>
    simp only [atomI, asI64, SAtom.param.injEq, exists_eq_left', reduceCtorEq, false_and, exists_false, false_or, gt_iff_lt, lt_max_iff, lt_min_iff]
    by_cases hx : 0 ≤ x
    · rw [if_pos hx, Int.floor_pos]; norm_num
    · rw [if_neg hx]
      have h1 : ⌈x⌉ ≤ 0 := Int.ceil_le.2 (by push_cast; linarith)
      constructor
      · rintro (h | h)
        · norm_num at h
        · omega
      · intro h; linarith
  | _ => simp [atomI]

/-- **C91** Two `Out` nodes are not mixed, contrary to what one expects of two outputs: with constants `x1` and `x2` (the values of their first channels, times their
volumes), neither of them zero, the sum is never heard, but one of the two. -/
theorem outs_not_mixed (hh : Heard G m conf late input l r) {n1 n2 : Node} (hon : OnGrid m n1) (hn1 : n1.Is "out")
    (honly : ∀ n', OnGrid m n' → n'.Is "out" → n' = n1 ∨ n' = n2) (hw : ∀ n', n' = n1 ∨ n' = n2 → NoWire m n' 0 ∧ NoWire m n' 2)
    {t : Nat} (ht : t < input.length) (hlate : ∀ n', n' = n1 ∨ n' = n2 → late n' 0 ≤ t + 1 ∧ late n' 2 ≤ t + 1) {x1 x2 : ℝ}
    (hx1 : x1 = volume G (paramIn T conf n1 2) * paramIn T conf n1 0) (hx2 : x2 = volume G (paramIn T conf n2 2) * paramIn T conf n2 0)
    (h1 : x1 ≠ 0) (h2 : x2 ≠ 0) : (l[t]? = some x1 ∨ l[t]? = some x2) ∧ l[t]? ≠ some (x1 + x2) := by
  obtain ⟨cs, card, nf, f, rec, hf, -, -, hg, hsd, e1, e2, hp⟩ := heard_at hh ht
  obtain ⟨c0, hc0, hcn⟩ := has_call hg hon
  obtain ⟨pre, c, post, hcs, hc, hlast⟩ := last_out ⟨c0, hc0, hcn ▸ hn1⟩
  have hmem : c ∈ cs := by rw [hcs]; simp
  have hcn := honly _ ((hg.nodes _).1 (List.mem_map_of_mem hmem)) hc
  obtain ⟨ch1, ch2, vol, mono, i1, i2, i3⟩ := hsd.out pre c post hcs hc hlast
  have hv : vol f = paramIn T conf c.node 2 :=
    free_value hg hp hmem (by rw [(out_count hc).1]; decide) (hw _ hcn).2 (by rw [i1]; rfl) (hlate _ hcn).2
  have hch : ch1 f = paramIn T conf c.node 0 :=
    free_value hg hp hmem (by rw [(out_count hc).1]; decide) (hw _ hcn).1 (by rw [i1]; rfl) (hlate _ hcn).1
  have hval : l[t]? = some (volume G (paramIn T conf c.node 2) * paramIn T conf c.node 0) := by rw [e1, (i3 f hf).1, hv, hch]
  rcases hcn with hcn | hcn
  · rw [hcn, ← hx1] at hval
    exact ⟨Or.inl hval, by rw [hval]; simpa using h2⟩
  · rw [hcn, ← hx2] at hval
    exact ⟨Or.inr hval, by rw [hval]; simpa using h1⟩

/-- **C91** A signal times itself: two `Inp` nodes, one plugged into `inp` of an `Amp` node, the other into its attenuator, the `Amp` node into the only `Out` node. With
all knobs at their defaults the recording is `x * max x 0`. (What the audio programmer expects of the attenuator at the audio rate; but see `amp_amplifies`.) -/
theorem amp_modulates (hG : G.Ok) (hh : Heard G m conf late input l r) {ea eb eo : HexoDSP.Matrix.Edge Node} (ha : Plug m ea) (hb : Plug m eb) (ho : Plug m eo)
    (hamp : eo.src.Is "amp") (hda : ea.dst = eo.src) (hdb : eb.dst = eo.src) (hout : eo.dst.Is "out") (hsa : ea.src.Is "inp") (hsb : eb.src.Is "inp")
    (hia : ea.dstInput = 0) (hib : eb.dstInput = 2) (hio : eo.dstInput = 0) (hoa : ea.srcOut = 0) (hob : eb.srcOut = 0) (hoo : eo.srcOut = 0)
    (hva : NoWire m ea.src 0) (hvb : NoWire m eb.src 0) (hgain : NoWire m eo.src 1) (hvo : NoWire m eo.dst 2)
    (honly : ∀ n', OnGrid m n' → n'.Is "out" → n' = eo.dst) (hmod : ∀ p, conf.getModamt p = none)
    (hlate : ∀ n i, late n i ≤ 1) (hdef : ∀ n i, paramIn T conf n i = (table G).normDef n i) (hneg : atomI (atomIn T conf eo.src 0) > 0)
    {t : Nat} (ht : t < input.length) : l[t]? = some (input.getD t 0 * max (input.getD t 0) 0) := by
  obtain ⟨cs, c, nf, f, ch1, ch2, vol, rec, card, hf, hg, hsd, hmem, hcn, hin, hr0, -, hp, h1, -⟩ :=
    only_out hh (plug_on ho).2 hout honly hvo ht ((hlate _ _).trans (by omega))
  obtain ⟨a, hac, han⟩ := has_call hg (plug_on ho).1
  obtain ⟨s, hs, hsn⟩ := has_call hg (plug_on ha).1
  obtain ⟨s', hs', hsn'⟩ := has_call hg (plug_on hb).1
  have hcount := amp_count (G := G) hamp
  obtain ⟨x, e1, e2⟩ := through hg ha (by rw [hia, hda, hcount.1]; decide) (by rw [hoa, (inp_count hsa).2]; decide) (hmod _) hac (han.trans hda.symm) hs hsn
  obtain ⟨y, e3, e4⟩ := through hg hb (by rw [hib, hdb, hcount.1]; decide) (by rw [hob, (inp_count hsb).2]; decide) (hmod _) hac (han.trans hdb.symm) hs' hsn'
  obtain ⟨z, e5, e6⟩ := through hg ho (by rw [hio, (out_count hout).1]; decide) (by rw [hoo, hcount.2.2]; decide) (hmod _) hmem hcn hac han
  have hx := inp_out hg hsd hp hs (hsn ▸ hsa) (hsn ▸ hva) ((hlate _ _).trans (by omega)) hf (hoa ▸ e1)
  have hy := inp_out hg hsd hp hs' (hsn' ▸ hsb) (hsn' ▸ hvb) ((hlate _ _).trans (by omega)) hf (hob ▸ e3)
  rw [hdef, hsn, (default_volume hG).2 hsa, hr0, one_mul] at hx
  rw [hdef, hsn', (default_volume hG).2 hsb, hr0, one_mul] at hy
  obtain ⟨i, gn, att, neg, sig, j1, j2, j3, j4⟩ := hsd.amp a hac (han ▸ hamp)
  rw [hio, hin] at e6
  rw [hia, j1] at e2
  rw [hib, j1] at e4
  rw [hoo, j3] at e5
  simp only [List.getElem?_cons_zero, List.getElem?_cons_succ, Option.some.injEq] at e2 e4 e5 e6
  have hgn : gn f = (table G).normDef eo.src 1 := by
    rw [← hdef, ← han]
    exact free_value hg hp hac (by rw [han, hcount.1]; decide) (han ▸ hgain) (by rw [j1]; rfl) ((hlate _ _).trans (by omega))
  have hn : neg = atomIn T conf eo.src 0 := by
    have := hg.atoms a hac 0 (by rw [han, hcount.2.1]; decide)
    rw [j2, han] at this
    simpa using this
  rw [h1, hdef, (default_volume hG).1 hout, one_mul, e6, ← e5, j4 f hf, hn, if_pos hneg, hgn, default_gain hG hamp, e2, e4, hx, hy, mul_one]

/-- **C91** The attenuator attenuates, as its help says, as long as what is plugged into it stays within -1 and 1 (and the gain is at its default). Missing: it is not
so for larger signals, see `amp_amplifies`. -/
theorem amp_attenuates_partial (hG : G.Ok) {nf : Nat} {rec old card : Nat → Block ℝ} {cs : List (Call Node ℝ (SAtom ℝ))} (hsd : Sounds G nf rec old card cs)
    {c : Call Node ℝ (SAtom ℝ)} (hc : c ∈ cs) (hn : c.node.Is "amp") {x gn att y : Block ℝ} (hx : c.inputs[0]? = some x) (hgn : c.inputs[1]? = some gn)
    (hatt : c.inputs[2]? = some att) (hy : c.outputs[0]? = some y) {f : Nat} (hf : f < nf) (hg : gn f = (table G).normDef c.node 1) (ha : |att f| ≤ 1) :
    |y f| ≤ |x f| := by
  obtain ⟨i, g, a, neg, sig, j1, j2, j3, j4⟩ := hsd.amp c hc hn
  rw [j1] at hx hgn hatt
  rw [j3] at hy
  simp only [List.getElem?_cons_zero, List.getElem?_cons_succ, Option.some.injEq] at hx hgn hatt hy
  subst hx hgn hatt hy
  rw [j4 f hf, hg, default_gain hG hn, mul_one, abs_mul]
  refine mul_le_of_le_one_right (abs_nonneg _) ?_
  split
  · rw [abs_of_nonneg (le_max_right _ _)]
    exact max_le ((le_abs_self _).trans ha) zero_le_one
  · rw [abs_abs]; exact ha

end

/-! ## Concrete patches -/

/-- No tracker, no code engine, no other nodes. -/
noncomputable def exE : Env Kind ℝ (SAtom ℝ) Unit Unit Unit Unit where
  norm := fun _ _ v => v
  denorm := fun _ _ v => v
  newPat := ()
  patUnset := fun _ => true
  patRepr := fun _ => ()
  patLoad := fun _ _ => some ()
  newFun := ()
  funUnset := fun _ => true
  funSave := fun _ => ()
  funLoad := fun _ _ => some ()
  isTSeq := fun _ => false
  isCode := fun _ => false
  shP := id
  shA := id
  shS := id

abbrev ExFM := FM Kind ℝ (SAtom ℝ) Unit (Host Unit) Unit Unit
abbrev ExOp := FOp Kind ℝ (SAtom ℝ) Unit Unit Unit Unit

def exOther : Unit → In → Unit × (Nat → Block ℝ) := fun _ _ => ((), fun _ _ => 0)

def amp0 : Node := ⟨⟨0, by decide⟩, 0⟩
def inp0 : Node := ⟨⟨23, by decide⟩, 0⟩
def inp1 : Node := ⟨⟨23, by decide⟩, 1⟩
def out0 : Node := ⟨⟨24, by decide⟩, 0⟩
def out1 : Node := ⟨⟨24, by decide⟩, 1⟩

def exNew : ExFM := FM.new 2 4 ⟨fun _ _ => 0, fun _ _ => 0, ()⟩

instance (s : ExFM) : Decidable (Room s) := inferInstanceAs (Decidable (_ ∧ _))

/-- Placing cells, and knobs of nodes that are not in the engine yet. -/
noncomputable def calm (G : Gain) (s : ExFM) : ExOp → Bool
  | .place _ _ c => decide (∀ n, c.nodeId = some n → n.inst < 256) && [c.out1, c.out2, c.out3, c.in1, c.in2, c.in3].all (fun p => p.getD 0 < 256)
  | .setInput n i _ => !decide (Live (table G) s n i)
  | _ => false

theorem calm_ok {G : Gain} {s : ExFM} {op : ExOp} (h : calm G s op = true) (hand : Hand Kind) : op.Typed ∧ op.Gentle hand ∧ hand.step (table G) s op = hand := by
  cases op with
  | place x y c =>
    simp only [calm, Bool.and_eq_true, decide_eq_true_eq] at h
    refine ⟨⟨h.1, fun p hp i hi => ?_⟩, trivial, rfl⟩
    have := List.all_eq_true.1 h.2 p hp
    simpa [hi] using this
  | setInput n i v =>
    have : ¬ Live (table G) s n i := by simpa [calm] using h
    exact ⟨trivial, trivial, if_neg this⟩
  | _ => cases h

noncomputable def exStep (G : Gain) (s : ExFM) (op : ExOp) : Option ExFM :=
  if calm G s op then (s.step (table G) (.setting 0) (run G exOther) exE op).bind (fun r => if Room r.1 then some r.1 else none) else none

theorem exGo_ok {G : Gain} : ∀ (ops : List ExOp) {s s' : ExFM}, Reach (table G) (.setting 0) (run G exOther) exE Room s →
    Timely (table G) (.setting 0) (run G exOther) exE s Hand.new → ops.foldlM (exStep G) s = some s' →
    Reach (table G) (.setting 0) (run G exOther) exE Room s' ∧ Timely (table G) (.setting 0) (run G exOther) exE s' Hand.new := by
  intro ops
  induction ops with
  | nil => intro s s' h1 h2 h; cases h; exact ⟨h1, h2⟩
  | cons op ops ih =>
    intro s s' h1 h2 h
    rw [List.foldlM_cons] at h
    obtain ⟨x, h3, h4⟩ := Option.bind_eq_some_iff.1 h
    unfold exStep at h3
    split at h3
    · rename_i hc
      obtain ⟨⟨s1, err⟩, h5, h6⟩ := Option.bind_eq_some_iff.1 h3
      split at h6
      · rename_i hr
        cases h6
        obtain ⟨c1, c2, c3⟩ := calm_ok hc Hand.new
        refine ih (.step h1 c1 h5 hr) ?_ h4
        rw [← c3]
        exact .step h2 c1 c2 h5 hr
      · cases h6
    · cases h3

/-- The calls, `sync`, and `test_run_input`. `P` looks at the grid and the configuration that play. -/
noncomputable def exOk (G : Gain) (ops : List ExOp) (input : List ℝ) (P : Matrix Node → Conf Node ℝ (SAtom ℝ) → Bool) : Bool :=
  match ops.foldlM (exStep G) exNew with
  | none => false
  | some s => match s.step (table G) (.setting 0) (run G exOther) exE .sync with
    | some (s0, none) => decide (Room s0) && (testRunInput G exOther (fun _ _ x => x) 441 s0.world input).isSome && P s0.grid s.world.conf
    | _ => false

theorem ex_heard {G : Gain} {ops : List ExOp} {input : List ℝ} {P : Matrix Node → Conf Node ℝ (SAtom ℝ) → Bool} (h : exOk G ops input P = true) :
    ∃ (s s0 : ExFM) (w' : World Node ℝ (SAtom ℝ) Unit (Host Unit)) (l r : List ℝ), Reach (table G) (.setting 0) (run G exOther) exE Room s ∧
      s.step (table G) (.setting 0) (run G exOther) exE .sync = some (s0, none) ∧
      testRunInput G exOther (fun _ _ x => x) 441 s0.world input = some (w', l, r) ∧ P s0.grid s.world.conf = true ∧
      ops.foldlM (exStep G) exNew = some s ∧ (∀ n i, paramIn (table G) s0.world.conf n i = paramIn (table G) s.world.conf n i) ∧
      (∀ n i, atomIn (table G) s0.world.conf n i = atomIn (table G) s.world.conf n i) ∧ (∀ q, s0.world.conf.getModamt q = s.world.conf.getModamt q) ∧
      Heard G s0.grid s0.world.conf (fun _ _ => 0) input l r := by
  unfold exOk at h
  split at h
  · cases h
  · rename_i s hs
    split at h
    · rename_i s0 h0
      simp only [Bool.and_eq_true, decide_eq_true_eq] at h
      obtain ⟨⟨hr, hi⟩, hP⟩ := h
      obtain ⟨⟨w', l, r⟩, hrun⟩ := Option.isSome_iff_exists.1 hi
      obtain ⟨a, b⟩ := exGo_ok ops (.new _ _ _) (.new _ _ _) hs
      have b' : Timely (table G) (.setting 0) (run G exOther) exE s0 Hand.new := .step (op := .sync) b trivial trivial h0 hr
      have hkept : Kept (table G) s.world.conf s0.world.conf := by
        simp only [FM.step] at h0
        obtain ⟨⟨s1, e⟩, h1, h2⟩ := Option.map_eq_some_iff.1 h0
        have := (kept_sync (reach_inv a).grid (reach_inv a).reached h1).1
        simp only [Prod.mk.injEq] at h2
        rwa [h2.1] at this
      refine ⟨s, s0, w', l, r, a, h0, hrun, hP, hs, fun n i => ?_, fun n i => ?_, hkept.amt, ?_⟩
      · unfold paramIn
        cases hx : s.world.conf.getParam (.input n i) with
        | none => rcases hkept.inputDef n i hx with h | h <;> simp [h]
        | some v => rw [hkept.input n i v hx]
      · unfold atomIn
        cases hx : s.world.conf.getParam (.atom n i) with
        | none => rcases hkept.atomDef n i hx with h | h <;> simp [h]
        | some v => rw [hkept.atom n i v hx]
      have := recording a (op := .sync) trivial trivial h0 hr .refl b' ⟨[], by simp [Hand.new, Clock.new]⟩ hrun
      simpa [Hand.new, Clock.new] using this
    · cases h

/-- The nodes on a grid. -/
def nodesOf (m : Matrix Node) : List Node := (HexoDSP.Matrix.positions m.w m.h).filterMap (fun p => (m.get p.1 p.2).bind (·.nodeId))

theorem on_nodesOf {m : Matrix Node} {n : Node} (h : OnGrid m n) : n ∈ nodesOf m := by
  obtain ⟨x, y, c, h1, h2⟩ := h
  refine List.mem_filterMap.2 ⟨(x, y), (HexoDSP.Matrix.mem_positions _ _ _).2 ?_, by simp [h1, h2]⟩
  unfold HexoDSP.Matrix.Matrix.get at h1
  split at h1
  · cases h1
  · simp only; omega

theorem plug_of {m : Matrix Node} {W : List (CellDir.Pos × CellDir × HexoDSP.Matrix.Edge Node)} (hm : HexoDSP.Matrix.allWires m = W) {p : CellDir.Pos} {d : CellDir} {e : HexoDSP.Matrix.Edge Node}
    (h : (p, d, e) ∈ W) (hu : ∀ w ∈ W, w.2.2.dst = e.dst → w.2.2.dstInput = e.dstInput → (w.1, w.2.1) = (p, d)) : Plug m e :=
  ⟨p, d, (HexoDSP.Matrix.mem_allWires (p, d, e)).1 (hm ▸ h), fun p' d' e' h' => hu (p', d', e') (hm ▸ (HexoDSP.Matrix.mem_allWires (p', d', e')).2 h')⟩

theorem noWire_of {m : Matrix Node} {W : List (CellDir.Pos × CellDir × HexoDSP.Matrix.Edge Node)} (hm : HexoDSP.Matrix.allWires m = W) {n : Node} {i : Nat}
    (h : ∀ w ∈ W, ¬ (w.2.2.dst = n ∧ w.2.2.dstInput = i)) : NoWire m n i :=
  fun p d e h' => h (p, d, e) (hm ▸ (HexoDSP.Matrix.mem_allWires (p, d, e)).2 h')

theorem all_default {G : Gain} {conf : Conf Node ℝ (SAtom ℝ)} (hp : conf.paramValues.isEmpty = true) (n : Node) (i : Nat) : paramIn (table G) conf n i = (table G).normDef n i := by
  simp [paramIn, Conf.getParam, List.isEmpty_iff.1 hp]

theorem no_mod {conf : Conf Node ℝ (SAtom ℝ)} (hp : conf.paramModamt.isEmpty = true) (p : ParamId Node) : conf.getModamt p = none := by
  cases p <;> simp [Conf.getModamt, List.isEmpty_iff.1 hp]

/-- `Inp` above `Out`. -/
def exThrough : List ExOp :=
  [.place 0 0 ⟨some inp0, 0, 0, none, none, some 0, none, none, none⟩, .place 0 1 ⟨some out0, 0, 1, none, none, none, some 0, none, none⟩]

def exThroughW : List (CellDir.Pos × CellDir × HexoDSP.Matrix.Edge Node) := [((0, 0), .B, ⟨inp0, 0, out0, 0⟩)]

/-- The hypotheses of `recording` and of `unity` are met: two cells are placed, `sync` is called, and the signal 1, 1/2, 1/3 is played through. -/
example : ∃ (s s0 : ExFM) (w' : World Node ℝ (SAtom ℝ) Unit (Host Unit)) (l r : List ℝ), Reach (table decibel) (.setting 0) (run decibel exOther) exE Room s ∧
    s.step (table decibel) (.setting 0) (run decibel exOther) exE .sync = some (s0, none) ∧
    testRunInput decibel exOther (fun _ _ x => x) 441 s0.world [1, 1 / 2, 1 / 3] = some (w', l, r) ∧ l = [1, 1 / 2, 1 / 3] := by
  obtain ⟨s, s0, w', l, r, h1, h2, h3, h4, -, hpar, -, hamt, h5⟩ := ex_heard (G := decibel) (ops := exThrough) (input := [1, 1 / 2, 1 / 3])
    (P := fun m c => decide (HexoDSP.Matrix.allWires m = exThroughW) && decide (nodesOf m = [inp0, out0]) && c.paramValues.isEmpty && c.paramModamt.isEmpty) (by decide +kernel)
  simp only [Bool.and_eq_true, decide_eq_true_eq] at h4
  obtain ⟨⟨⟨hm, hn⟩, hp⟩, hmod⟩ := h4
  refine ⟨s, s0, w', l, r, h1, h2, h3, unity NormProps.decibel_ok h5 (e := ⟨inp0, 0, out0, 0⟩) (plug_of hm (p := (0, 0)) (d := .B) (by decide) (by decide)) (by decide) rfl (by decide) rfl
    (noWire_of hm (by decide)) (noWire_of hm (by decide)) (fun n' h => ?_) ((hamt _).trans (no_mod hmod _)) (by simp) (by simp)
    ((hpar _ _).trans (all_default hp _ _)) ((hpar _ _).trans (all_default hp _ _))⟩
  have := on_nodesOf h
  rw [hn] at this
  exact (by decide : ∀ n' ∈ [inp0, out0], n'.Is "out" → n' = out0) n' this

/-- Two `Out` nodes, the first channel of one at 1/2, of the other at 1/4. -/
noncomputable def exTwo : List ExOp :=
  [.place 0 0 ⟨some out0, 0, 0, none, none, none, none, none, none⟩, .place 0 1 ⟨some out1, 0, 1, none, none, none, none, none, none⟩,
   .setInput out0 0 (1 / 2), .setInput out1 0 (1 / 4)]

/-- The hypotheses of `outs_not_mixed` are met: 1/2 or 1/4 is heard, and not 3/4. -/
example : ∃ (s s0 : ExFM) (w' : World Node ℝ (SAtom ℝ) Unit (Host Unit)) (l r : List ℝ), Reach (table decibel) (.setting 0) (run decibel exOther) exE Room s ∧
    s.step (table decibel) (.setting 0) (run decibel exOther) exE .sync = some (s0, none) ∧
    testRunInput decibel exOther (fun _ _ x => x) 441 s0.world [0] = some (w', l, r) ∧ (l[0]? = some (1 / 2) ∨ l[0]? = some (1 / 4)) ∧ l[0]? ≠ some (1 / 2 + 1 / 4) := by
  obtain ⟨s, s0, w', l, r, h1, h2, h3, h4, hs, hpar, -, hamt, h5⟩ := ex_heard (G := decibel) (ops := exTwo) (input := [0])
    (P := fun m c => decide (HexoDSP.Matrix.allWires m = []) && decide (nodesOf m = [out0, out1]) && (c.paramValues.lookup (out0, 2)).isNone && (c.paramValues.lookup (out1, 2)).isNone &&
      decide ((m.get 0 0).bind (·.nodeId) = some out0)) (by decide +kernel)
  simp only [Bool.and_eq_true, decide_eq_true_eq, Option.isNone_iff_eq_none] at h4
  obtain ⟨⟨⟨⟨hm, hn⟩, hp0⟩, hp1⟩, hcell⟩ := h4
  have e0 : s.world.conf.paramValues.lookup (out0, 0) = some (1 / 2) := by
    have : (exTwo.foldlM (exStep decibel) exNew).map (fun s => s.world.conf.paramValues.lookup (out0, 0)) = some (some (1 / 2)) := by rfl
    rw [hs] at this
    simpa using this
  have e1 : s.world.conf.paramValues.lookup (out1, 0) = some (1 / 4) := by
    have : (exTwo.foldlM (exStep decibel) exNew).map (fun s => s.world.conf.paramValues.lookup (out1, 0)) = some (some (1 / 4)) := by rfl
    rw [hs] at this
    simpa using this
  obtain ⟨cell, hc1, hc2⟩ := Option.bind_eq_some_iff.1 hcell
  refine ⟨s, s0, w', l, r, h1, h2, h3, outs_not_mixed h5 (n1 := out0) (n2 := out1) ⟨0, 0, cell, hc1, hc2⟩ (by decide) (fun n' h => ?_)
    (fun n' _ => ⟨noWire_of hm (by simp), noWire_of hm (by simp)⟩) (by simp) (by simp) ?_ ?_ (by norm_num) (by norm_num)⟩
  · have := on_nodesOf h
    rw [hn] at this
    exact (by decide : ∀ n' ∈ [out0, out1], n'.Is "out" → n' = out0 ∨ n' = out1) n' this
  · rw [hpar, hpar, paramIn_eq, paramIn_eq, e0, hp0, Option.getD_none, (default_volume NormProps.decibel_ok).1 (by decide)]
    simp
  · rw [hpar, hpar, paramIn_eq, paramIn_eq, e1, hp1, Option.getD_none, (default_volume NormProps.decibel_ok).1 (by decide)]
    simp

/-- `Inp(0)` above `Amp`, `Inp(1)` to the left of it, plugged into the attenuator; `Out` below. -/
def exAmp : List ExOp :=
  [.place 1 0 ⟨some inp0, 1, 0, none, none, some 0, none, none, none⟩, .place 0 1 ⟨some inp1, 0, 1, none, some 0, none, none, none, none⟩,
   .place 1 1 ⟨some amp0, 1, 1, none, none, some 0, some 0, some 2, none⟩, .place 1 2 ⟨some out0, 1, 2, none, none, none, some 0, none, none⟩]

def exAmpW : List (CellDir.Pos × CellDir × HexoDSP.Matrix.Edge Node) :=
  [((1, 0), .B, ⟨inp0, 0, amp0, 0⟩), ((0, 1), .BR, ⟨inp1, 0, amp0, 2⟩), ((1, 1), .B, ⟨amp0, 0, out0, 0⟩)]

/-- **C91** (negation) The attenuator of `Amp` amplifies, although its help says that it does not: the signal 2 at both inputs, with all knobs at their defaults, comes
out as 4. -/
theorem amp_amplifies : ∃ (s s0 : ExFM) (w' : World Node ℝ (SAtom ℝ) Unit (Host Unit)) (l r : List ℝ), Reach (table decibel) (.setting 0) (run decibel exOther) exE Room s ∧
    s.step (table decibel) (.setting 0) (run decibel exOther) exE .sync = some (s0, none) ∧ HexoDSP.Matrix.allWires s0.grid = exAmpW ∧ s.world.conf.paramValues = [] ∧
    testRunInput decibel exOther (fun _ _ x => x) 441 s0.world [2] = some (w', l, r) ∧ l[0]? = some 4 := by
  obtain ⟨s, s0, w', l, r, h1, h2, h3, h4, -, hpar, hatom, hamt, h5⟩ := ex_heard (G := decibel) (ops := exAmp) (input := [2])
    (P := fun m c => decide (HexoDSP.Matrix.allWires m = exAmpW) && decide (nodesOf m = [inp1, inp0, amp0, out0]) && c.paramValues.isEmpty && c.paramModamt.isEmpty &&
      c.atomValues.isEmpty) (by decide +kernel)
  simp only [Bool.and_eq_true, decide_eq_true_eq] at h4
  obtain ⟨⟨⟨⟨hm, hn⟩, hp⟩, hmod⟩, hat⟩ := h4
  refine ⟨s, s0, w', l, r, h1, h2, hm, List.isEmpty_iff.1 hp, h3, ?_⟩
  have hneg : atomI (atomIn (table decibel) s0.world.conf amp0 0) > 0 := by
    rw [hatom, atomIn_eq, List.isEmpty_iff.1 hat]
    show atomI (atomOf (.setting 1)) > 0
    decide
  have := amp_modulates NormProps.decibel_ok h5 (ea := ⟨inp0, 0, amp0, 0⟩) (eb := ⟨inp1, 0, amp0, 2⟩) (eo := ⟨amp0, 0, out0, 0⟩)
    (plug_of hm (p := (1, 0)) (d := .B) (by decide) (by decide)) (plug_of hm (p := (0, 1)) (d := .BR) (by decide) (by decide))
    (plug_of hm (p := (1, 1)) (d := .B) (by decide) (by decide)) (by decide) rfl rfl (by decide) (by decide) (by decide) rfl rfl rfl rfl rfl rfl
    (noWire_of hm (by decide)) (noWire_of hm (by decide)) (noWire_of hm (by decide)) (noWire_of hm (by decide))
    (fun n' h => (by decide : ∀ n' ∈ [inp1, inp0, amp0, out0], n'.Is "out" → n' = out0) n' (hn ▸ on_nodesOf h)) (fun q => (hamt q).trans (no_mod hmod q)) (by simp)
    (fun n i => (hpar n i).trans (all_default hp n i)) hneg (t := 0) (by simp)
  rw [this]
  norm_num

end HexoDSP.IoProps
