import Verif.Lemmas.Isolate
import Verif.Props.Ride
/-!
# What does not lead into a node cannot be heard in it (C122)

One works on one corner of a patch while another corner plays. What a node sounds like must depend only on the nodes that lead into it:
patches with quite different histories in which these nodes were treated alike sound the same there.
-/

set_option linter.unusedSectionVars false

namespace HexoDSP.IsolateProps
open HexoDSP.Engine HexoDSP.EngineSpec HexoDSP.NodeConfProps HexoDSP.FlowProps HexoDSP.ParamProps HexoDSP.CutProps HexoDSP.RideProps HexoDSP.Isolate

variable {N V A M S : Type} [DecidableEq N]
variable [Add V] [Mul V] [Sub V] [Div V] [NatCast V] [OfNat V 0]
variable {T : NodeTable N V A} {a0 : A} {K : FrameNodes N V A S} {U : N → Prop}

/-- **C122** Two engines, after any two gentle histories, whose patches have the part `U` in common, with the same ways before its parameters and
its nodes in the same states: for the next frames, however they are cut into blocks, every output of every node of the part gives the same
samples in both, and the nodes end in the same states. -/
theorem upstream_decides_partial (hT : ∀ n, T.inCount n ≤ 32) (hB : Blind K U) {w w1 v v1 : World N V A M (N → S)} {t s : Track N V A} {k j : Clock N}
    {r q : Ride N V} (hw : Ridden T a0 (frameRun K) w t k r) (hv : Ridden T a0 (frameRun K) v s j q) (hU : SamePart T t.now s.now U)
    (hr : SameWay T r q U) (hst : ∀ n, U n → w.st n = v.st n) {rs rs' : List (Nat × BlockResult N V A)}
    (hc1 : Cut T a0 (frameRun K) w rs w1) (hc2 : Cut T a0 (frameRun K) v rs' v1) (hlen : total rs = total rs') :
    (∀ n, U n → ∀ i, i < T.outCount n → heard n i rs = heard n i rs') ∧ ∀ n, U n → w1.st n = v1.st n := by
  obtain ⟨⟨le, lc, hsim, _⟩, _, _⟩ := timed_tsim hT (ridden_timed hw)
  obtain ⟨Z, X, s1, s2, s3, _⟩ := knob_sounds hT hw hc1
  obtain ⟨Z', X', s1', s2', s3', _⟩ := knob_sounds hT hv hc2
  rw [← hlen] at s1'
  obtain ⟨u1, u2⟩ := sounds_part hU hB hsim.1.carries.nodup hsim.1.carries.before (fun n hn i hi f => by rw [hr n hn i hi]) hst s1 s1'
  refine ⟨fun n hn i hi => ?_, fun n hn => ?_⟩
  · funext f
    by_cases hf : f < total rs
    · rw [s2 n (hU.here n hn) i hi f hf, s2' n (hU.there n hn) i hi f (by omega), u2 f hf n hn i hi]
    · rw [heard_none n i rs f (by omega), heard_none n i rs' f (by omega)]
  · rw [s3 n (hU.here n hn), s3' n (hU.there n hn), ← hlen]
    exact u1 _ (Nat.le_refl _) n hn

/-- **C122** Parameters at rest have the same ways before them. -/
theorem rest_same_way (hT : ∀ n, T.inCount n ≤ 32) {σ : Type} {run : σ → CallIn N V A → σ × (Nat → Block V)} {w v : World N V A M σ}
    {t s : Track N V A} {k j : Clock N} {r q : Ride N V} (hw : Ridden T a0 run w t k r) (hv : Ridden T a0 run v s j q)
    (hU : SamePart T t.now s.now U) (ha : AtRest T t.now s.now k j U) : SameWay T r q U := by
  intro n hn i hi
  funext f
  rw [knob_arrives hT hw (hU.here n hn) hi (by rw [ha.here n hn i hi]; omega), knob_arrives hT hv (hU.there n hn) hi (by rw [ha.there n hn i hi]; omega),
    ha.param n hn i hi]

/-- **C122** Two engines in which the parameters of the part have the same ways, and are at the same places: if a parameter is turned to the same value
in both, with the same number of frames for a change, they have the same ways again. -/
theorem turn_same_way {k j : Clock N} {r q : Ride N V} (hr : SameWay T r q U) (hh : ∀ n, U n → ∀ i, i < T.inCount n → r.here n i = q.here n i)
    (hs : k.slope = j.slope) {n : N} {i : Nat} (hn : U n) (hi : i < T.inCount n) (v : V) :
    SameWay T (r.take k (.param n i v : Update N V A)) (q.take j (.param n i v : Update N V A)) U := by
  intro m hm l hl
  show (if m = n ∧ l = i then line (r.here n i) v k.slope else r.way m l) = if m = n ∧ l = i then line (q.here n i) v j.slope else q.way m l
  rw [hh n hn i hi, hs, hr m hm l hl]

/-- **C122** If parameters have the same ways then after the same number of frames, at least one, they are at the same places and still have the
same ways, however the frames are cut into blocks. -/
theorem blocks_same_way {r q : Ride N V} (hr : SameWay T r q U) {rs rs' : List (Nat × BlockResult N V A)} (hlen : total rs = total rs') (hp : 0 < total rs)
    (h1 : ∀ b ∈ rs, 0 < b.1) (h2 : ∀ b ∈ rs', 0 < b.1) :
    SameWay T (r.over rs) (q.over rs') U ∧ ∀ n, U n → ∀ i, i < T.inCount n → (r.over rs).here n i = (q.over rs').here n i := by
  have key : ∀ (rs : List (Nat × BlockResult N V A)) (r : Ride N V), (∀ b ∈ rs, 0 < b.1) →
      (r.over rs).way = (fun n i f => r.way n i (f + total rs)) ∧ (0 < total rs → (r.over rs).here = fun n i => r.way n i (total rs - 1)) := by
    intro rs
    induction rs with
    | nil => exact fun r _ => ⟨rfl, fun h => absurd h (Nat.lt_irrefl 0)⟩
    | cons b bs ih =>
      intro r hb
      obtain ⟨i1, i2⟩ := ih { way := fun n i f => r.way n i (f + b.1), here := fun n i => r.way n i (b.1 - 1) } (fun x hx => hb x (List.mem_cons_of_mem _ hx))
      have hb0 := hb b List.mem_cons_self
      have ht : total (b :: bs) = b.1 + total bs := rfl
      refine ⟨?_, fun _ => ?_⟩
      · show (Ride.over _ bs).way = _
        rw [i1, ht]
        funext n i f
        show r.way n i (f + total bs + b.1) = _
        congr 1
        omega
      · show (Ride.over _ bs).here = _
        by_cases h0 : 0 < total bs
        · rw [i2 h0, ht]
          funext n i
          show r.way n i (total bs - 1 + b.1) = _
          congr 1
          omega
        · have hbs : bs = [] := by
            cases bs with
            | nil => rfl
            | cons x xs =>
              have := hb x (by simp)
              exact absurd (show 0 < total (x :: xs) from by show 0 < x.1 + total xs; omega) h0
          subst hbs
          rw [ht]
          rfl
  obtain ⟨a1, a2⟩ := key rs r h1
  obtain ⟨b1, b2⟩ := key rs' q h2
  refine ⟨fun n hn i hi => ?_, fun n hn i hi => ?_⟩
  · rw [a1, b1, hlen]
    funext f
    show r.way n i _ = q.way n i _
    rw [hr n hn i hi]
  · rw [a2 hp, b2 (by omega), hlen]
    show r.way n i _ = q.way n i _
    rw [hr n hn i hi]

/-- Blocks played without a node leave its state. -/
theorem cut_without (hT : ∀ n, T.inCount n ≤ 32) {w w1 : World N V A M (N → S)} {t : Track N V A} {k : Clock N} (hw : Timed T a0 (frameRun K) w t k)
    {rs : List (Nat × BlockResult N V A)} (hc : Cut T a0 (frameRun K) w rs w1) {n : N} (hn : n ∉ t.now.order) : w1.st n = w.st n := by
  obtain ⟨par, _, p2⟩ := frame_by_frame_partial hT hw
  obtain ⟨_, _, _, _, _, h⟩ := p2 rs w1 hc
  exact h n hn

theorem send_st (w : World N V A M (N → S)) (m : Msg N V A M) : (w.send m).st = w.st := by unfold World.send; split <;> rfl

theorem sendAll_st (ms : List (Msg N V A M)) : ∀ w : World N V A M (N → S), (w.sendAll ms).st = w.st := by
  induction ms with
  | nil => exact fun _ => rfl
  | cons m ms ih => exact fun w => (ih (w.send m)).trans (send_st w m)

/-- Calls other than blocks leave the states of the nodes. -/
theorem step_st {w w' : World N V A M (N → S)} {op : EOp N V A M} {out : Option (BlockResult N V A)} (hop : ∀ nf, op ≠ .process nf)
    (h : w.step T a0 (frameRun K) op = some (w', out)) : w'.st = w.st := by
  cases op with
  | process nf => exact absurd rfl (hop nf)
  | createNode n => simp only [World.step, Option.some.injEq, Prod.mk.injEq] at h; rw [← h.1]
  | setSlope n => simp only [World.step, Option.some.injEq, Prod.mk.injEq] at h; rw [← h.1]
  | deleteNodes => simp only [World.step, Option.some.injEq, Prod.mk.injEq] at h; rw [← h.1, sendAll_st]
  | setInput n i v => simp only [World.step, Option.some.injEq, Prod.mk.injEq] at h; rw [← h.1, sendAll_st]
  | setAtom n i v => simp only [World.step, Option.some.injEq, Prod.mk.injEq] at h; rw [← h.1, sendAll_st]
  | setModamt p v => simp only [World.step, Option.some.injEq, Prod.mk.injEq] at h; rw [← h.1, sendAll_st]
  | monitor n a b => simp only [World.step, Option.some.injEq, Prod.mk.injEq] at h; rw [← h.1, sendAll_st]
  | injectMidi e => simp only [World.step, Option.some.injEq, Prod.mk.injEq] at h; rw [← h.1, send_st]
  | sync o es c =>
    simp only [World.step] at h
    obtain ⟨r, _, he⟩ := Option.map_eq_some_iff.1 h
    simp only [Prod.mk.injEq] at he
    rw [← he.1, send_st]
  | poll =>
    simp only [World.step] at h
    obtain ⟨r, _, he⟩ := Option.map_eq_some_iff.1 h
    simp only [Prod.mk.injEq] at he
    rw [← he.1]
  | dropOne =>
    simp only [World.step] at h
    split at h <;> (simp only [Option.some.injEq, Prod.mk.injEq] at h; rw [← h.1])

theorem beside_ridden (hT : ∀ n, T.inCount n ≤ 32) (hB : Blind K U) {w v : World N V A M (N → S)} {t s : Track N V A} {k j : Clock N}
    {r q : Ride N V} (h : Beside T a0 K U w t k r v s j q) :
    Ridden T a0 (frameRun K) w t k r ∧ Ridden T a0 (frameRun K) v s j q ∧ ∀ n, U n → w.st n = v.st n := by
  induction h with
  | new st st' h => exact ⟨.new st, .new st', h⟩
  | left _ hop hg hs ih => exact ⟨.call ih.1 hg hs, ih.2.1, fun n hn => by rw [step_st hop hs]; exact ih.2.2 n hn⟩
  | right _ hop hg hs ih => exact ⟨ih.1, .call ih.2.1 hg hs, fun n hn => by rw [step_st hop hs]; exact ih.2.2 n hn⟩
  | leftAlone _ ho hc ih =>
    exact ⟨ridden_cut hc _ _ ih.1, ih.2.1, fun n hn => by rw [cut_without hT (ridden_timed ih.1) hc (ho n hn)]; exact ih.2.2 n hn⟩
  | rightAlone _ ho hc ih =>
    exact ⟨ih.1, ridden_cut hc _ _ ih.2.1, fun n hn => by rw [cut_without hT (ridden_timed ih.2.1) hc (ho n hn)]; exact ih.2.2 n hn⟩
  | together _ hU hr hc hc' hlen ih =>
    exact ⟨ridden_cut hc _ _ ih.1, ridden_cut hc' _ _ ih.2.1, (upstream_decides_partial hT hB ih.1 ih.2.1 hU hr ih.2.2 hc hc' hlen).2⟩
  | outside st st' h _ ih => exact ⟨.outside st ih.1, .outside st' ih.2.1, h⟩

/-- **C122** Two histories of any length in which the part `U` was treated alike: whatever else was created, set, connected, deleted or played, in
the next frames the part sounds the same in both. -/
theorem histories_agree_partial (hT : ∀ n, T.inCount n ≤ 32) (hB : Blind K U) {w w1 v v1 : World N V A M (N → S)} {t s : Track N V A} {k j : Clock N}
    {r q : Ride N V} (h : Beside T a0 K U w t k r v s j q) (hU : SamePart T t.now s.now U) (hr : SameWay T r q U)
    {rs rs' : List (Nat × BlockResult N V A)} (hc1 : Cut T a0 (frameRun K) w rs w1) (hc2 : Cut T a0 (frameRun K) v rs' v1)
    (hlen : total rs = total rs') :
    (∀ n, U n → ∀ i, i < T.outCount n → heard n i rs = heard n i rs') ∧ ∀ n, U n → w1.st n = v1.st n :=
  have ⟨h1, h2, h3⟩ := beside_ridden hT hB h
  upstream_decides_partial hT hB h1 h2 hU hr h3 hc1 hc2 hlen

/-! ### A concrete pair of histories -/

/-- No parameter moves or is about to. -/
def Quiet (t : Track N V A) (k : Clock N) : Prop := ∀ n i, k.left n i = 0 ∧ k.hot n i = false ∧ ∀ v, Update.param n i v ∉ t.pending

theorem take_quiet (us : List (Update N V A)) : ∀ k : Clock N, (∀ n i, k.left n i = 0 ∧ k.hot n i = false ∧ ∀ v, Update.param n i v ∉ us) →
    ∀ n i, (us.foldl Clock.take k).left n i = 0 ∧ (us.foldl Clock.take k).hot n i = false := by
  induction us with
  | nil => exact fun k h n i => ⟨(h n i).1, (h n i).2.1⟩
  | cons u us ih =>
    intro k h
    refine ih _ (fun n i => ?_)
    obtain ⟨h1, h2, h3⟩ := h n i
    refine ⟨?_, ?_, fun v hv => h3 v (List.mem_cons_of_mem _ hv)⟩ <;>
    · cases u with
      | param m j v => exact absurd List.mem_cons_self ((h m j).2.2 v)
      | _ => assumption

theorem quiet_step {c : Conf N V A} {t : Track N V A} {k : Clock N} {op : EOp N V A M} (h : Quiet t k) (hop : ∀ n i v, op ≠ .setInput n i v) :
    Quiet (t.step T c op) (k.step t.pending op) := by
  have hp : ∀ n i v, Update.param n i v ∉ t.pending ++ asks T c op := by
    intro n i v hm
    rcases List.mem_append.1 hm with hm | hm
    · exact (h n i).2.2 v hm
    · exact hop _ _ _ (asks_param hm)
  cases op with
  | poll => exact fun n i => ⟨(take_quiet t.pending k h n i).1, (take_quiet t.pending k h n i).2, fun v hv => by cases hv⟩
  | process m =>
    refine fun n i => ⟨?_, ?_, hp n i⟩
    · show k.left n i - m = 0
      rw [(h n i).1, Nat.zero_sub]
    · show decide (0 < k.left n i) = false
      rw [(h n i).1]; rfl
  | _ => exact fun n i => ⟨(h n i).1, (h n i).2.1, hp n i⟩

theorem quiet_new : Quiet (Track.new T) (Clock.new : Clock N) := fun _ _ => ⟨rfl, rfl, fun _ h => by cases h⟩

theorem quiet_covers {t : Track N V A} {k : Clock N} (h : Quiet t k) : Covers t k [] := by
  rintro n i (hh | hh | ⟨v, hh⟩)
  · rw [(h n i).1] at hh; omega
  · rw [(h n i).2.1] at hh; cases hh
  · exact absurd hh ((h n i).2.2 v)

theorem quiet_over {t : Track N V A} (rs : List (Nat × BlockResult N V A)) : ∀ k : Clock N, Quiet t k → Quiet t (k.over (M := M) rs) := by
  induction rs with
  | nil => exact fun _ h => h
  | cons b bs ih =>
    intro k h
    refine ih _ (fun n i => ⟨?_, ?_, (h n i).2.2⟩)
    · show k.left n i - b.1 = 0
      rw [(h n i).1, Nat.zero_sub]
    · show decide (0 < k.left n i) = false
      rw [(h n i).1]; rfl

/-- A call that is neither a block nor a new parameter value. -/
def plain : EOp N V A M → Bool
  | .process _ => false
  | .setInput .. => false
  | _ => true

theorem beside_left {w v : World N V A M (N → S)} {t s : Track N V A} {k j : Clock N} {q : Ride N V} (h : ∃ r, Beside T a0 K U w t k r v s j q)
    (hq : Quiet t k) (ops : List (EOp N V A M)) (ho : ops.all plain = true) {x : World N V A M (N → S) × Track N V A × Clock N × List (N × Nat)}
    (hx : timedRun T a0 (frameRun K) (w, t, k, []) ops = some x) : (∃ r, Beside T a0 K U x.1 x.2.1 x.2.2.1 r v s j q) ∧ Quiet x.2.1 x.2.2.1 := by
  refine gentle_run (P := fun w t k => (∃ r, Beside T a0 K U w t k r v s j q) ∧ Quiet t k) ops (fun op hm w w' t k out hp hg hs => ?_) _ x ⟨h, hq⟩
    (quiet_covers hq) hx
  have hpl := List.all_eq_true.1 ho op hm
  obtain ⟨⟨r, hb⟩, hq⟩ := hp
  exact ⟨⟨_, .left hb (fun nf he => by subst he; cases hpl) hg hs⟩, quiet_step hq (fun n i v he => by subst he; cases hpl)⟩

theorem beside_right {w v : World N V A M (N → S)} {t s : Track N V A} {k j : Clock N} {r : Ride N V} (h : ∃ q, Beside T a0 K U w t k r v s j q)
    (hq : Quiet s j) (ops : List (EOp N V A M)) (ho : ops.all plain = true) {x : World N V A M (N → S) × Track N V A × Clock N × List (N × Nat)}
    (hx : timedRun T a0 (frameRun K) (v, s, j, []) ops = some x) : (∃ q, Beside T a0 K U w t k r x.1 x.2.1 x.2.2.1 q) ∧ Quiet x.2.1 x.2.2.1 := by
  refine gentle_run (P := fun v s j => (∃ q, Beside T a0 K U w t k r v s j q) ∧ Quiet s j) ops (fun op hm w w' t k out hp hg hs => ?_) _ x ⟨h, hq⟩
    (quiet_covers hq) hx
  have hpl := List.all_eq_true.1 ho op hm
  obtain ⟨⟨q, hb⟩, hq⟩ := hp
  exact ⟨⟨_, .right hb (fun nf he => by subst he; cases hpl) hg hs⟩, quiet_step hq (fun n i v he => by subst he; cases hpl)⟩

def exOpsL : List (EOp Nat Int Nat Unit) := [.createNode 0, .createNode 1, .sync [0, 1] [⟨1, 0, 0, 0⟩] false, .poll]

/-- The left engine: node 0 leads to node 1. -/
def exL : World Nat Int Nat Unit (Nat → Int) × Track Nat Int Nat × Clock Nat × List (Nat × Nat) :=
  (timedRun exT 0 (frameRun exK) (World.new (fun _ => 0), Track.new exT, Clock.new, []) exOpsL).get (by decide +kernel)

def exOpsR0 : List (EOp Nat Int Nat Unit) := [.createNode 3, .sync [3] [] false, .poll]

/-- The right engine: first node 3 plays alone for five frames … -/
def exR0 : World Nat Int Nat Unit (Nat → Int) × Track Nat Int Nat × Clock Nat × List (Nat × Nat) :=
  (timedRun exT 0 (frameRun exK) (World.new (fun _ => 0), Track.new exT, Clock.new, []) exOpsR0).get (by decide +kernel)

def exR1 : List (Nat × BlockResult Nat Int Nat) × World Nat Int Nat Unit (Nat → Int) :=
  (cutRun exT 0 (frameRun exK) exR0.1 [2, 3]).get (by decide +kernel)

def exOpsR : List (EOp Nat Int Nat Unit) :=
  [.createNode 1, .createNode 0, .createNode 2, .sync [3, 0, 1, 2] [⟨2, 0, 1, 0⟩, ⟨1, 0, 0, 0⟩, ⟨2, 1, 3, 0⟩] true, .poll]

/-- … then nodes 0 and 1 are there as well, and node 2, which listens to nodes 1 and 3. -/
def exR : World Nat Int Nat Unit (Nat → Int) × Track Nat Int Nat × Clock Nat × List (Nat × Nat) :=
  (timedRun exT 0 (frameRun exK) (exR1.2, exR0.2.1, exR0.2.2.1.over (M := Unit) exR1.1, []) exOpsR).get (by decide +kernel)

def exU (n : Nat) : Prop := n = 0 ∨ n = 1

theorem exSmall (n : Nat) : exT.inCount n ≤ 32 := by
  show (if n = 0 then 2 else 3) ≤ 32
  split <;> decide

theorem exBlind : Blind exK exU := fun _ _ _ _ _ => rfl

theorem exBeside : ∃ r q, Beside exT 0 exK exU exL.1 exL.2.1 exL.2.2.1 r exR.1 exR.2.1 exR.2.2.1 q ∧ Quiet exL.2.1 exL.2.2.1 ∧
    Quiet exR.2.1 exR.2.2.1 := by
  have h0 : Beside (M := Unit) exT 0 exK exU (World.new (fun _ => 0)) (Track.new exT) Clock.new (Ride.new exT) (World.new (fun _ => 0)) (Track.new exT)
      Clock.new (Ride.new exT) := .new _ _ (fun _ _ => rfl)
  obtain ⟨⟨r, h1⟩, q1⟩ := beside_left ⟨_, h0⟩ quiet_new exOpsL (by decide) (x := exL) (Option.some_get _).symm
  obtain ⟨⟨q, h2⟩, q2⟩ := beside_right ⟨_, h1⟩ quiet_new exOpsR0 (by decide) (x := exR0) (Option.some_get _).symm
  have hq : cutRun exT 0 (frameRun exK) exR0.1 [2, 3] = some (exR1.1, exR1.2) :=
    (Option.some_get (show (cutRun exT 0 (frameRun exK) exR0.1 [2, 3]).isSome = true by decide +kernel)).symm
  have ho : exR0.2.1.now.order = [3] := by decide +kernel
  have h3 := Beside.rightAlone h2 (fun n hn => by rw [ho]; rcases hn with rfl | rfl <;> decide) (cut_of_run _ _ _ _ hq)
  obtain ⟨⟨q', h4⟩, q4⟩ := beside_right ⟨_, h3⟩ (quiet_over _ _ q2) exOpsR (by decide) (x := exR) (Option.some_get _).symm
  exact ⟨r, q', h4, q1, q4⟩

theorem exSame : SamePart exT exL.2.1.now exR.2.1.now exU := by
  have hlw : exL.2.1.now.wires = [⟨1, 0, 0, 0⟩] := by decide +kernel
  refine ⟨?_, ?_, ?_, fun e he hd => ?_, ?_, ?_⟩
  · rintro n (rfl | rfl) <;> decide +kernel
  · rintro n (rfl | rfl) <;> decide +kernel
  · rintro n (rfl | rfl) <;> decide +kernel
  · rw [hlw, List.mem_singleton] at he
    rw [he]; exact .inl rfl
  · have : ∀ n, n < 2 → ∀ i, i < exT.inCount n → exL.2.1.now.amt n i = exR.2.1.now.amt n i := by decide +kernel
    exact fun n hn => this n (by rcases hn with rfl | rfl <;> decide)
  · have : ∀ n, n < 2 → ∀ i, i < exT.atCount n → exL.2.1.now.atom n i = exR.2.1.now.atom n i := by decide +kernel
    exact fun n hn => this n (by rcases hn with rfl | rfl <;> decide)

theorem exRest (hl : Quiet exL.2.1 exL.2.2.1) (hr : Quiet exR.2.1 exR.2.2.1) :
    AtRest exT exL.2.1.now exR.2.1.now exL.2.2.1 exR.2.2.1 exU := by
  have : ∀ n, n < 2 → ∀ i, i < exT.inCount n → exL.2.1.now.param n i = exR.2.1.now.param n i := by decide +kernel
  exact ⟨fun n _ i _ => (hl n i).1, fun n _ i _ => (hr n i).1, fun n hn => this n (by rcases hn with rfl | rfl <;> decide)⟩

/-- The first frames of output 0 of a node. -/
def exSamples (w : World Nat Int Nat Unit (Nat → Int)) (ns : List Nat) (n : Nat) : Option (List (Option Int)) :=
  (cutRun exT 0 (frameRun exK) w ns).map (fun x => [heard n 0 x.1 0, heard n 0 x.1 1, heard n 0 x.1 2])

/-- The hypotheses are met; both engines play on, and node 1 is not silent. -/
example : ∃ r q, Beside exT 0 exK exU exL.1 exL.2.1 exL.2.2.1 r exR.1 exR.2.1 exR.2.2.1 q ∧ SamePart exT exL.2.1.now exR.2.1.now exU ∧
    SameWay exT r q exU ∧ Blind exK exU ∧ (∃ n, n ∈ exR.2.1.now.order ∧ n ∉ exL.2.1.now.order) ∧
    exSamples exL.1 [3] 1 = exSamples exR.1 [2, 1] 1 ∧ exSamples exL.1 [3] 1 = some [some 424, some 1049, some 1875] := by
  obtain ⟨r, q, h, hl, hr⟩ := exBeside
  obtain ⟨h1, h2, _⟩ := beside_ridden exSmall exBlind h
  exact ⟨r, q, h, exSame, rest_same_way exSmall h1 h2 exSame (exRest hl hr), exBlind, ⟨3, by decide +kernel⟩, by decide +kernel, by decide +kernel⟩

/-- Node 0 alone, and node 0 beside node 1, with the same knob turned. -/
def exBoth (ns : List Nat) : List (EOp Nat Int Nat Unit) :=
  [.setSlope 8, .createNode 0, .createNode 1, .sync ns [] false, .poll, .process 1, .setInput 0 0 900, .poll, .process 2]

def exBothR (ns : List Nat) : Option (Ride Nat Int) :=
  rideRun exT 0 (frameRun exK) (World.new (fun _ => 0), Track.new exT, Clock.new, Ride.new exT) (exBoth ns)

def exBoth0 : Ride Nat Int := (exBothR [0]).get (by decide +kernel)
def exBoth1 : Ride Nat Int := (exBothR [1, 0]).get (by decide +kernel)

/-- Parameters may also be on their ways: the one of node 0 is, in both. -/
example : SameWay exT exBoth0 exBoth1 (fun n => n = 0) ∧ exBoth0.way 0 0 0 = 400 ∧ exBoth0.way 0 0 1 = 500 := by
  refine ⟨?_, by decide +kernel, by decide +kernel⟩
  rintro n rfl i hi
  funext f
  rcases i with _ | _ | i
  · rfl
  · rfl
  · exact absurd hi (by show ¬ (i + 2 < 2); omega)

/-! ### Where the full statement fails -/

/-- A node plays and its first parameter is on its way from 100 to 900. Something happens. Then it is set to 500. -/
def exMeanwhile (x : List (EOp Nat Int Nat Unit)) : List (EOp Nat Int Nat Unit) :=
  [.setSlope 8, .createNode 0, .sync [0] [] false, .poll, .process 1, .setInput 0 0 900, .poll, .process 2] ++ x ++ [.setInput 0 0 500, .poll]

/-- An unconnected node is added. -/
def exElsewhere : List (EOp Nat Int Nat Unit) := [.createNode 1, .sync [0, 1] [] true, .poll]

def exMid (x : List (EOp Nat Int Nat Unit)) : Option (World Nat Int Nat Unit (Nat → Int) × Track Nat Int Nat × Clock Nat × List (Nat × Nat)) :=
  timedRun exT 0 (frameRun exK) (World.new (fun _ => 0), Track.new exT, Clock.new, []) (exMeanwhile x)

def exMid0 : World Nat Int Nat Unit (Nat → Int) × Track Nat Int Nat × Clock Nat × List (Nat × Nat) := (exMid []).get (by decide +kernel)

def exMid1 : World Nat Int Nat Unit (Nat → Int) × Track Nat Int Nat × Clock Nat × List (Nat × Nat) := (exMid exElsewhere).get (by decide +kernel)

/-- The first parameter of node 0 in the next three frames. -/
def exKnob (w : World Nat Int Nat Unit (Nat → Int)) : Option (List (List Int)) :=
  ((w.step exT 0 (frameRun exK) (.process 3)).bind (fun x => x.2)).map (fun r =>
    (r.calls.filter (fun c => c.node = 0)).map (fun c => (c.params.map (fun b => [b 0, b 1, b 2])).headD []))

/-- **C122** (negation) Adding an unconnected node is heard in another node. The two histories are the same but for the three calls that
add node 1. The part with node 0 alone is the same in both, in the same state, with the same time left until its parameter has arrived;
but its parameter, which was at 300 on its way to 900 when it was set to 500, goes on from 300 in one history and jumps to 850 in the other. -/
theorem elsewhere_heard :
    Timed exT 0 (frameRun exK) exMid0.1 exMid0.2.1 exMid0.2.2.1 ∧ Timed exT 0 (frameRun exK) exMid1.1 exMid1.2.1 exMid1.2.2.1 ∧
    exMid0.1.st 0 = exMid1.1.st 0 ∧ exMid0.2.1.now.param 0 0 = 500 ∧ exMid1.2.1.now.param 0 0 = 500 ∧
    exMid0.2.1.now.order = [0] ∧ exMid1.2.1.now.order = [0, 1] ∧ exMid0.2.1.now.wires = [] ∧ exMid1.2.1.now.wires = [] ∧
    (∀ i, i < 2 → exMid0.2.2.1.left 0 i = exMid1.2.2.1.left 0 i) ∧
    exKnob exMid0.1 = some [[325, 350, 375]] ∧ exKnob exMid1.1 = some [[850, 800, 750]] ∧
    exSamples exMid0.1 [3] 0 ≠ exSamples exMid1.1 [3] 0 :=
  ⟨timed_of_run _ _ _ (.new _) (quiet_covers quiet_new) (Option.some_get (show (exMid []).isSome = true by decide +kernel)).symm,
    timed_of_run _ _ _ (.new _) (quiet_covers quiet_new) (Option.some_get (show (exMid exElsewhere).isSome = true by decide +kernel)).symm,
    by decide +kernel, by decide +kernel, by decide +kernel, by decide +kernel, by decide +kernel, by decide +kernel, by decide +kernel,
    by decide +kernel, by decide +kernel, by decide +kernel, by decide +kernel⟩

/-- A node like the last output of the test node (`src/dsp/node_test.rs:123`): it gives the flags of its outputs. -/
def flagK : FrameNodes Nat Int Nat Int := fun _ s fi => (s, fun _ => fi.outConnected)

def exF (es : List (Conn Nat)) : Option (World Nat Int Nat Unit (Nat → Int) × Track Nat Int Nat × Clock Nat × List (Nat × Nat)) :=
  timedRun exT 0 (frameRun flagK) (World.new (fun _ => 0), Track.new exT, Clock.new, []) [.createNode 0, .createNode 1, .sync [0, 1] es false, .poll]

def exF0 : World Nat Int Nat Unit (Nat → Int) × Track Nat Int Nat × Clock Nat × List (Nat × Nat) := (exF []).get (by decide +kernel)
def exF1 : World Nat Int Nat Unit (Nat → Int) × Track Nat Int Nat × Clock Nat × List (Nat × Nat) := (exF [⟨1, 0, 0, 0⟩]).get (by decide +kernel)

theorem exF0_cut : (cutRun exT 0 (frameRun flagK) exF0.1 [1]).isSome = true := by decide +kernel
theorem exF1_cut : (cutRun exT 0 (frameRun flagK) exF1.1 [1]).isSome = true := by decide +kernel

/-- **C122** (negation) The test node hears whether something listens to it: connecting its output to another node changes what it gives. -/
theorem listener_heard :
    ¬ (∀ (K : FrameNodes Nat Int Nat Int) (U : Nat → Prop) (w w1 v v1 : World Nat Int Nat Unit (Nat → Int)) (t s : Track Nat Int Nat) (k j : Clock Nat)
      (rs rs' : List (Nat × BlockResult Nat Int Nat)), Timed exT 0 (frameRun K) w t k → Timed exT 0 (frameRun K) v s j →
      SamePart exT t.now s.now U → AtRest exT t.now s.now k j U → (∀ n, U n → w.st n = v.st n) →
      Cut exT 0 (frameRun K) w rs w1 → Cut exT 0 (frameRun K) v rs' v1 → total rs = total rs' →
      ∀ n, U n → ∀ i, i < exT.outCount n → heard n i rs = heard n i rs') := by
  intro h
  have q0 : cutRun exT 0 (frameRun flagK) exF0.1 [1] = some (((cutRun exT 0 (frameRun flagK) exF0.1 [1]).get exF0_cut).1, _) :=
    (Option.some_get exF0_cut).symm
  have q1 : cutRun exT 0 (frameRun flagK) exF1.1 [1] = some (((cutRun exT 0 (frameRun flagK) exF1.1 [1]).get exF1_cut).1, _) :=
    (Option.some_get exF1_cut).symm
  have t0 := timed_of_run _ _ _ (.new (run := frameRun flagK) (fun _ => 0)) (quiet_covers quiet_new)
    (Option.some_get (show (exF []).isSome = true by decide +kernel)).symm
  have t1 := timed_of_run _ _ _ (.new (run := frameRun flagK) (fun _ => 0)) (quiet_covers quiet_new)
    (Option.some_get (show (exF [⟨1, 0, 0, 0⟩]).isSome = true by decide +kernel)).symm
  have hw : exF0.2.1.now.wires = [] := by decide +kernel
  have hU : SamePart exT exF0.2.1.now exF1.2.1.now (fun n => n = 0) := by
    refine ⟨?_, ?_, ?_, fun e he => ?_, ?_, ?_⟩
    · rintro n rfl; decide +kernel
    · rintro n rfl; decide +kernel
    · rintro n rfl; decide +kernel
    · rw [hw] at he; cases he
    · rintro n rfl; decide +kernel
    · rintro n rfl; decide +kernel
  have r0 : AtRest exT exF0.2.1.now exF1.2.1.now exF0.2.2.1 exF1.2.2.1 (fun n => n = 0) := by
    refine ⟨?_, ?_, ?_⟩
    · rintro n rfl; decide +kernel
    · rintro n rfl; decide +kernel
    · rintro n rfl; decide +kernel
  have := h flagK (fun n => n = 0) exF0.1 _ exF1.1 _ exF0.2.1 exF1.2.1 exF0.2.2.1 exF1.2.2.1 _ _ t0 t1 hU r0 (by rintro n rfl; decide +kernel)
    (cut_of_run _ _ _ _ q0) (cut_of_run _ _ _ _ q1) ((total_of_run _ _ _ _ q0).trans (total_of_run _ _ _ _ q1).symm) 0 rfl 0 (by decide)
  have h2 : heard 0 0 ((cutRun exT 0 (frameRun flagK) exF0.1 [1]).get exF0_cut).1 0 ≠
      heard 0 0 ((cutRun exT 0 (frameRun flagK) exF1.1 [1]).get exF1_cut).1 0 := by decide +kernel
  exact h2 (congrFun this 0)

end HexoDSP.IsolateProps
