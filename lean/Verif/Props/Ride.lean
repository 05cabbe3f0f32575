import Verif.Lemmas.Ride
import Verif.Props.Twin
import Verif.Props.Smoother
/-!
# How a knob moves (C123)

Someone turns a knob while the patch plays. From the frame in which the engine hears of it the parameter moves on a straight line to its new
value, one step in every frame, whatever happens to the rest of the patch and however time is cut into blocks.
-/

set_option linter.unusedSectionVars false

namespace HexoDSP.RideProps
open HexoDSP.Engine HexoDSP.EngineSpec HexoDSP.NodeConfProps HexoDSP.FlowProps HexoDSP.ParamProps HexoDSP.CutProps

variable {N V A M S σ : Type} [DecidableEq N]
variable [Add V] [Mul V] [Sub V] [Div V] [NatCast V] [OfNat V 0]
variable {T : NodeTable N V A} {a0 : A} {run : σ → CallIn N V A → σ × (Nat → Block V)}
variable {w w' : World N V A M σ} {t : Track N V A} {k : Clock N} {r : Ride N V}

theorem ridden_timed (h : Ridden T a0 run w t k r) : Timed T a0 run w t k := by
  induction h with
  | new st => exact .new st
  | call _ hg hs ih => exact .call ih hg hs
  | outside st _ ih => exact .outside st ih

/-- The machine can be run along with every gentle history. -/
theorem timed_ridden (h : Timed T a0 run w t k) : ∃ r, Ridden T a0 run w t k r := by
  induction h with
  | new st => exact ⟨_, .new st⟩
  | call _ hg hs ih => exact ⟨_, .call ih.choose_spec hg hs⟩
  | outside st _ ih => exact ⟨_, .outside st ih.choose_spec⟩

theorem ridden_inv (hT : ∀ n, T.inCount n ≤ 32) (h : Ridden T a0 run w t k r) :
    ∃ le lc, SimAt T le lc w t ∧ ParInv T le t.now k w.exec w.shared.heap ∧ RideInv T le t.now k r w.exec ∧
      CalmQ k t.pending ∧ ∀ n i, k.hot n i = false → k.left n i = 0 := by
  induction h with
  | new st =>
    obtain ⟨hsim, hpar⟩ := tsim_new_at (M := M) T st
    exact ⟨_, _, hsim, hpar, ⟨fun n hn => absurd hn (by simp [Layout.empty]), fun n hn => absurd hn (by simp [Layout.empty]), fun _ _ _ => rfl⟩,
      calmQ_nil _, fun _ _ _ => rfl⟩
  | @call w w' t k r op out hh hg hs ih =>
    obtain ⟨_, h1, h2⟩ := follows_sim hT (timed_follows (ridden_timed hh))
    obtain ⟨le, lc, hsim, hpar, hr, hcalm, hcold⟩ := ih
    obtain ⟨lc', q1, q2, q3, q4⟩ := tsim_step_at hT h1 h2 hsim hpar hcalm hcold hg hs
    exact ⟨_, lc', q1, q2, ride_step_at h2 hsim hpar hr hcalm hcold hg hs, q3, q4⟩
  | outside st _ ih => exact ih

/-- **C123** The value of every parameter in every frame: after any gentle history, when a block is played, parameter `i` of each node that runs is
given the values of its way. -/
theorem knob_course (hT : ∀ n, T.inCount n ≤ 32) (h : Ridden T a0 run w t k r) {nf : Nat} {b : BlockResult N V A}
    (hs : w.step T a0 run (.process nf) = some (w', some b)) {c : Call N V A} (hc : c ∈ b.calls) {i : Nat} (hi : i < T.inCount c.node) :
    ∃ blk, c.params[i]? = some blk ∧ ∀ f, f < nf → blk f = r.way c.node i f := by
  obtain ⟨le, lc, hsim, hpar, hr, _, _⟩ := ridden_inv hT h
  obtain ⟨_, _, hacc⟩ := follows_sim hT (timed_follows (ridden_timed h))
  have hord := (block_is_dataflow hT (timed_follows (ridden_timed h)) hs).2.order
  have hmem : c.node ∈ t.now.order := by
    rw [← hord]
    exact List.mem_map_of_mem hc
  simp only [World.step] at hs
  obtain ⟨⟨e', h', st', b'⟩, hb, heq⟩ := Option.map_eq_some_iff.1 hs
  simp only [Prod.mk.injEq, Option.some.injEq] at heq
  obtain ⟨rfl, rfl⟩ := heq
  obtain ⟨_, _, _, _, _, _, p6⟩ := process_course hpar hsim.1 (account_owned hacc) hb
  obtain ⟨blk, q1, q2⟩ := p6 c hc i hi
  refine ⟨blk, q1, fun f hf => ?_⟩
  rw [q2 f hf, hr.way _ (hsim.1.carries.ord _ hmem) i hi]

/-- **C123** A parameter that has arrived is at the value it was last given, and stays there. -/
theorem knob_arrives (hT : ∀ n, T.inCount n ≤ 32) (h : Ridden T a0 run w t k r) {n : N} (hn : n ∈ t.now.order) {i : Nat} (hi : i < T.inCount n)
    {f : Nat} (hf : k.left n i ≤ f + 1) : r.way n i f = t.now.param n i := by
  obtain ⟨le, lc, hsim, hpar, hr, _, _⟩ := ridden_inv hT h
  have hn' := hsim.1.carries.ord _ hn
  rw [← hr.way n hn' i hi]
  by_cases hb : le.inIdx T n i ∈ busy w.exec.smoothers
  · obtain ⟨s, h1, h2⟩ := mem_busy.1 hb
    obtain ⟨m, j, q1, q2, q3, q4, q5, _⟩ := hpar.run _ s h1 h2
    obtain ⟨rfl, rfl⟩ := inIdx_inj T q1 hn' q2 hi q3.symm
    rw [course_busy hpar.nodup h1 h2, out_target s (by omega), q4]
  · rw [course_idle hb]

/-- Blocks are gentle calls. -/
theorem ridden_cut {rs : List (Nat × BlockResult N V A)} (hc : Cut T a0 run w rs w') : ∀ (k : Clock N) (r : Ride N V), Ridden T a0 run w t k r →
    Ridden T a0 run w' t (k.over (M := M) rs) (r.over rs) := by
  induction hc with
  | nil w => intro k r h; exact h
  | @cons w w1 w2 nf b rs hs _ ih =>
    intro k r h
    have hg : Gentle T w t k (.process nf) :=
      ⟨⟨trivial, fun h => absurd rfl h, (fun _ _ _ h => by cases h), (fun _ _ _ h => by cases h)⟩, (fun h => by cases h), (fun h => by cases h)⟩
    have h1 := Ridden.call h hg hs
    have ht : t.step T w.conf (EOp.process nf : EOp N V A M) = t := by
      simp only [Track.step, asks, List.append_nil]
    rw [ht] at h1
    exact ih _ _ h1

/-- **C123** However many blocks of whatever lengths are played now, a patch of nodes that work frame by frame sounds as if each of them was run once
in every frame with its parameters on their ways. -/
theorem knob_sounds {K : FrameNodes N V A S} {w w1 : World N V A M (N → S)} (hT : ∀ n, T.inCount n ≤ 32) (h : Ridden T a0 (frameRun K) w t k r)
    {rs : List (Nat × BlockResult N V A)} (hc : Cut T a0 (frameRun K) w rs w1) :
    ∃ Z X, Sounds T t.now K r.way (total rs) w.st Z X ∧
      (∀ n ∈ t.now.order, ∀ i, i < T.outCount n → ∀ f, f < total rs → heard n i rs f = some (X n i f)) ∧
      (∀ n ∈ t.now.order, w1.st n = Z n (total rs)) ∧ ∀ n, n ∉ t.now.order → w1.st n = w.st n := by
  obtain ⟨le, lc, hsim, hpar, hr, _, _⟩ := ridden_inv hT h
  obtain ⟨_, _, hacc⟩ := follows_sim hT (timed_follows (ridden_timed h))
  obtain ⟨Z, X, s1, s2, s3, s4⟩ := cut_sounds hc k hsim.1 hpar (account_owned hacc)
  exact ⟨Z, X, sounds_congr s1 (fun n hn i hi => hr.way n (hsim.1.carries.ord _ hn) i hi), s2, s3, s4⟩

/-- **C123** Play a block, turn a knob, let the engine hear of it, play another block: in the second block the parameter goes, in steps of equal size,
one in every frame, from where it was in the last frame of the first block to its new value. It does not matter whether it was moving. -/
theorem turn_continues (hT : ∀ n, T.inCount n ≤ 32) (h : Timed T a0 run w t k) (hp : t.pending = []) {n : N} {i m nf : Nat} {v : V}
    {w1 w2 w3 w4 : World N V A M σ} {b1 b2 : BlockResult N V A} {o1 o2 : Option (BlockResult N V A)}
    (s1 : w.step T a0 run (.process m) = some (w1, some b1)) (s2 : w1.step T a0 run (.setInput n i v) = some (w2, o1))
    (hroom : w1.queue.length < queueCapacity)
    (hfew : ∃ S : List (N × Nat), S.length ≤ 40 ∧ (n, i) ∈ S ∧ ∀ n i, m < k.left n i → (n, i) ∈ S)
    (s3 : w2.step T a0 run .poll = some (w3, o2)) (s4 : w3.step T a0 run (.process nf) = some (w4, some b2))
    {c1 c2 : Call N V A} (hc1 : c1 ∈ b1.calls) (hn1 : c1.node = n) (hc2 : c2 ∈ b2.calls) (hn2 : c2.node = n) (hi : i < T.inCount n) :
    ∃ x y, c1.params[i]? = some x ∧ c2.params[i]? = some y ∧ ∀ f, f < nf → y f = line (x (m - 1)) v k.slope f := by
  obtain ⟨r, h0⟩ := timed_ridden h
  obtain ⟨x, x1, x2⟩ := knob_course hT h0 s1 hc1 (i := i) (by rw [hn1]; exact hi)
  have g1 : Gentle T w t k (.process m) :=
    ⟨⟨trivial, fun h => absurd rfl h, (fun _ _ _ h => by cases h), (fun _ _ _ h => by cases h)⟩, (fun h => by cases h), (fun h => by cases h)⟩
  have h1 := Ridden.call h0 g1 s1
  have ht : t.step T w.conf (EOp.process m : EOp N V A M) = t := by simp only [Track.step, asks, List.append_nil]
  rw [ht] at h1
  have g2 : Gentle T w1 t (k.step t.pending (.process m : EOp N V A M)) (.setInput n i v) :=
    ⟨⟨trivial, fun _ => hroom, (fun _ _ _ h => by cases h), (fun _ _ _ h => by cases h)⟩, (fun h => by cases h), (fun h => by cases h)⟩
  have h2 := Ridden.call h1 g2 s2
  have hmem : n ∈ t.now.order := by
    rw [← (block_is_dataflow hT (timed_follows h) s1).2.order, ← hn1]
    exact List.mem_map_of_mem hc1
  have hlive : (w1.conf.instanceOf n).isSome := playing_live hT (timed_follows (ridden_timed h1)) hp hmem
  have hask : asks T w1.conf (.setInput n i v : EOp N V A M) = [.param n i v] := if_pos ⟨hlive, hi⟩
  have hpend : (t.step T w1.conf (.setInput n i v : EOp N V A M)).pending = [Update.param n i v] := by
    show t.pending ++ asks T w1.conf (.setInput n i v : EOp N V A M) = _
    rw [hask, hp]; rfl
  have g3 : Gentle T w2 (t.step T w1.conf (.setInput n i v : EOp N V A M)) (k.step t.pending (.process m : EOp N V A M)) .poll := by
    refine ⟨⟨trivial, fun h => absurd rfl h, (fun _ _ _ h => by cases h), (fun _ _ _ h => by cases h)⟩, fun _ => ?_, (fun h => by cases h)⟩
    obtain ⟨S, q1, q2, q3⟩ := hfew
    refine ⟨S, q1, fun n' i' hx => ?_⟩
    rcases hx with hx | ⟨v', hv'⟩
    · refine q3 n' i' ?_
      have hx' : 0 < k.left n' i' - m := hx
      omega
    · rw [hpend] at hv'
      simp only [List.mem_singleton, Update.param.injEq] at hv'
      obtain ⟨rfl, rfl, _⟩ := hv'
      exact q2
  have h3 := Ridden.call h2 g3 s3
  obtain ⟨y, y1, y2⟩ := knob_course hT h3 s4 hc2 (i := i) (by rw [hn2]; exact hi)
  have hm : 0 < m := by
    obtain ⟨le, lc, hsim, _⟩ := ridden_inv hT h0
    obtain ⟨_, _, hacc⟩ := follows_sim hT (timed_follows h)
    simp only [World.step] at s1
    obtain ⟨⟨e', h', st', b'⟩, hb, _⟩ := Option.map_eq_some_iff.1 s1
    exact (process_plays run hsim.1 (account_owned hacc) hb).2.frames.1
  refine ⟨x, y, x1, y1, fun f hf => ?_⟩
  rw [y2 f hf, x2 (m - 1) (by omega), hn1, hn2]
  show (Ride.takeAll _ _ (t.step T w1.conf (.setInput n i v : EOp N V A M)).pending).way n i f = _
  rw [hpend]
  show (if n = n ∧ i = i then line (r.way n i (m - 1)) v k.slope else _) f = _
  rw [if_pos ⟨rfl, rfl⟩]

/-- **C123** In exact arithmetic the line is the straight one of C16: it never overshoots, and is at its end after `s` frames. -/
theorem line_straight (a b : ℚ) (s f : Nat) :
    line a b s f = (if f < s then a + (b - a) * ((f + 1 : ℕ) / (s : ℚ)) else b) ∧ min a b ≤ line a b s f ∧ line a b s f ≤ max a b := by
  have h : ∀ s0 : Smoother ℚ, s0.slopeSamples = s → line a b s f = (s0.set a b).out f := by
    rintro s0 rfl
    exact (out_set s0 a b f).symm
  have h' := h { slopeSamples := s, value := 0, inc := 0, target := 0, count := 0, done := true } rfl
  rw [h']
  exact ⟨SmootherProps.follows_ramp _ a b f, SmootherProps.stays_between _ a b f⟩

/-! ### Example -/

/-- The ride along a list of calls. -/
def rideRun (T : NodeTable N V A) (a0 : A) (run : σ → CallIn N V A → σ × (Nat → Block V)) :
    World N V A M σ × Track N V A × Clock N × Ride N V → List (EOp N V A M) → Option (Ride N V)
  | s, [] => some s.2.2.2
  | (w, t, k, r), op :: ops =>
    match w.step T a0 run op with
    | none => none
    | some x => rideRun T a0 run (x.1, t.step T w.conf op, k.step t.pending op, r.step k t.pending op) ops

theorem ridden_of_run (ops : List (EOp N V A M)) : ∀ (s s' : World N V A M σ × Track N V A × Clock N × List (N × Nat)) (r r' : Ride N V),
    Ridden T a0 run s.1 s.2.1 s.2.2.1 r → Covers s.2.1 s.2.2.1 s.2.2.2 → timedRun T a0 run s ops = some s' →
    rideRun T a0 run (s.1, s.2.1, s.2.2.1, r) ops = some r' → Ridden T a0 run s'.1 s'.2.1 s'.2.2.1 r' := by
  induction ops with
  | nil => intro s s' r r' h _ he hr; cases he; cases hr; exact h
  | cons op ops ih =>
    rintro ⟨w, t, k, S⟩ s' r r' h hcov he hr
    simp only at h hcov
    simp only [timedRun] at he
    simp only [rideRun] at hr
    split at he
    · rename_i hc
      rw [Bool.and_eq_true] at hc
      cases hx : w.step T a0 run op with
      | none => simp [hx] at he
      | some x =>
        simp only [hx] at he hr
        obtain ⟨hg, hcov'⟩ := gentle_head hcov hc.1 hc.2 hx
        exact ih _ _ _ _ (Ridden.call h hg hx) hcov' he hr
    · cases he

theorem covers_new : Covers (Track.new T) (Clock.new : Clock N) [] := by
  intro n i h
  simp [Clock.new, Track.new] at h

/-- A node plays; with eight frames for a change, its first parameter goes from 100 to 900 and has come to 300 after two frames. -/
def exTurn : List (EOp Nat Int Nat Unit) :=
  [.setSlope 8, .createNode 0, .sync [0] [] false, .poll, .process 1, .setInput 0 0 900, .poll, .process 2]

def exTurnW : World Nat Int Nat Unit Unit × Track Nat Int Nat × Clock Nat × List (Nat × Nat) :=
  (timedRun exT 0 exRun (World.new (), Track.new exT, Clock.new, []) exTurn).get (by decide +kernel)

def exTurnR : Ride Nat Int := (rideRun exT 0 exRun (World.new (), Track.new exT, Clock.new, Ride.new exT) exTurn).get (by decide +kernel)

/-- The first parameter of node 0 in the next block of three frames. -/
def exKnobs (w : World Nat Int Nat Unit Unit) : Option (List (List Int)) :=
  ((w.step exT 0 exRun (.process 3)).bind (fun x => x.2)).map (fun b =>
    (b.calls.filter (fun c => c.node = 0)).map (fun c => (c.params.map (fun b => [b 0, b 1, b 2])).headD []))

/-- The hypotheses are met, and the ride is not a standstill: six more steps of 100, then it has arrived. -/
example : Ridden exT 0 exRun exTurnW.1 exTurnW.2.1 exTurnW.2.2.1 exTurnR ∧ exTurnR.here 0 0 = 300 ∧
    (List.range 8).map (exTurnR.way 0 0) = [400, 500, 600, 700, 800, 900, 900, 900] ∧ exTurnW.2.2.1.left 0 0 = 7 ∧
    exTurnW.2.1.now.order = [0] ∧ exKnobs exTurnW.1 = some [[400, 500, 600]] ∧ exTurnW.2.1.pending = [] :=
  ⟨ridden_of_run exTurn _ _ _ _ (.new ()) covers_new (Option.some_get _).symm (Option.some_get _).symm, by decide +kernel, by decide +kernel, by decide +kernel,
    by decide +kernel, by decide +kernel, by decide +kernel⟩

/-- The knob is turned to 500 while it moves, either at once or after an unconnected node was added. -/
def exAgain (x : List (EOp Nat Int Nat Unit)) : Option (World Nat Int Nat Unit Unit × Track Nat Int Nat × Clock Nat × List (Nat × Nat)) :=
  timedRun exT 0 exRun (World.new (), Track.new exT, Clock.new, []) (exTurn ++ x ++ [.setInput 0 0 500, .poll])

def exAgain0 : World Nat Int Nat Unit Unit × Track Nat Int Nat × Clock Nat × List (Nat × Nat) := (exAgain []).get (by decide +kernel)

def exAdd : List (EOp Nat Int Nat Unit) := [.createNode 1, .sync [0, 1] [] true, .poll]

def exAgain1 : World Nat Int Nat Unit Unit × Track Nat Int Nat × Clock Nat × List (Nat × Nat) := (exAgain exAdd).get (by decide +kernel)

/-- **C123** (negation) That a knob which is turned again while it moves goes on from where it is holds only if no new program has come since the
last block. The parameter was at 300, on its way to 900, and is turned to 500: without a new program it goes on from 300; with one it jumps
to 850 and comes back, a value that lies outside of the way from 300 to 500. -/
theorem turn_after_program_jumps : exTurnR.here 0 0 = 300 ∧
    exKnobs exAgain0.1 = some [[325, 350, 375]] ∧ exKnobs exAgain1.1 = some [[850, 800, 750]] ∧
    Timed exT 0 exRun exAgain1.1 exAgain1.2.1 exAgain1.2.2.1 :=
  ⟨by decide +kernel, by decide +kernel, by decide +kernel,
    timed_of_run _ _ _ (.new ()) covers_new (Option.some_get (show (exAgain exAdd).isSome = true by decide +kernel)).symm⟩

end HexoDSP.RideProps
