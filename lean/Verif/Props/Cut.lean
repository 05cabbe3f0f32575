import Verif.Lemmas.Cut
import Verif.Props.Param
import Verif.Props.BiqFilt
/-!
# Cutting time into blocks (C97)

The host decides how many frames it asks for at a time. For nodes that work frame by frame nothing depends on it: the engine, with its
smoothers, its modulation and its buffers, plays the patch as if all nodes were run once for every frame. Nodes that look at a
parameter once in a block, as the biquad filter does, make the cuts audible, so the full statement is false.
-/

set_option linter.unusedSectionVars false

namespace HexoDSP.CutProps
open HexoDSP.Engine HexoDSP.EngineSpec HexoDSP.NodeConfProps HexoDSP.FlowProps HexoDSP.ParamProps

variable {N V A M S : Type} [DecidableEq N]
variable [Add V] [Mul V] [Sub V] [Div V] [NatCast V] [OfNat V 0]
variable {T : NodeTable N V A} {a0 : A} {K : FrameNodes N V A S}
variable {w w1 w2 : World N V A M (N → S)} {t : Track N V A} {k : Clock N}

/-- **C97** After any gentle history the parameters have a course that is settled: however many blocks of whatever lengths are played now, the
outputs of all nodes in all frames, and the states of the nodes at the end, are those of the patch played frame by frame with these parameters.
A parameter that has arrived is at its value. -/
theorem frame_by_frame_partial (hT : ∀ n, T.inCount n ≤ 32) (h : Timed T a0 (frameRun K) w t k) :
    ∃ par : N → Nat → Nat → V,
      (∀ n ∈ t.now.order, ∀ i, i < T.inCount n → ∀ f, k.left n i ≤ f + 1 → par n i f = t.now.param n i) ∧
      ∀ rs w1, Cut T a0 (frameRun K) w rs w1 → ∃ Z X, Sounds T t.now K par (total rs) w.st Z X ∧
        (∀ n ∈ t.now.order, ∀ i, i < T.outCount n → ∀ f, f < total rs → heard n i rs f = some (X n i f)) ∧
        (∀ n ∈ t.now.order, w1.st n = Z n (total rs)) ∧ ∀ n, n ∉ t.now.order → w1.st n = w.st n := by
  obtain ⟨⟨le, lc, hsim, hpar⟩, _, _⟩ := timed_tsim hT h
  obtain ⟨_, _, hacc⟩ := follows_sim hT (timed_follows h)
  refine ⟨courses T le t.now w.exec, fun n hn i hi f hf => ?_, fun rs w1 hc => cut_sounds hc k hsim.1 hpar (account_owned hacc)⟩
  unfold courses
  by_cases hb : le.inIdx T n i ∈ busy w.exec.smoothers
  · obtain ⟨s, h1, h2⟩ := mem_busy.1 hb
    obtain ⟨m, j, q1, q2, q3, q4, q5, _⟩ := hpar.run _ s h1 h2
    obtain ⟨rfl, rfl⟩ := inIdx_inj T q1 (hsim.1.carries.ord _ hn) q2 hi q3.symm
    rw [course_busy hpar.nodup h1 h2, out_target s (by omega), q4]
  · rw [course_idle hb]

/-- **C97** Two ways of cutting the same number of frames into blocks, from the same state of the engine: every output of every node gives the
same sample in every frame, and every node ends in the same state. -/
theorem cuts_inaudible_partial (hT : ∀ n, T.inCount n ≤ 32) (h : Timed T a0 (frameRun K) w t k) {rs rs' : List (Nat × BlockResult N V A)}
    (hc1 : Cut T a0 (frameRun K) w rs w1) (hc2 : Cut T a0 (frameRun K) w rs' w2) (hlen : total rs = total rs') :
    (∀ n ∈ t.now.order, ∀ i, i < T.outCount n → heard n i rs = heard n i rs') ∧ w1.st = w2.st := by
  obtain ⟨par, _, hp⟩ := frame_by_frame_partial hT h
  obtain ⟨⟨le, lc, hsim, _⟩, _, _⟩ := timed_tsim hT h
  obtain ⟨Z, X, s1, s2, s3, s4⟩ := hp rs w1 hc1
  obtain ⟨Z', X', s1', s2', s3', s4'⟩ := hp rs' w2 hc2
  rw [← hlen] at s1'
  obtain ⟨u1, u2⟩ := s1.unique hsim.1.carries.nodup hsim.1.carries.before s1'
  refine ⟨fun n hn i hi => ?_, ?_⟩
  · funext f
    by_cases hf : f < total rs
    · rw [s2 n hn i hi f hf, s2' n hn i hi f (by omega), u2 f hf n hn i hi]
    · rw [heard_none n i rs f (by omega), heard_none n i rs' f (by omega)]
  · funext n
    by_cases hn : n ∈ t.now.order
    · rw [s3 n hn, s3' n hn, ← hlen]
      exact u1 _ (Nat.le_refl _) n hn
    · rw [s4 n hn, s4' n hn]

/-! ### A concrete patch -/

/-- Play blocks of the given lengths. -/
def cutRun {σ : Type} (T : NodeTable N V A) (a0 : A) (run : σ → CallIn N V A → σ × (Nat → Block V)) :
    World N V A M σ → List Nat → Option (List (Nat × BlockResult N V A) × World N V A M σ)
  | w, [] => some ([], w)
  | w, nf :: ns =>
    match w.step T a0 run (.process nf) with
    | some (w1, some r) => (cutRun T a0 run w1 ns).map (fun x => ((nf, r) :: x.1, x.2))
    | _ => none

theorem cut_of_run {σ : Type} {run : σ → CallIn N V A → σ × (Nat → Block V)} (ns : List Nat) : ∀ (w w' : World N V A M σ)
    (rs : List (Nat × BlockResult N V A)), cutRun T a0 run w ns = some (rs, w') → Cut T a0 run w rs w' := by
  induction ns with
  | nil => intro w w' rs h; cases h; exact .nil _
  | cons nf ns ih =>
    intro w w' rs h
    simp only [cutRun] at h
    split at h
    · rename_i w1 r hs
      obtain ⟨⟨x1, x2⟩, hx, he⟩ := Option.map_eq_some_iff.1 h
      cases he
      exact .cons hs (ih _ _ _ hx)
    · cases h

theorem total_of_run {σ : Type} {run : σ → CallIn N V A → σ × (Nat → Block V)} (ns : List Nat) : ∀ (w w' : World N V A M σ)
    (rs : List (Nat × BlockResult N V A)), cutRun T a0 run w ns = some (rs, w') → total rs = ns.sum := by
  induction ns with
  | nil => intro w w' rs h; cases h; rfl
  | cons nf ns ih =>
    intro w w' rs h
    simp only [cutRun] at h
    split at h
    · obtain ⟨⟨x1, x2⟩, hx, he⟩ := Option.map_eq_some_iff.1 h
      cases he
      simp only [total, List.sum_cons, ih _ _ _ hx]
    · cases h

/-- Every node adds up its inputs over time. -/
def exK : FrameNodes Nat Int Nat Int := fun _ s fi => (s + fi.inputs.sum, fun o => s + fi.inputs.sum + o)

def exC : World Nat Int Nat Unit (Nat → Int) × Track Nat Int Nat × Clock Nat × List (Nat × Nat) :=
  (timedRun exT 0 (frameRun exK) (World.new (fun _ => 0), Track.new exT, Clock.new, []) exOps4).get (by decide +kernel)

theorem exC_timed : Timed exT 0 (frameRun exK) exC.1 exC.2.1 exC.2.2.1 :=
  timed_of_run exOps4 _ _ (.new _) (fun n i h => by simp [Clock.new, Track.new] at h) (Option.some_get _).symm

/-- The first frames of output 0 of node 1, whose parameter 0 still moves. -/
def exHeard (ns : List Nat) : Option (List (Option Int)) :=
  (cutRun exT 0 (frameRun exK) exC.1 ns).map (fun x => [heard 1 0 x.1 0, heard 1 0 x.1 1, heard 1 0 x.1 2, heard 1 0 x.1 3, heard 1 0 x.1 4])

/-- Four frames at once, or one by one, or one and three. -/
example : Timed exT 0 (frameRun exK) exC.1 exC.2.1 exC.2.2.1 ∧ 1 ∈ exC.2.1.now.order ∧ exC.2.2.1.left 1 0 = 3 ∧
    (exHeard [4]).isSome ∧ exHeard [4] = exHeard [1, 1, 1, 1] ∧ exHeard [4] = exHeard [1, 3] ∧
    (exHeard [4]).map (fun l => l.map Option.isSome) = some [true, true, true, true, false] ∧
    (exHeard [4]).map (fun l => decide (l[0]? = l[1]?)) = some false :=
  ⟨exC_timed, by decide +kernel, by decide +kernel, by decide +kernel, by decide +kernel, by decide +kernel, by decide +kernel, by decide +kernel⟩

/-! ### Where the full statement fails -/

/-- A node that looks at its first input once in a block. -/
def onceRun : Unit → CallIn Nat Int Nat → Unit × (Nat → Block Int) :=
  fun st ci => (st, fun _ _ => (ci.inputs.map (fun b => b 0)).headD 0)

def exO : World Nat Int Nat Unit Unit × Track Nat Int Nat × Clock Nat × List (Nat × Nat) :=
  (timedRun exT 0 onceRun (World.new (), Track.new exT, Clock.new, [])
    [.setSlope 4, .createNode 0, .sync [0] [] false, .poll, .process 1, .setInput 0 0 200, .poll]).get (by decide +kernel)

def exOCut (ns : List Nat) : Option (List (Nat × BlockResult Nat Int Nat) × World Nat Int Nat Unit Unit) := cutRun exT 0 onceRun exO.1 ns

theorem exO_two : (exOCut [2]).isSome = true := by decide +kernel

theorem exO_ones : (exOCut [1, 1]).isSome = true := by decide +kernel

/-- **C97** (negation) With a node that looks at a parameter once in a block, the cuts are heard while the parameter moves. -/
theorem cuts_audible :
    ¬ (∀ (run : Unit → CallIn Nat Int Nat → Unit × (Nat → Block Int)) (w w1 w2 : World Nat Int Nat Unit Unit) (t : Track Nat Int Nat)
      (k : Clock Nat) (rs rs' : List (Nat × BlockResult Nat Int Nat)), Timed exT 0 run w t k → Cut exT 0 run w rs w1 → Cut exT 0 run w rs' w2 →
      total rs = total rs' → ∀ n ∈ t.now.order, ∀ i, i < exT.outCount n → heard n i rs = heard n i rs') := by
  intro h
  have q1 : exOCut [2] = some (((exOCut [2]).get exO_two).1, ((exOCut [2]).get exO_two).2) := (Option.some_get exO_two).symm
  have q2 : exOCut [1, 1] = some (((exOCut [1, 1]).get exO_ones).1, ((exOCut [1, 1]).get exO_ones).2) := (Option.some_get exO_ones).symm
  have ht : Timed exT 0 onceRun exO.1 exO.2.1 exO.2.2.1 :=
    timed_of_run _ _ _ (.new ()) (fun n i h => by simp [Clock.new, Track.new] at h) (Option.some_get _).symm
  have := h onceRun exO.1 _ _ _ _ _ _ ht (cut_of_run _ _ _ _ q1) (cut_of_run _ _ _ _ q2)
    ((total_of_run _ _ _ _ q1).trans (total_of_run _ _ _ _ q2).symm) 0 (by decide +kernel) 0 (by decide)
  have h2 : heard 0 0 ((exOCut [2]).get exO_two).1 1 ≠ heard 0 0 ((exOCut [1, 1]).get exO_ones).1 1 := by decide +kernel
  exact h2 (congrFun this 1)

open BiqFilt BiqFiltProps in
/-- **C97** (negation) The biquad filter is such a node: it takes the frequency of the first frame for the whole block. The same samples with
the same frequency in every frame sound different when they come in two blocks instead of one. -/
theorem biquad_audible :
    let signal : List (ℚ × ℚ) := [(2, 1), (3, 1)]
    let block : List (ℚ × ℚ) → BiqFilt.Block ℚ := fun fs => ⟨0, 0, (fs.map Prod.fst).headD 0, 1/2, 0, fs.map Prod.snd⟩
    ((made exE 44100).run exE [block signal]).map (fun r => r.1.flatten) = some [2, 4] ∧
    ((made exE 44100).run exE [block (signal.take 1), block (signal.drop 1)]).map (fun r => r.1.flatten) = some [2, 3] := by
  decide +kernel

end HexoDSP.CutProps
