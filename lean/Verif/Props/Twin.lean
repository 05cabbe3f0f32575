import Verif.Lemmas.Twin
import Verif.Props.Cut
/-!
# Histories that differ in the cuts only (C97)

The second half of C97: not only does a stretch of frames sound the same however it is cut, two engines that get the same calls and the same
number of frames in between, cut differently, stay in step for ever.
-/

set_option linter.unusedSectionVars false

namespace HexoDSP.CutProps
open HexoDSP.Engine HexoDSP.EngineSpec HexoDSP.NodeConfProps HexoDSP.FlowProps HexoDSP.ParamProps

variable {N V A M S σ : Type} [DecidableEq N]
variable [Add V] [Mul V] [Sub V] [Div V] [NatCast V] [OfNat V 0]
variable {T : NodeTable N V A} {a0 : A} {K : FrameNodes N V A S}

/-- Blocks are gentle calls. -/
theorem timed_cut {run : σ → CallIn N V A → σ × (Nat → Block V)} {w w' : World N V A M σ} {t : Track N V A}
    {rs : List (Nat × BlockResult N V A)} (hc : Cut T a0 run w rs w') : ∀ k : Clock N, Timed T a0 run w t k →
    Timed T a0 run w' t (k.over (M := M) rs) := by
  induction hc with
  | nil w => intro k h; exact h
  | @cons w w1 w2 nf r rs hs _ ih =>
    intro k h
    have hg : Gentle T w t k (.process nf) :=
      ⟨⟨trivial, fun h => absurd rfl h, (fun _ _ _ h => by cases h), (fun _ _ _ h => by cases h)⟩, (fun h => by cases h), (fun h => by cases h)⟩
    have h1 := Timed.call h hg hs
    have ht : t.step T w.conf (EOp.process nf : EOp N V A M) = t := by
      simp only [Track.step, asks, List.append_nil]
    rw [ht] at h1
    exact ih _ h1

theorem sounds_congr {pl : Playing N V A} {par par' : N → Nat → Nat → V} {len : Nat} {st : N → S} {Z : N → Nat → S} {X : N → Nat → Nat → V}
    (h : Sounds T pl K par len st Z X) (hp : ∀ n ∈ pl.order, ∀ i, i < T.inCount n → par n i = par' n i) : Sounds T pl K par' len st Z X := by
  refine ⟨h.start, fun n hn t ht => ?_⟩
  obtain ⟨fi, f1, f2, f3⟩ := h.frame n hn t ht
  refine ⟨fi, ⟨?_, f1.atoms, f1.nInputs, fun k hk hu => ?_, f1.direct, fun k e a hf ha => ?_, f1.inFlags, f1.outFlags⟩, f2, f3⟩
  · rw [f1.params]
    exact List.map_congr_left (fun i hi => by rw [hp n hn i (List.mem_range.1 hi)])
  · rw [f1.unfed k hk hu, hp n hn k hk]
  · rw [f1.modulated k e a hf ha, hp n hn k (by rw [← hf.2.1, ← hf.2.2.1]; exact hf.1.1)]

/-- From the same state but for old blocks, two cuts of the same number of frames sound the same and leave the same. -/
theorem same_cut (hT : ∀ n, T.inCount n ≤ 32) {w w1 v v1 : World N V A M (N → S)} {t : Track N V A} {k j : Clock N}
    {rs rs' : List (Nat × BlockResult N V A)} (hw : Timed T a0 (frameRun K) w t k) (hv : Timed T a0 (frameRun K) v t j) (hs : Same w v)
    (hc1 : Cut T a0 (frameRun K) w rs w1) (hc2 : Cut T a0 (frameRun K) v rs' v1) (hlen : total rs = total rs') :
    (∀ n ∈ t.now.order, ∀ i, i < T.outCount n → heard n i rs = heard n i rs') ∧ Same w1 v1 := by
  obtain ⟨⟨le, lc, hsim, hpar⟩, _, _⟩ := timed_tsim hT hw
  obtain ⟨⟨le', lc', hsim', hpar'⟩, _, _⟩ := timed_tsim hT hv
  obtain ⟨_, _, hacc⟩ := follows_sim hT (timed_follows hw)
  obtain ⟨_, _, hacc'⟩ := follows_sim hT (timed_follows hv)
  obtain ⟨l1, l2, l3, l4⟩ := cut_left hc1 k hsim.1 hpar (account_owned hacc)
  obtain ⟨m1, m2, m3, m4⟩ := cut_left hc2 j hsim'.1 hpar' (account_owned hacc')
  obtain ⟨Z, X, s1, s2, s3, s4⟩ := cut_sounds hc1 k hsim.1 hpar (account_owned hacc)
  obtain ⟨Z', X', s1', s2', s3', s4'⟩ := cut_sounds hc2 j hsim'.1 hpar' (account_owned hacc')
  rw [← hlen] at s1' m1
  have hidx : ∀ n ∈ t.now.order, ∀ i, le'.inIdx T n i = le.inIdx T n i := by
    intro n hn i
    have hp : v.exec.prog.prog = w.exec.prog.prog := by rw [hs.exec.prog]
    rw [hsim.1.carries.prog, hsim'.1.carries.prog] at hp
    have := List.map_inj_left.1 hp n hn
    have hr := congrArg (fun o : NodeOp N => o.inR.1) this
    simp only [opFor_inR] at hr
    unfold Layout.inIdx
    rw [hr]
  have hcs : ∀ n ∈ t.now.order, ∀ i, i < T.inCount n → courses T le' t.now v.exec n i = courses T le t.now w.exec n i := by
    intro n hn i _
    unfold courses
    rw [hidx n hn, hs.exec.smoothers]
  have s1'' := sounds_congr s1' hcs
  rw [hs.st] at s1''
  obtain ⟨u1, u2⟩ := s1.unique hsim.1.carries.nodup hsim.1.carries.before s1''
  refine ⟨fun n hn i hi => ?_, ?_⟩
  · funext f
    by_cases hf : f < total rs
    · rw [s2 n hn i hi f hf, s2' n hn i hi f (by omega), u2 f hf n hn i hi]
    · rw [heard_none n i rs f (by omega), heard_none n i rs' f (by omega)]
  · refine ⟨by rw [l2, m2, hs.conf], by rw [l3, m3, hs.queue], ?_, left_same hs.exec l1 m1,
      by rw [l4.next, m4.next, hs.shared.next], by rw [l4.freed, m4.freed, hs.shared.freed], by rw [l4.drops, m4.drops, hs.shared.drops]⟩
    funext n
    by_cases hn : n ∈ t.now.order
    · rw [s3 n hn, s3' n hn, ← hlen]
      exact (u1 _ (Nat.le_refl _) n hn).symm
    · rw [s4 n hn, s4' n hn, hs.st]

theorem twin_same (hT : ∀ n, T.inCount n ≤ 32) {w v : World N V A M (N → S)} {t : Track N V A} {k j : Clock N}
    (h : Twin T a0 (frameRun K) w v t k j) : Timed T a0 (frameRun K) w t k ∧ Timed T a0 (frameRun K) v t j ∧ Same w v := by
  induction h with
  | new st => exact ⟨.new st, .new st, .refl _⟩
  | call _ hop hg hg' hs hs' ih =>
    obtain ⟨h1, h2, h3⟩ := ih
    obtain ⟨v'', q1, q2⟩ := step_same h3 hop hs
    rw [q1] at hs'
    cases hs'
    refine ⟨.call h1 hg hs, ?_, q2⟩
    have := Timed.call h2 hg' q1
    rw [h3.conf] at this
    exact this
  | blocks _ hc hc' hlen ih =>
    obtain ⟨h1, h2, h3⟩ := ih
    exact ⟨timed_cut hc _ h1, timed_cut hc' _ h2, (same_cut hT h1 h2 h3 hc hc' hlen).2⟩
  | outside st _ ih =>
    obtain ⟨h1, h2, h3⟩ := ih
    exact ⟨.outside st h1, .outside st h2, h3.conf, h3.queue, rfl, h3.exec, h3.shared⟩

/-- **C97** Two engines that are given the same calls, and in between the same numbers of frames in blocks of different lengths, sound the same in
every frame they are asked for next, however that is cut, and the nodes end in the same states. -/
theorem twins_agree_partial (hT : ∀ n, T.inCount n ≤ 32) {w w1 v v1 : World N V A M (N → S)} {t : Track N V A} {k j : Clock N}
    (h : Twin T a0 (frameRun K) w v t k j) {rs rs' : List (Nat × BlockResult N V A)}
    (hc1 : Cut T a0 (frameRun K) w rs w1) (hc2 : Cut T a0 (frameRun K) v rs' v1) (hlen : total rs = total rs') :
    (∀ n ∈ t.now.order, ∀ i, i < T.outCount n → heard n i rs = heard n i rs') ∧ w1.st = v1.st := by
  obtain ⟨h1, h2, h3⟩ := twin_same hT h
  obtain ⟨q1, q2⟩ := same_cut hT h1 h2 h3 hc1 hc2 hlen
  exact ⟨q1, q2.st.symm⟩

/-- **C97** A call that succeeds in one of them succeeds in the other; the messages on their way, the configuration, and what will be freed stay
the same. -/
theorem twins_calls_partial (hT : ∀ n, T.inCount n ≤ 32) {w w1 v : World N V A M (N → S)} {t : Track N V A} {k j : Clock N}
    (h : Twin T a0 (frameRun K) w v t k j) {op : EOp N V A M} {out : Option (BlockResult N V A)} (hop : ∀ nf, op ≠ .process nf)
    (hs : w.step T a0 (frameRun K) op = some (w1, out)) : ∃ v1, v.step T a0 (frameRun K) op = some (v1, out) ∧
      v1.conf = w1.conf ∧ v1.queue = w1.queue ∧ v1.shared.heap.freed = w1.shared.heap.freed := by
  obtain ⟨_, _, h3⟩ := twin_same hT h
  obtain ⟨v1, q1, q2⟩ := step_same h3 hop hs
  exact ⟨v1, q1, q2.conf, q2.queue, q2.shared.freed⟩

/-! ### Example -/

/-- Every gentle history is its own twin. -/
theorem twin_refl {run : σ → CallIn N V A → σ × (Nat → Block V)} {w : World N V A M σ} {t : Track N V A} {k : Clock N}
    (h : Timed T a0 run w t k) : Twin T a0 run w w t k k := by
  induction h with
  | new st => exact .new st
  | outside st _ ih => exact .outside st ih
  | @call w w' t k op out _ hg hs ih =>
    by_cases hop : ∀ nf, op ≠ .process nf
    · exact .call ih hop hg hg hs hs
    · simp only [not_forall, not_not] at hop
      obtain ⟨nf, rfl⟩ := hop
      have ho : ∃ r, out = some r := by
        simp only [World.step] at hs
        obtain ⟨x, _, he⟩ := Option.map_eq_some_iff.1 hs
        cases he
        exact ⟨_, rfl⟩
      obtain ⟨r, rfl⟩ := ho
      have ht : t.step T w.conf (EOp.process nf : EOp N V A M) = t := by
        simp only [Track.step, asks, List.append_nil]
      rw [ht]
      exact .blocks ih (.cons hs (.nil _)) (.cons hs (.nil _)) rfl

theorem exA_some : (cutRun exT 0 (frameRun exK) exC.1 [4]).isSome = true := by decide +kernel

theorem exB_some : (cutRun exT 0 (frameRun exK) exC.1 [3, 1]).isSome = true := by decide +kernel

def exCutA : List (Nat × BlockResult Nat Int Nat) × World Nat Int Nat Unit (Nat → Int) := (cutRun exT 0 (frameRun exK) exC.1 [4]).get exA_some

def exCutB : List (Nat × BlockResult Nat Int Nat) × World Nat Int Nat Unit (Nat → Int) := (cutRun exT 0 (frameRun exK) exC.1 [3, 1]).get exB_some

theorem exTwin : ∃ t k j, Twin exT 0 (frameRun exK) exCutA.2 exCutB.2 t k j :=
  have q1 : cutRun exT 0 (frameRun exK) exC.1 [4] = some (exCutA.1, exCutA.2) := (Option.some_get exA_some).symm
  have q2 : cutRun exT 0 (frameRun exK) exC.1 [3, 1] = some (exCutB.1, exCutB.2) := (Option.some_get exB_some).symm
  ⟨_, _, _, .blocks (twin_refl exC_timed) (cut_of_run _ _ _ _ q1) (cut_of_run _ _ _ _ q2)
    ((total_of_run _ _ _ _ q1).trans (total_of_run _ _ _ _ q2).symm)⟩

/-- Both are given a new parameter value and play on. -/
def exAfter (w : World Nat Int Nat Unit (Nat → Int)) (ns : List Nat) : Option (List (Option Int)) := do
  let a ← w.step exT 0 (frameRun exK) (.setInput 1 0 900)
  let b ← a.1.step exT 0 (frameRun exK) .poll
  let x ← cutRun exT 0 (frameRun exK) b.1 ns
  return [heard 1 0 x.1 0, heard 1 0 x.1 1, heard 1 0 x.1 2]

/-- The twins differ: one of them remembers more parameters to refresh than the other. They sound the same. -/
example : (∃ t k j, Twin exT 0 (frameRun exK) exCutA.2 exCutB.2 t k j) ∧
    exCutA.2.exec.targetRefresh.length ≠ exCutB.2.exec.targetRefresh.length ∧ (exAfter exCutA.2 [3]).isSome = true ∧
    exAfter exCutA.2 [3] = exAfter exCutB.2 [1, 2] :=
  ⟨exTwin, by decide +kernel, by decide +kernel, by decide +kernel⟩

end HexoDSP.CutProps
