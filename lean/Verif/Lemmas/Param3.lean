import Verif.Lemmas.Param2
/-! Parameter values and the monitor: blocks and histories. -/

set_option linter.unusedSectionVars false

namespace HexoDSP.Engine
open EngineSpec

variable {N V A M σ : Type} [DecidableEq N]

section
variable [Add V] [Mul V] [Sub V] [Div V] [NatCast V] [OfNat V 0]

theorem Plays.withParams {T : NodeTable N V A} {l : Layout N V} {now : Playing N V A} {p : NodeProg N V A} {ps : List V}
    (h : Plays T l now p) (hl : ps.length = p.params.length) : Plays T l now { p with params := ps } :=
  ⟨h.carries.congr rfl rfl rfl rfl hl rfl rfl rfl, h.linked⟩

/-- A block up to the monitor. -/
theorem process_par {T : NodeTable N V A} {l : Layout N V} {now : Playing N V A} {k : Clock N}
    (run : σ → CallIn N V A → σ × (Nat → Block V)) {e : Exec N V A M} {h : Heap V} (st : σ) {nf : Nat}
    (hp : ParInv T l now k e h) (hpl : Plays T l now e.prog) (hnd : e.prog.owned.Nodup) (h0 : 0 < nf) (h1 : nf ≤ 128) :
    ∃ (e' : Exec N V A M) (a : RunAcc N V A σ),
      e.process run h st nf = (feedMonitors e.prog a.heap 0 e.monitorIdx).map
        (fun mon => (e', a.heap, a.st, { calls := a.calls, monitor := mon })) ∧
      BlockDone run e.prog e'.prog nf a.heap st a.st a.calls ∧
      ParInv T l now (k.block nf) e' a.heap ∧ Settled T l now k nf e.prog.inp a.heap := by
  have hsep := sep_of_owned hnd
  obtain ⟨ss, tr, ps, hh, p1, p2, p3, p4⟩ := processSmoothers_par hp hpl.carries hsep.inp h0
  have hpl' := hpl.withParams p2
  have hnd' : ({ e.prog with params := ps } : NodeProg N V A).owned.Nodup := hnd
  obtain ⟨a, a1, a2⟩ := runAll_spec (run := run) (nf := nf) (hpl'.carries.ok hnd') hpl'.linked hh st
  refine ⟨{ e with smoothers := ss, targetRefresh := tr, prog := { e.prog with params := ps, outFb := a.outFb } }, a, ?_, ?_, ?_, ?_⟩
  · unfold Exec.process
    rw [if_neg (by omega), p1]
    simp only
    have a1' : e.prog.prog.foldlM (runOp run nf { e.prog with params := ps })
      { heap := hh, st := st, calls := [], outFb := e.prog.outFb } = some a := a1
    rw [a1']
    have hfm : feedMonitors { e.prog with params := ps } a.heap 0 e.monitorIdx = feedMonitors e.prog a.heap 0 e.monitorIdx := by
      generalize e.monitorIdx = idxs
      generalize 0 = i
      induction idxs generalizing i with
      | nil => rfl
      | cons x idxs ih => simp only [feedMonitors, ih]
    simp only [hfm]
    cases feedMonitors e.prog a.heap 0 e.monitorIdx <;> rfl
  · exact ⟨a2.runs, a2.len, fun i op c hi hc => (a2.calls i op c hi hc).congr rfl rfl rfl rfl rfl, a2.fb, h0, h1⟩
  · exact p3.congr rfl rfl rfl rfl rfl p3.mon (fun b hb => a2.inp b hb)
  · intro n hn i hi
    obtain ⟨b, q1, q2⟩ := p4 n hn i hi
    refine ⟨b, q1, fun f hf hle => ?_⟩
    rw [a2.inp b (List.mem_of_getElem? q1)]
    exact q2 f hf hle

/-- What the calls of a block are given as parameters. -/
theorem settled_calls {T : NodeTable N V A} {l : Layout N V} {now : Playing N V A} {k : Clock N}
    {run : σ → CallIn N V A → σ × (Nat → Block V)} {p p' : NodeProg N V A} {nf : Nat} {H : Heap V} {st st' : σ}
    {cs : List (Call N V A)} (hc : Carries T l now p) (hd : BlockDone run p p' nf H st st' cs)
    (hs : Settled T l now k nf p.inp H) {c : Call N V A} (hm : c ∈ cs) {i : Nat} (hi : i < T.inCount c.node) :
    ∃ blk, c.params[i]? = some blk ∧ ∀ f, f < nf → k.left c.node i ≤ f + 1 → blk f = now.param c.node i := by
  obtain ⟨hn, hco⟩ := done_call hc hd hm
  obtain ⟨b, h1, h2⟩ := hs c.node (hc.ord _ hn) i hi
  refine ⟨H.data b, ?_, h2⟩
  rw [hco.params i, opFor_inR, if_pos (by simp only; omega)]
  unfold Layout.inIdx at h1
  rw [h1]
  rfl

/-- The monitor. -/
theorem monitor_calls {T : NodeTable N V A} (hI : ∀ n, T.inCount n ≤ 32) (hO : ∀ n, T.outCount n ≤ 64) {l : Layout N V}
    {now : Playing N V A} {run : σ → CallIn N V A → σ × (Nat → Block V)} {p p' : NodeProg N V A} {nf : Nat} {H : Heap V}
    {st st' : σ} {cs : List (Call N V A)} (hc : Carries T l now p) (hd : BlockDone run p p' nf H st st' cs)
    {c : Call N V A} (hm : c ∈ cs) {ins outs : List (Option Nat)} (hli : ins.length = 3) :
    ∃ mon, feedMonitors p H 0 (l.monIdx T c.node ins outs) = some mon ∧
      ∀ i blk, (i, blk) ∈ mon ↔ Shows ins outs c i blk := by
  obtain ⟨hn, hco⟩ := done_call hc hd hm
  have hn' := hc.ord _ hn
  have hget := monIdx_get T hI hO hc.small hn' (outs := outs) hli
  have hcur : ∀ k, k < T.inCount c.node → ∃ b, p.curInp[l.inIdx T c.node k]? = some (some b) ∧ c.inputs[k]? = some (H.data b) := by
    intro k hk
    obtain ⟨b, h1, _, h3⟩ := hco.cur k (by rw [opFor_inR]; simp only; omega)
    exact ⟨b, h1, h3⟩
  have hout : ∀ k, k < T.outCount c.node → ∃ b, p.out[base T.outCount l.ids c.node + k]? = some b ∧
      c.outputs[k]? = some (H.data b) := by
    intro k hk
    have hlt : base T.outCount l.ids c.node + k < p.out.length := by
      have := base_lt T.outCount hn'
      rw [hc.outLen]; omega
    refine ⟨_, List.getElem?_eq_getElem hlt, ?_⟩
    rw [hco.outputs k, opFor_outR, if_pos (by simp only; omega), List.getElem?_eq_getElem hlt]
    rfl
  have hcount : ∀ k blk, c.inputs[k]? = some blk → k < T.inCount c.node := by
    intro k blk hk
    have h1 := (List.getElem?_eq_some_iff.1 hk).1
    have h2 := hco.inLen
    rw [opFor_inR] at h2
    simp only at h2
    omega
  have hcounto : ∀ k blk, c.outputs[k]? = some blk → k < T.outCount c.node := by
    intro k blk hk
    rw [hco.outputs k, opFor_outR] at hk
    split at hk
    · rename_i h1; simp only at h1; omega
    · cases hk
  have hsome : ∃ mon, feedMonitors p H 0 (l.monIdx T c.node ins outs) = some mon := by
    apply feed_some
    intro j x hx hne
    rw [Nat.zero_add]
    unfold monBuf
    rcases (hget j x).1 ⟨hx, hne⟩ with ⟨hj, k, _, h2, rfl⟩ | ⟨hj, k, _, h2, rfl⟩
    · obtain ⟨b, hb, _⟩ := hcur k h2
      rw [if_neg (by omega), hb]
      rfl
    · obtain ⟨b, hb, _⟩ := hout k h2
      rw [if_pos (by omega), hb]
      rfl
  obtain ⟨mon, hmon⟩ := hsome
  refine ⟨mon, hmon, fun i blk => ?_⟩
  rw [feed_mem p H _ 0 mon hmon i blk]
  unfold Shows
  constructor
  · rintro ⟨x, _, h1, h2, b, h3, rfl⟩
    rw [Nat.sub_zero] at h1
    unfold monBuf at h3
    rcases (hget i x).1 ⟨h1, h2⟩ with ⟨hj, k, q1, q2, rfl⟩ | ⟨hj, k, q1, q2, rfl⟩
    · obtain ⟨b', hb, hb'⟩ := hcur k q2
      rw [if_neg (by omega), hb] at h3
      cases h3
      exact .inl ⟨hj, k, q1, hb'⟩
    · obtain ⟨b', hb, hb'⟩ := hout k q2
      rw [if_pos (by omega), hb] at h3
      cases h3
      exact .inr ⟨hj, k, q1, hb'⟩
  · rintro (⟨hj, k, q1, q2⟩ | ⟨hj, k, q1, q2⟩)
    · have hk := hcount k blk q2
      obtain ⟨b', hb, hb'⟩ := hcur k hk
      obtain ⟨g1, g2⟩ := (hget i (l.inIdx T c.node k)).2 (.inl ⟨hj, k, q1, hk, rfl⟩)
      refine ⟨_, Nat.zero_le _, by rw [Nat.sub_zero]; exact g1, g2, b', ?_, ?_⟩
      · unfold monBuf
        rw [if_neg (by omega), hb]
        rfl
      · rw [hb'] at q2
        exact (Option.some.inj q2).symm
    · have hk := hcounto k blk q2
      obtain ⟨b', hb, hb'⟩ := hout k hk
      obtain ⟨g1, g2⟩ := (hget i (base T.outCount l.ids c.node + k)).2 (.inr ⟨hj, k, q1, hk, rfl⟩)
      refine ⟨_, Nat.zero_le _, by rw [Nat.sub_zero]; exact g1, g2, b', ?_, ?_⟩
      · unfold monBuf
        rw [if_pos (by omega), hb]
      · rw [hb'] at q2
        exact (Option.some.inj q2).symm

theorem feed_unused (p : NodeProg N V A) (h : Heap V) (m : Nat) : ∀ i, feedMonitors p h i (List.replicate m 99999) = some [] := by
  induction m with
  | zero => intro i; rfl
  | succ m ih => intro i; rw [List.replicate_succ]; simp only [feedMonitors, if_true]; exact ih (i + 1)

end

/-! ### Histories -/

section
variable [Add V] [Mul V] [Sub V] [Div V] [NatCast V] [OfNat V 0]

/-- The engine, the reference machine and the clock. -/
structure TSim (T : NodeTable N V A) (w : World N V A M σ) (t : Track N V A) (k : Clock N) : Prop where
  sim : ∃ le lc, SimAt T le lc w t ∧ ParInv T le t.now k w.exec w.shared.heap
  calm : CalmQ k t.pending
  cold : ∀ n i, k.hot n i = false → k.left n i = 0

theorem tsim_new_at (T : NodeTable N V A) (st : σ) : SimAt T Layout.empty Layout.empty (World.new st : World N V A M σ) (Track.new T) ∧
    ParInv T Layout.empty (Track.new T).now Clock.new (World.new st : World N V A M σ).exec (World.new st : World N V A M σ).shared.heap := by
  have hbusy : busy (List.replicate 40 ((0, Smoother.new) : Nat × Smoother V)) = [] := by
    rw [List.eq_nil_iff_forall_not_mem]
    intro g hg
    obtain ⟨s, h1, h2⟩ := mem_busy.1 hg
    have := List.eq_of_mem_replicate h1
    cases this
    cases h2
  refine ⟨⟨carries_empty T _ rfl rfl, .nil _ _, confLay_new T, fun n hn => by cases hn⟩, ?_⟩
  refine ⟨rfl, ?_, ?_, ?_, fun r hr => absurd hr (by simp [World.new, Exec.new]),
    fun n hn => absurd hn (by simp [Layout.empty]), rfl⟩
  · intro x hx
    have hx' : x ∈ List.replicate 40 ((0, Smoother.new) : Nat × Smoother V) := hx
    rw [List.eq_of_mem_replicate hx']
    rfl
  · show (busy (List.replicate 40 ((0, Smoother.new) : Nat × Smoother V))).Nodup
    rw [hbusy]
    exact List.nodup_nil
  · intro g s hg hs
    have : g ∈ busy (List.replicate 40 ((0, Smoother.new) : Nat × Smoother V)) := mem_busy.2 ⟨s, hg, hs⟩
    rw [hbusy] at this
    cases this

theorem calmQ_nil (k : Clock N) : CalmQ k ([] : List (Update N V A)) := by
  intro a b hab
  simp at hab

theorem tsim_new (T : NodeTable N V A) (st : σ) : TSim T (World.new st : World N V A M σ) (Track.new T) Clock.new :=
  ⟨⟨_, _, tsim_new_at T st⟩, calmQ_nil _, fun _ _ _ => rfl⟩

theorem send_frame (w : World N V A M σ) (m : Msg N V A M) : (w.send m).exec = w.exec ∧
    (w.send m).shared.heap.data = w.shared.heap.data := by
  unfold World.send
  split <;> exact ⟨rfl, rfl⟩

theorem sendAll_frame (ms : List (Msg N V A M)) : ∀ (w : World N V A M σ), (w.sendAll ms).exec = w.exec ∧
    (w.sendAll ms).shared.heap.data = w.shared.heap.data := by
  induction ms with
  | nil => intro w; exact ⟨rfl, rfl⟩
  | cons m ms ih =>
    intro w
    obtain ⟨h1, h2⟩ := ih (w.send m)
    obtain ⟨h3, h4⟩ := send_frame w m
    exact ⟨h1.trans h3, h2.trans h4⟩

theorem build_data {T : NodeTable N V A} {a0 : A} {c c' : Conf N V A} {h h' : Heap V} {order : List N}
    {es : List (Conn N)} {p : NodeProg N V A} (hb : c.buildProg T a0 h order es = some (c', p, h')) (b : Nat)
    (hlt : b < h.next) : h'.data b = h.data b := by
  have key : ∀ (h : Heap V) (n : Nat), b < h.next → (h.alloc n).2.data b = h.data b ∧ b < (h.alloc n).2.next := by
    intro h n hlt
    refine ⟨if_neg (by omega), ?_⟩
    show b < h.next + n
    omega
  rw [(buildProg_split hb).2]
  have k1 := key h (c.rebuildLoop T).outLen hlt
  have k2 := key _ (c.rebuildLoop T).inLen k1.2
  have k3 := key _ (c.rebuildLoop T).modLen k2.2
  exact k3.1.trans (k2.1.trans k1.1)

/-- Calls that leave the executor alone. -/
def quiet : EOp N V A M → Bool
  | .poll => false
  | .process _ => false
  | .setSlope _ => false
  | _ => true

theorem step_frame {T : NodeTable N V A} {a0 : A} {run : σ → CallIn N V A → σ × (Nat → Block V)}
    {w w' : World N V A M σ} {op : EOp N V A M} {out : Option (BlockResult N V A)} (hs : w.step T a0 run op = some (w', out)) :
    op = .poll ∨ (∃ nf, op = .process nf) ∨ (∃ n, op = .setSlope n) ∨
      (quiet op = true ∧ w'.exec = w.exec ∧ ∀ b : Nat, b < w.shared.heap.next → w'.shared.heap.data b = w.shared.heap.data b) := by
  have hsend : ∀ (c : Conf N V A) (ms : List (Msg N V A M)), w' = ({ w with conf := c }.sendAll ms) →
      w'.exec = w.exec ∧ ∀ b : Nat, b < w.shared.heap.next → w'.shared.heap.data b = w.shared.heap.data b := by
    rintro c ms rfl
    obtain ⟨h1, h2⟩ := sendAll_frame ms { w with conf := c }
    exact ⟨h1, fun b _ => by rw [h2]⟩
  cases op with
  | poll => exact .inl rfl
  | process nf => exact .inr (.inl ⟨nf, rfl⟩)
  | setSlope n => exact .inr (.inr (.inl ⟨n, rfl⟩))
  | createNode n => cases hs; exact .inr (.inr (.inr ⟨rfl, rfl, fun _ _ => rfl⟩))
  | deleteNodes =>
    simp only [World.step, Option.some.injEq, Prod.mk.injEq] at hs
    exact .inr (.inr (.inr ⟨rfl, hsend _ _ hs.1.symm⟩))
  | setInput n i v =>
    simp only [World.step, Option.some.injEq, Prod.mk.injEq] at hs
    exact .inr (.inr (.inr ⟨rfl, hsend _ _ hs.1.symm⟩))
  | setAtom n i a =>
    simp only [World.step, Option.some.injEq, Prod.mk.injEq] at hs
    exact .inr (.inr (.inr ⟨rfl, hsend _ _ hs.1.symm⟩))
  | setModamt p v =>
    simp only [World.step, Option.some.injEq, Prod.mk.injEq] at hs
    exact .inr (.inr (.inr ⟨rfl, hsend _ _ hs.1.symm⟩))
  | sync order es co =>
    simp only [World.step] at hs
    obtain ⟨⟨c1, p1, hp1⟩, hb, heq⟩ := Option.map_eq_some_iff.1 hs
    simp only [Prod.mk.injEq] at heq
    obtain ⟨rfl, _⟩ := heq
    obtain ⟨h1, h2⟩ := send_frame { w with conf := c1, shared := { w.shared with heap := hp1 } } (.newProg (c1.fillProg p1) co)
    refine .inr (.inr (.inr ⟨rfl, h1, fun b hlt => ?_⟩))
    rw [h2]
    exact build_data hb b hlt
  | monitor n ins outs =>
    simp only [World.step, Option.some.injEq, Prod.mk.injEq] at hs
    exact .inr (.inr (.inr ⟨rfl, hsend w.conf _ hs.1.symm⟩))
  | injectMidi ev =>
    simp only [World.step, Option.some.injEq, Prod.mk.injEq] at hs
    obtain ⟨rfl, _⟩ := hs
    obtain ⟨h1, h2⟩ := send_frame w (.injectMidi ev)
    exact .inr (.inr (.inr ⟨rfl, h1, fun b _ => by rw [h2]⟩))
  | dropOne =>
    simp only [World.step] at hs
    split at hs
    · cases hs; exact .inr (.inr (.inr ⟨rfl, rfl, fun _ _ => rfl⟩))
    · cases hs; exact .inr (.inr (.inr ⟨rfl, rfl, fun _ _ => rfl⟩))

theorem account_lt {w : World N V A M σ} (h : Account w) {b : Nat} (hb : b ∈ w.exec.prog.owned) : b < w.shared.heap.next := by
  have h1 := h.once b
  rw [count_buffers] at h1
  have h2 : 0 < w.exec.prog.owned.count b := List.count_pos_iff.2 hb
  unfold cnt at h1
  split at h1
  · assumption
  · omega

/-- Calls that only add to what is pending. -/
theorem CalmQ.append {k : Clock N} {us u : List (Update N V A)} (h : CalmQ k us)
    (hu : Update.clear ∈ u → (∀ n i, k.hot n i = false) ∧ ∀ n i v, Update.param n i v ∉ us ++ u) : CalmQ k (us ++ u) := by
  intro a b hab
  by_cases hc : Update.clear ∈ u
  · obtain ⟨h1, h2⟩ := hu hc
    exact ⟨h1, fun n i v hm => h2 n i v (by rw [hab]; simp [hm])⟩
  · rcases List.append_eq_append_iff.1 hab with ⟨x, h1, h2⟩ | ⟨x, h1, h2⟩
    · exact absurd (by rw [h2]; simp) hc
    · cases x with
      | nil =>
        simp only [List.nil_append] at h2
        exact absurd (by rw [← h2]; simp) hc
      | cons y x =>
        simp only [List.cons_append, List.cons.injEq] at h2
        exact h a x (by rw [h1, h2.1])

theorem tsim_step_at {T : NodeTable N V A} (hT : ∀ n, T.inCount n ≤ 32) {a0 : A}
    {run : σ → CallIn N V A → σ × (Nat → Block V)}
    {w w' : World N V A M σ} {t : Track N V A} {k : Clock N} {op : EOp N V A M} {out : Option (BlockResult N V A)} {le lc : Layout N V}
    (hwf : ConfWF w.conf) (hacc : Account w) (hsim : SimAt T le lc w t) (hpar : ParInv T le t.now k w.exec w.shared.heap)
    (hcalm : CalmQ k t.pending) (hcold : ∀ n i, k.hot n i = false → k.left n i = 0) (hg : Gentle T w t k op)
    (hs : w.step T a0 run op = some (w', out)) :
    ∃ lc', SimAt T (nextLay le lc op) lc' w' (t.step T w.conf op) ∧
      ParInv T (nextLay le lc op) (t.step T w.conf op).now (k.step t.pending op) w'.exec w'.shared.heap ∧
      CalmQ (k.step t.pending op) (t.step T w.conf op).pending ∧
      ∀ n i, (k.step t.pending op).hot n i = false → (k.step t.pending op).left n i = 0 := by
  obtain ⟨lc', hsim'⟩ := simAt_step hT hwf hacc hsim hg.careful hs
  rcases step_frame hs with rfl | ⟨nf, rfl⟩ | ⟨n, rfl⟩ | ⟨hq, hexec, hdata⟩
  · -- poll
    obtain ⟨h1, h2, h3, h4⟩ := hsim
    have hkeep : ∀ (us : List (Update N V A)) (k : Clock N), (∀ n i, k.hot n i = false → k.left n i = 0) →
        ∀ n i, (us.foldl Clock.take k).hot n i = false → (us.foldl Clock.take k).left n i = 0 := by
      intro us
      induction us with
      | nil => intro k hk; exact hk
      | cons u us ih =>
        intro k hk
        rw [List.foldl_cons]
        refine ih _ ?_
        cases u with
        | param m j v =>
          intro n i
          show (if n = m ∧ i = j then true else k.hot n i) = false → (if n = m ∧ i = j then k.slope + 1 else k.left n i) = 0
          split
          · intro hc; cases hc
          · exact hk n i
        | store m j v => exact hk
        | program p => exact hk
        | clear => exact hk
        | atom m j a => exact hk
        | amount m j v => exact hk
        | monitor m a b => exact hk
    simp only [World.step] at hs
    obtain ⟨⟨e', s'⟩, ha, heq⟩ := Option.map_eq_some_iff.1 hs
    simp only [Prod.mk.injEq] at heq
    obtain ⟨rfl, _⟩ := heq
    refine ⟨lc', hsim', ?_, ?_, hkeep t.pending k hcold⟩
    · exact applyAll_par h2 h1 hacc.refs hacc.fresh (account_cnt hacc) hpar (hg.few rfl) hcalm ha
    · intro a b hab
      have hab' : ([] : List (Update N V A)) = a ++ .clear :: b := hab
      simp at hab'
  · -- process
    have ht : t.step T w.conf (.process nf : EOp N V A M) = t := by simp [Track.step, asks]
    rw [ht] at hsim' ⊢
    simp only [World.step] at hs
    obtain ⟨⟨e', h', st', r⟩, hb, heq⟩ := Option.map_eq_some_iff.1 hs
    simp only [Prod.mk.injEq] at heq
    obtain ⟨rfl, _⟩ := heq
    have hnf : 0 < nf ∧ nf ≤ 128 := (process_plays run hsim.1 (account_owned hacc) hb).2.frames
    obtain ⟨e1, a, p1, p2, p3, p4⟩ := process_par run w.st hpar hsim.1 (account_owned hacc) hnf.1 hnf.2
    rw [p1] at hb
    obtain ⟨mon, _, heq⟩ := Option.map_eq_some_iff.1 hb
    simp only [Prod.mk.injEq] at heq
    obtain ⟨rfl, rfl, rfl, rfl⟩ := heq
    refine ⟨lc', hsim', p3, ?_, ?_⟩
    · intro x y hxy
      obtain ⟨h1, h2⟩ := hcalm x y hxy
      refine ⟨fun n i => ?_, h2⟩
      show decide (0 < k.left n i) = false
      simp [hcold n i (h1 n i)]
    · intro n i hh
      have hh' : decide (0 < k.left n i) = false := hh
      show k.left n i - nf = 0
      simp only [decide_eq_false_iff_not] at hh'
      omega
  · -- setSlope
    have ht : t.step T w.conf (.setSlope n : EOp N V A M) = t := by simp [Track.step, asks]
    rw [ht] at hsim' ⊢
    cases hs
    refine ⟨lc', hsim', ?_, hcalm, hcold⟩
    have hmem : ∀ (g : Nat) (s : Smoother V), (g, s) ∈ w.exec.smoothers.map (fun s => (s.1, s.2.setSlope n)) →
        ∃ s0, (g, s0) ∈ w.exec.smoothers ∧ s = s0.setSlope n := by
      intro g s hx
      obtain ⟨⟨g', s'⟩, h1, h2⟩ := List.mem_map.1 hx
      cases h2
      exact ⟨s', h1, rfl⟩
    have hbusy : busy (w.exec.smoothers.map (fun s => (s.1, s.2.setSlope n))) = busy w.exec.smoothers := by
      generalize w.exec.smoothers = xs
      induction xs with
      | nil => rfl
      | cons x xs ih =>
        rw [List.map_cons, busy_cons, busy_cons, ih]
        rfl
    refine ⟨by simp [Exec.setSlope, hpar.len], ?_, ?_, ?_, ?_, ?_, hpar.mon⟩
    · intro x hx
      obtain ⟨s0, h1, h2⟩ := hmem x.1 x.2 hx
      rw [h2]
      rfl
    · show (busy (w.exec.smoothers.map (fun s => (s.1, s.2.setSlope n)))).Nodup
      rw [hbusy]; exact hpar.nodup
    · intro g s hg' hd
      obtain ⟨s0, h1, rfl⟩ := hmem g s hg'
      exact hpar.run g s0 h1 hd
    · intro r hr
      obtain ⟨m, j, q1, q2, q3, q4, q5⟩ := hpar.fresh r hr
      refine ⟨m, j, q1, q2, q3, q4, fun hb => q5 ?_⟩
      rw [← hbusy]; exact hb
    · intro m hm j hj hb
      refine hpar.still m hm j hj ?_
      rw [← hbusy]; exact hb
  · -- the executor is left alone
    have hpar' : ∀ now', now' = t.now → ParInv T le now' k w'.exec w'.shared.heap := by
      rintro _ rfl
      refine hpar.congr rfl (by rw [hexec]) (by rw [hexec]) (by rw [hexec]) (by rw [hexec]) (by rw [hexec]; exact hpar.mon) ?_
      intro b hb
      refine hdata b (account_lt hacc ?_)
      unfold NodeProg.owned
      simp [hb]
    have hcalm' : ∀ op' : EOp N V A M, op = op' → CalmQ k (t.pending ++ asks T w.conf op') := by
      rintro _ rfl
      refine hcalm.append fun hc => ?_
      have hdel : op = .deleteNodes := by
        cases op with
        | deleteNodes => rfl
        | setInput n i v => simp only [asks] at hc; split at hc <;> simp at hc
        | setAtom n i a => simp [asks] at hc
        | sync o es co => simp [asks] at hc
        | setModamt p v =>
          cases p with
          | atom n i => simp [asks] at hc
          | input n i =>
            cases v with
            | none => simp [asks] at hc
            | some v =>
              simp only [asks] at hc
              split at hc <;> simp at hc
        | monitor n a b =>
          simp only [asks] at hc
          split at hc <;> simp at hc
        | createNode n => simp [asks] at hc
        | injectMidi e => simp [asks] at hc
        | poll => simp [asks] at hc
        | process n => simp [asks] at hc
        | dropOne => simp [asks] at hc
        | setSlope n => simp [asks] at hc
      obtain ⟨c1, c2⟩ := hg.calm hdel
      refine ⟨c1, fun n i v hm => ?_⟩
      rw [hdel] at hm
      rcases List.mem_append.1 hm with hm | hm
      · exact c2 n i v hm
      · simp [asks] at hm
    cases op with
    | poll => cases hq
    | process nf => cases hq
    | setSlope n => cases hq
    | _ => exact ⟨lc', hsim', hpar' _ rfl, hcalm' _ rfl, hcold⟩

theorem tsim_step {T : NodeTable N V A} (hT : ∀ n, T.inCount n ≤ 32) {a0 : A}
    {run : σ → CallIn N V A → σ × (Nat → Block V)}
    {w w' : World N V A M σ} {t : Track N V A} {k : Clock N} {op : EOp N V A M} {out : Option (BlockResult N V A)}
    (hwf : ConfWF w.conf) (hacc : Account w) (h : TSim T w t k) (hg : Gentle T w t k op)
    (hs : w.step T a0 run op = some (w', out)) : TSim T w' (t.step T w.conf op) (k.step t.pending op) := by
  obtain ⟨⟨le, lc, hsim, hpar⟩, hcalm, hcold⟩ := h
  obtain ⟨lc', h1, h2, h3, h4⟩ := tsim_step_at hT hwf hacc hsim hpar hcalm hcold hg hs
  exact ⟨⟨_, lc', h1, h2⟩, h3, h4⟩

end

end HexoDSP.Engine
