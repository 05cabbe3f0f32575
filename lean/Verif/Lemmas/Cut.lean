import Verif.Lemmas.Param3
import Verif.Spec.Cut
/-! Blocks of frame-wise nodes, taken together, are the patch played frame by frame. -/

set_option linter.unusedSectionVars false

namespace HexoDSP.Engine
open EngineSpec SmootherLemmas

variable {N V A M S : Type} [DecidableEq N]

/-! ### The course of a parameter -/

section
variable [Add V]

theorem after_add (s : Smoother V) (a b : Nat) : (s.after a).after b = s.after (a + b) := by
  induction b with
  | zero => rfl
  | succ b ih => rw [← Nat.add_assoc]; simp only [Smoother.after, ih]

theorem out_add (s : Smoother V) (a b : Nat) : (s.after a).out b = s.out (b + a) := by
  simp only [Smoother.out, after_add, Nat.add_comm]

/-- What the parameter with index `g` does from now on: the way of its smoother, else it stays at `c`. -/
def course (ss : List (Nat × Smoother V)) (g : Nat) (c : V) : Nat → V :=
  match ss.find? (fun x => !x.2.done && x.1 == g) with
  | some x => x.2.out
  | none => fun _ => c

theorem course_idle {ss : List (Nat × Smoother V)} {g : Nat} {c : V} (h : g ∉ busy ss) : course ss g c = fun _ => c := by
  have : ss.find? (fun x => !x.2.done && x.1 == g) = none := by
    rw [List.find?_eq_none]
    intro x hx hc
    simp only [Bool.and_eq_true, Bool.not_eq_true', beq_iff_eq] at hc
    exact h (mem_busy.2 ⟨x.2, by rw [← hc.2]; exact hx, hc.1⟩)
  simp only [course, this]

theorem course_busy {ss : List (Nat × Smoother V)} {g : Nat} {c : V} {s : Smoother V} (hnd : (busy ss).Nodup)
    (h : (g, s) ∈ ss) (hd : s.done = false) : course ss g c = s.out := by
  induction ss with
  | nil => cases h
  | cons x ss ih =>
    rw [busy_cons] at hnd
    unfold course
    rw [List.find?_cons]
    by_cases hx : (!x.2.done && x.1 == g) = true
    · rw [hx]
      simp only
      rcases List.mem_cons.1 h with rfl | hm
      · rfl
      · simp only [Bool.and_eq_true, Bool.not_eq_true', beq_iff_eq] at hx
        rw [if_neg (by simp [hx.1])] at hnd
        exact absurd (mem_busy.2 ⟨s, by rw [hx.2]; exact hm, hd⟩) (List.nodup_cons.1 hnd).1
    · simp only [Bool.not_eq_true] at hx
      rw [hx]
      simp only
      rcases List.mem_cons.1 h with rfl | hm
      · simp [hd] at hx
      · refine ih ?_ hm
        split at hnd
        · exact hnd
        · exact (List.nodup_cons.1 hnd).2

theorem course_shift {ss : List (Nat × Smoother V)} {g : Nat} {c : V} (hnd : (busy ss).Nodup)
    (ht : ∀ s, (g, s) ∈ ss → s.done = false → s.target = c) (nf f : Nat) [Mul V] [OfNat V 0] :
    course (ss.map (fun x => if x.2.done then x else (x.1, x.2.after nf))) g c f = course ss g c (f + nf) := by
  have hnd' := hnd.sublist (busy_after_sublist ss nf)
  by_cases hb : g ∈ busy ss
  · obtain ⟨s, h1, h2⟩ := mem_busy.1 hb
    rw [course_busy hnd h1 h2]
    by_cases hc : nf ≤ s.count
    · have hm : (g, s.after nf) ∈ ss.map (fun x => if x.2.done then x else (x.1, x.2.after nf)) :=
        List.mem_map.2 ⟨(g, s), h1, by simp [h2]⟩
      rw [course_busy hnd' hm (by rw [done_after s h2]; simpa using hc), out_add]
    · have hb' : g ∉ busy (ss.map (fun x => if x.2.done then x else (x.1, x.2.after nf))) := by
        rw [busy_after]
        rintro ⟨s', q1, q2, q3⟩
        have e1 := course_busy (c := c) hnd h1 h2
        have : s' = s := by
          clear e1 hnd' ht hb hc
          induction ss with
          | nil => cases h1
          | cons x ss ih =>
            rw [busy_cons] at hnd
            rcases List.mem_cons.1 h1 with rfl | h1'
            · rw [if_neg (by simp [h2])] at hnd
              rcases List.mem_cons.1 q1 with he | q1'
              · cases he; rfl
              · exact absurd (mem_busy.2 ⟨s', q1', q2⟩) (List.nodup_cons.1 hnd).1
            · rcases List.mem_cons.1 q1 with rfl | q1'
              · rw [if_neg (by simp [q2])] at hnd
                exact absurd (mem_busy.2 ⟨s, h1', h2⟩) (List.nodup_cons.1 hnd).1
              · refine ih ?_ h1' q1'
                split at hnd
                · exact hnd
                · exact (List.nodup_cons.1 hnd).2
        exact hc (this ▸ q3)
      rw [course_idle hb', out_target s (by omega), ht s h1 h2]
  · have hb' := fun h => hb ((busy_after_sublist ss nf).subset h)
    rw [course_idle hb, course_idle hb']

end

section
variable [Add V] [Mul V] [Sub V] [Div V] [NatCast V] [OfNat V 0]

/-- What the smoothers write for a block, and what becomes of them. -/
theorem processSmoothers_course {T : NodeTable N V A} {l : Layout N V} {now : Playing N V A} {k : Clock N}
    {e e1 : Exec N V A M} {h h1 : Heap V} {nf : Nat} (hp : ParInv T l now k e h) (hc : Carries T l now e.prog)
    (hnd : e.prog.inp.Nodup) (hnf : 0 < nf) (he : e.processSmoothers h nf = some (e1, h1)) :
    e1.smoothers = e.smoothers.map (fun x => if x.2.done then x else (x.1, x.2.after nf)) ∧
    ∀ n ∈ l.ids, ∀ i, i < T.inCount n → ∃ b, e.prog.inp[l.inIdx T n i]? = some b ∧
      ∀ f, f < nf → h1.data b f = course e.smoothers (l.inIdx T n i) (now.param n i) f := by
  have hfr : ∀ r ∈ e.targetRefresh.reverse, r.1 < e.prog.inp.length := by
    intro r hr
    obtain ⟨n, i, q1, q2, q3, _⟩ := hp.fresh r (List.mem_reverse.1 hr)
    rw [q3]
    exact inIdx_lt hc q1 q2
  obtain ⟨h0, r1, r2⟩ := refreshTargets_spec hnd e.targetRefresh.reverse h hfr
  have hb : ∀ g ∈ busy e.smoothers, g < e.prog.inp.length := by
    intro g hg
    obtain ⟨s, h1, h2⟩ := mem_busy.1 hg
    obtain ⟨n, i, q1, q2, q3, _⟩ := hp.run g s h1 h2
    rw [q3]
    exact inIdx_lt hc q1 q2
  obtain ⟨ss, a, s1, s2⟩ := runSmoothers_spec hnd hnf e.smoothers { heap := h0, params := e.prog.params, refresh := [] }
    hp.nodup hb
  unfold Exec.processSmoothers at he
  rw [r1] at he
  simp only [s1, Option.some.injEq, Prod.mk.injEq] at he
  obtain ⟨rfl, rfl⟩ := he
  refine ⟨s2.pool, fun n hn i hi => ?_⟩
  have hlt := inIdx_lt hc hn hi
  refine ⟨_, List.getElem?_eq_getElem hlt, fun f hf => ?_⟩
  by_cases hbz : l.inIdx T n i ∈ busy e.smoothers
  · obtain ⟨s, q1, q2⟩ := mem_busy.1 hbz
    rw [s2.data _ s _ q1 q2 (List.getElem?_eq_getElem hlt) f hf, course_busy hp.nodup q1 q2]
  · rw [s2.dataElse _ _ hbz (List.getElem?_eq_getElem hlt), course_idle hbz]
    refine congrFun (r2 _ _ _ (List.getElem?_eq_getElem hlt) ?_ ?_) f
    · intro r hr he
      obtain ⟨m, j, q1, q2, q3, _, q5⟩ := hp.fresh r (List.mem_reverse.1 hr)
      obtain ⟨rfl, rfl⟩ := inIdx_inj T q1 hn q2 hi (q3.symm.trans he)
      exact q5 (by rw [he]; exact hbz)
    · rcases (hp.still n hn i hi hbz).2 with ⟨r, hr, he⟩ | ⟨b, h2, h3⟩
      · exact .inl ⟨r, List.mem_reverse.2 hr, he⟩
      · right
        rw [List.getElem?_eq_getElem hlt] at h2
        cases h2
        exact h3

/-- A block: what is left of it, and what the calls are given as parameters. -/
theorem process_course {σ : Type} {T : NodeTable N V A} {l : Layout N V} {now : Playing N V A} {k : Clock N}
    {run : σ → CallIn N V A → σ × (Nat → Block V)} {e e' : Exec N V A M} {h h' : Heap V} {st st' : σ} {nf : Nat}
    {r : BlockResult N V A} (hp : ParInv T l now k e h) (hpl : Plays T l now e.prog) (hnd : e.prog.owned.Nodup)
    (hpr : e.process run h st nf = some (e', h', st', r)) :
    (0 < nf ∧ nf ≤ 128) ∧ Plays T l now e'.prog ∧ ParInv T l now (k.block nf) e' h' ∧ e'.prog.owned.Nodup ∧
    BlockDone run e.prog e'.prog nf h' st st' r.calls ∧
    e'.smoothers = e.smoothers.map (fun x => if x.2.done then x else (x.1, x.2.after nf)) ∧
    ∀ c ∈ r.calls, ∀ i, i < T.inCount c.node → ∃ blk, c.params[i]? = some blk ∧
      ∀ f, f < nf → blk f = course e.smoothers (l.inIdx T c.node i) (now.param c.node i) f := by
  obtain ⟨hpl', hd⟩ := process_plays run hpl hnd hpr
  have hnf := hd.frames
  have hsep := sep_of_owned hnd
  obtain ⟨ss, tr, ps, hh, p1, p2, p3, p4⟩ := processSmoothers_par hp hpl.carries hsep.inp hnf.1
  obtain ⟨c1, c2⟩ := processSmoothers_course hp hpl.carries hsep.inp hnf.1 p1
  have hplp := hpl.withParams p2
  have hnd' : ({ e.prog with params := ps } : NodeProg N V A).owned.Nodup := hnd
  obtain ⟨a, a1, a2⟩ := runAll_spec (run := run) (nf := nf) (hplp.carries.ok hnd') hplp.linked hh st
  have hown : e'.prog.owned.Nodup := by
    obtain ⟨_, t1, t2, t3, _⟩ := process_touches run hpr
    unfold NodeProg.owned at hnd ⊢
    rw [t1, t2, t3]
    exact hnd
  unfold Exec.process at hpr
  rw [if_neg (by omega), p1] at hpr
  simp only at hpr
  have a1' : e.prog.prog.foldlM (runOp run nf { e.prog with params := ps })
    { heap := hh, st := st, calls := [], outFb := e.prog.outFb } = some a := a1
  rw [a1'] at hpr
  simp only at hpr
  cases hx : feedMonitors { e.prog with params := ps } a.heap 0 e.monitorIdx with
  | none => rw [hx] at hpr; cases hpr
  | some mon =>
    rw [hx] at hpr
    simp only [Option.some.injEq, Prod.mk.injEq] at hpr
    obtain ⟨rfl, rfl, rfl, rfl⟩ := hpr
    refine ⟨hnf, hpl', p3.congr rfl rfl rfl rfl rfl p3.mon (fun b hb => a2.inp b hb), hown, hd, c1, ?_⟩
    intro c hc i hi
    obtain ⟨hn, hco⟩ := done_call hpl.carries hd hc
    obtain ⟨b, h1, h2⟩ := c2 c.node (hpl.carries.ord _ hn) i hi
    refine ⟨a.heap.data b, ?_, fun f hf => ?_⟩
    · rw [hco.params i, opFor_inR, if_pos (by simp only; omega)]
      unfold Layout.inIdx at h1
      rw [h1]
      rfl
    · rw [a2.inp b (List.mem_of_getElem? h1)]
      exact h2 f hf

/-! ### The calls of frame-wise nodes -/

theorem runs_frames (K : FrameNodes N V A S) (cs : List (Call N V A)) : ∀ {st st' : N → S}, Runs (frameRun K) st cs st' →
    (cs.map (fun c => c.node)).Nodup →
    (∀ c ∈ cs, c.outputs = (List.range c.oldOut.length).map (frameRun K st c.toCallIn).2 ∧
      st' c.node = frameState K c.toCallIn (st c.node) c.nframes) ∧
    ∀ m, m ∉ cs.map (fun c => c.node) → st' m = st m := by
  induction cs with
  | nil =>
    intro st st' h _
    refine ⟨fun c hc => absurd hc (by simp), fun m _ => ?_⟩
    rw [show st' = st from h]
  | cons d cs ih =>
    intro st st' h hnd
    rw [List.map_cons, List.nodup_cons] at hnd
    obtain ⟨h1, h2⟩ := h
    obtain ⟨i1, i2⟩ := ih h2 hnd.2
    have hst : ∀ m, m ≠ d.node → (frameRun K st d.toCallIn).1 m = st m := fun m hm => if_neg hm
    refine ⟨fun c hc => ?_, fun m hm => ?_⟩
    · rcases List.mem_cons.1 hc with rfl | hc
      · refine ⟨h1, ?_⟩
        rw [i2 _ hnd.1]
        exact if_pos rfl
      · obtain ⟨j1, j2⟩ := i1 c hc
        have hne : c.node ≠ d.node := fun he => hnd.1 (he ▸ List.mem_map.2 ⟨c, hc, rfl⟩)
        rw [hst _ hne] at j2
        refine ⟨?_, j2⟩
        rw [j1]
        simp only [frameRun, if_neg hne]
    · rw [List.map_cons, List.mem_cons, not_or] at hm
      rw [i2 m hm.2, hst m hm.1]

theorem feeds_or (T : NodeTable N V A) (n : N) (k : Nat) : ∀ es : List (Conn N), Unfed T es n k ∨ ∃ e, Feeds T es n k e := by
  intro es
  induction es with
  | nil => exact .inl (fun e he => by cases he)
  | cons e es ih =>
    rcases ih with hu | ⟨e', h1, h2, h3, pre, post, h4, h5⟩
    · by_cases hc : Plugged T e ∧ e.dst = n ∧ e.dstIn = k
      · exact .inr ⟨e, hc.1, hc.2.1, hc.2.2, [], es, rfl, hu⟩
      · left
        intro x hx hp hxe
        rcases List.mem_cons.1 hx with rfl | hx
        · exact hc ⟨hp, hxe⟩
        · exact hu x hx hp hxe
    · exact .inr ⟨e', h1, h2, h3, e :: pre, post, by rw [h4]; rfl, h5⟩

theorem _root_.HexoDSP.EngineSpec.Feeds.mem {T : NodeTable N V A} {es : List (Conn N)} {n : N} {k : Nat} {e : Conn N} (h : Feeds T es n k e) : e ∈ es := by
  obtain ⟨_, _, _, pre, post, rfl, _⟩ := h
  simp

/-- What a node is given in a frame depends only on the parameters and on the outputs that feed it. -/
theorem _root_.HexoDSP.EngineSpec.FrameOK.eq {T : NodeTable N V A} {pl : Playing N V A} {par out out' : N → Nat → V} {n : N} {fi fi' : FrameIn V A}
    (h : FrameOK T pl par out n fi) (h' : FrameOK T pl par out' n fi')
    (ho : ∀ k e, Feeds T pl.wires n k e → out e.src e.srcOut = out' e.src e.srcOut) : fi = fi' := by
  have h1 : fi.params = fi'.params := h.params.trans h'.params.symm
  have h2 : fi.atoms = fi'.atoms := h.atoms.trans h'.atoms.symm
  have h3 : fi.inputs = fi'.inputs := by
    apply List.ext_getElem?
    intro k
    by_cases hk : k < T.inCount n
    · rcases feeds_or T n k pl.wires with hu | ⟨e, hf⟩
      · rw [h.unfed k hk hu, h'.unfed k hk hu]
      · cases ha : pl.amt n k with
        | none => rw [h.direct k e hf ha, h'.direct k e hf ha, ho k e hf]
        | some a => rw [h.modulated k e a hf ha, h'.modulated k e a hf ha, ho k e hf]
    · rw [List.getElem?_eq_none (by have := h.nInputs; omega), List.getElem?_eq_none (by have := h'.nInputs; omega)]
  have h4 : fi.inConnected = fi'.inConnected := by
    apply Nat.eq_of_testBit_eq
    intro k
    rw [Bool.eq_iff_iff, h.inFlags, h'.inFlags]
  have h5 : fi.outConnected = fi'.outConnected := by
    apply Nat.eq_of_testBit_eq
    intro k
    rw [Bool.eq_iff_iff, h.outFlags, h'.outFlags]
  cases fi; cases fi'
  simp only at h1 h2 h3 h4 h5
  subst h1 h2 h3 h4 h5
  rfl

theorem before_idx {l : List N} (hnd : l.Nodup) {a b : N} (h : GraphOrdering.Before l a b) : l.idxOf a < l.idxOf b := by
  obtain ⟨p, q, r, rfl⟩ := h
  have ha : a ∉ p := by
    intro hc
    simp only [List.append_assoc, List.nodup_append] at hnd
    exact hnd.2.2 a hc a (by simp) rfl
  have hb : b ∉ p ++ a :: q := by
    intro hc
    rw [List.nodup_append] at hnd
    exact hnd.2.2 b hc b (by simp) rfl
  have e1 : (p ++ a :: q ++ b :: r).idxOf a = p.length := by
    rw [List.append_assoc, List.idxOf_append_of_notMem ha]
    simp
  have e2 : (p ++ a :: q ++ b :: r).idxOf b = (p ++ a :: q).length := by
    rw [List.idxOf_append_of_notMem hb]
    simp
  rw [e1, e2]
  simp

/-- There is only one way a patch can sound. -/
theorem _root_.HexoDSP.EngineSpec.Sounds.unique {T : NodeTable N V A} {pl : Playing N V A} {K : FrameNodes N V A S} {par : N → Nat → Nat → V}
    {len : Nat} {st : N → S} {Z Z' : N → Nat → S} {X X' : N → Nat → Nat → V} (hnd : pl.order.Nodup)
    (hbef : ∀ e ∈ pl.wires, GraphOrdering.Before pl.order e.src e.dst)
    (h : Sounds T pl K par len st Z X) (h' : Sounds T pl K par len st Z' X') :
    (∀ t, t ≤ len → ∀ n ∈ pl.order, Z n t = Z' n t) ∧
    ∀ t, t < len → ∀ n ∈ pl.order, ∀ k, k < T.outCount n → X n k t = X' n k t := by
  have step : ∀ t, t < len → (∀ n ∈ pl.order, Z n t = Z' n t) →
      (∀ n ∈ pl.order, Z n (t + 1) = Z' n (t + 1)) ∧ ∀ n ∈ pl.order, ∀ k, k < T.outCount n → X n k t = X' n k t := by
    intro t ht hz
    have key : ∀ d, ∀ n ∈ pl.order, pl.order.idxOf n = d →
        Z n (t + 1) = Z' n (t + 1) ∧ ∀ k, k < T.outCount n → X n k t = X' n k t := by
      intro d
      induction d using Nat.strongRecOn with
      | ind d ih =>
        intro n hn hd
        obtain ⟨fi, f1, f2, f3⟩ := h.frame n hn t ht
        obtain ⟨fi', g1, g2, g3⟩ := h'.frame n hn t ht
        have : fi = fi' := f1.eq g1 (by
          intro k e hf
          have hb := hbef e hf.mem
          have hlt := before_idx hnd hb
          rw [hf.2.1, hd] at hlt
          exact (ih _ hlt e.src (before_mem hb).1 rfl).2 _ hf.1.2)
        subst this
        rw [f2, g2, hz n hn]
        exact ⟨rfl, fun k hk => by rw [f3 k hk, g3 k hk, hz n hn]⟩
    exact ⟨fun n hn => (key _ n hn rfl).1, fun n hn => (key _ n hn rfl).2⟩
  have hZ : ∀ t, t ≤ len → ∀ n ∈ pl.order, Z n t = Z' n t := by
    intro t
    induction t with
    | zero => intro _ n hn; rw [h.start n hn, h'.start n hn]
    | succ t ih => intro ht; exact (step t (by omega) (ih (by omega))).1
  exact ⟨hZ, fun t ht => (step t ht (hZ t (by omega))).2⟩

/-- Playing on. -/
theorem _root_.HexoDSP.EngineSpec.Sounds.append {T : NodeTable N V A} {pl : Playing N V A} {K : FrameNodes N V A S} {par par' : N → Nat → Nat → V}
    {len len' : Nat} {st st' : N → S} {Z Z' : N → Nat → S} {X X' : N → Nat → Nat → V}
    (h : Sounds T pl K par len st Z X) (h' : Sounds T pl K par' len' st' Z' X')
    (hst : ∀ n ∈ pl.order, st' n = Z n len) (hpar : ∀ n ∈ pl.order, ∀ i, i < T.inCount n → ∀ t, par' n i t = par n i (t + len)) :
    Sounds T pl K par (len + len') st (fun n t => if t ≤ len then Z n t else Z' n (t - len))
      (fun n k t => if t < len then X n k t else X' n k (t - len)) := by
  refine ⟨fun n hn => ?_, fun n hn t ht => ?_⟩
  · rw [if_pos (Nat.zero_le _)]; exact h.start n hn
  · by_cases hlt : t < len
    · obtain ⟨fi, f1, f2, f3⟩ := h.frame n hn t hlt
      refine ⟨fi, ?_, ?_, ?_⟩
      · simp only [if_pos hlt]; exact f1
      · simp only [if_pos (show t + 1 ≤ len by omega), if_pos (show t ≤ len by omega)]; exact f2
      · simp only [if_pos hlt, if_pos (show t ≤ len by omega)]; exact f3
    · obtain ⟨fi, f1, f2, f3⟩ := h'.frame n hn (t - len) (by omega)
      have hz : (if t ≤ len then Z n t else Z' n (t - len)) = Z' n (t - len) := by
        split
        · have : t = len := by omega
          rw [this, Nat.sub_self, h'.start n hn, hst n hn]
        · rfl
      have hp : ∀ i, i < T.inCount n → par n i t = par' n i (t - len) := by
        intro i hi
        rw [hpar n hn i hi, Nat.sub_add_cancel (by omega)]
      refine ⟨fi, ?_, ?_, ?_⟩
      · simp only [if_neg hlt]
        refine ⟨?_, f1.atoms, f1.nInputs, fun k hk hu => ?_, f1.direct, fun k e a hf ha => ?_, f1.inFlags, f1.outFlags⟩
        · rw [f1.params]
          exact List.map_congr_left (fun i hi => (hp i (List.mem_range.1 hi)).symm)
        · rw [f1.unfed k hk hu, hp k hk]
        · rw [f1.modulated k e a hf ha, hp k (by rw [← hf.2.1, ← hf.2.2.1]; exact hf.1.1)]
      · simp only [hz]
        rw [if_neg (by omega), show t + 1 - len = t - len + 1 by omega]
        exact f2
      · simp only [hz, if_neg hlt]
        exact f3

/-- What node `n` was called with in the block. -/
def callOf (cs : List (Call N V A)) (n : N) : Option (Call N V A) := cs.find? (fun c => decide (c.node = n))

theorem callOf_spec {cs : List (Call N V A)} {n : N} (h : n ∈ cs.map (fun c => c.node)) :
    ∃ c ∈ cs, c.node = n ∧ callOf cs n = some c := by
  unfold callOf
  cases hx : cs.find? (fun c => decide (c.node = n)) with
  | none =>
    obtain ⟨c, hc, he⟩ := List.mem_map.1 h
    have := List.find?_eq_none.1 hx c hc
    simp [he] at this
  | some c => exact ⟨c, List.mem_of_find?_eq_some hx, by simpa using List.find?_some hx, rfl⟩

theorem callOf_unique {cs : List (Call N V A)} (hnd : (cs.map (fun c => c.node)).Nodup) {c : Call N V A} (hc : c ∈ cs) :
    callOf cs c.node = some c := by
  induction cs with
  | nil => cases hc
  | cons d cs ih =>
    rw [List.map_cons, List.nodup_cons] at hnd
    unfold callOf
    rw [List.find?_cons]
    rcases List.mem_cons.1 hc with rfl | hc
    · simp
    · have : decide (d.node = c.node) = false := by
        simp only [decide_eq_false_iff_not]
        intro he
        exact hnd.1 (he ▸ List.mem_map.2 ⟨c, hc, rfl⟩)
      rw [this]
      exact ih hnd.2 hc

/-- State of a node in a block. -/
def blockZ (K : FrameNodes N V A S) (cs : List (Call N V A)) (st : N → S) (n : N) (t : Nat) : S :=
  match callOf cs n with
  | some c => frameState K c.toCallIn (st n) t
  | none => st n

/-- Outputs of a node in a block. -/
def blockX (cs : List (Call N V A)) (n : N) (k t : Nat) : V :=
  match (callOf cs n).bind (fun c => c.outputs[k]?) with
  | some b => b t
  | none => 0

theorem block_sounds {T : NodeTable N V A} {l : Layout N V} {pl : Playing N V A} {p p' : NodeProg N V A}
    {K : FrameNodes N V A S} {nf : Nat} {H : Heap V} {st st' : N → S} {cs : List (Call N V A)}
    {par : N → Nat → Nat → V} (hc : Carries T l pl p) (hd : BlockDone (frameRun K) p p' nf H st st' cs)
    (hpar : ∀ c ∈ cs, ∀ i, i < T.inCount c.node → ∃ blk, c.params[i]? = some blk ∧ ∀ f, f < nf → blk f = par c.node i f) :
    Sounds T pl K par nf st (blockZ K cs st) (blockX cs) ∧
    (∀ n ∈ pl.order, ∀ k, k < T.outCount n → ∀ f, f < nf →
      ((callOf cs n).bind (fun c => c.outputs[k]?)).map (fun b => b f) = some (blockX cs n k f)) ∧
    (∀ n ∈ pl.order, st' n = blockZ K cs st n nf) ∧ ∀ n, n ∉ pl.order → st' n = st n := by
  have hflow := flow_of_done hc hd
  have hnd : (cs.map (fun c => c.node)).Nodup := by rw [hflow.order]; exact hc.nodup
  obtain ⟨r1, r2⟩ := runs_frames K cs hd.runs hnd
  have hX : ∀ c ∈ cs, ∀ (k : Nat) (b : Block V), c.outputs[k]? = some b → ∀ t, blockX cs c.node k t = b t := by
    intro c hc k b hb t
    simp only [blockX, callOf_unique hnd hc, Option.bind_some, hb]
  have hZ : ∀ c ∈ cs, ∀ t, blockZ K cs st c.node t = frameState K c.toCallIn (st c.node) t := by
    intro c hc t
    simp only [blockZ, callOf_unique hnd hc]
  have hp : ∀ c ∈ cs, ∀ i blk, i < T.inCount c.node → c.params[i]? = some blk → ∀ f, f < nf → blk f = par c.node i f := by
    intro c hc i blk hi hb f hf
    obtain ⟨b, b1, b2⟩ := hpar c hc i hi
    rw [hb] at b1
    cases b1
    exact b2 f hf
  refine ⟨⟨fun n hn => ?_, fun n hn t ht => ?_⟩, fun n hn k hk f hf => ?_, fun n hn => ?_, fun n hn => r2 n (by rw [hflow.order]; exact hn)⟩
  · unfold blockZ
    cases callOf cs n <;> rfl
  · rw [← hflow.order] at hn
    obtain ⟨c, hcm, rfl⟩ := List.mem_map.1 hn
    have hnf := hflow.frames c hcm
    refine ⟨frameOf c.toCallIn t, ⟨?_, ?_, ?_, ?_, ?_, ?_, ?_, ?_⟩, ?_, ?_⟩
    · apply List.ext_getElem?
      intro i
      simp only [frameOf, List.getElem?_map]
      by_cases hi : i < T.inCount c.node
      · obtain ⟨blk, b1, b2⟩ := hpar c hcm i hi
        rw [b1, List.getElem?_range hi]
        simp [b2 t ht]
      · rw [List.getElem?_eq_none (by have := hflow.nParams c hcm; omega), List.getElem?_eq_none (by simp; omega)]
        rfl
    · apply List.ext_getElem?
      intro i
      simp only [frameOf, List.getElem?_map]
      by_cases hi : i < T.atCount c.node
      · rw [hflow.atoms c hcm i hi, List.getElem?_range hi]
        rfl
      · rw [List.getElem?_eq_none (by have := hflow.nAtoms c hcm; omega), List.getElem?_eq_none (by simp; omega)]
        rfl
    · simp only [frameOf, List.length_map]
      exact hflow.nInputs c hcm
    · intro k hk hu
      simp only [frameOf, List.getElem?_map]
      obtain ⟨blk, b1, b2⟩ := hpar c hcm k hk
      rw [hflow.unfed c hcm k hk hu, b1, Option.map_some, b2 t ht]
    · intro k e hf ha
      obtain ⟨s, hs, hse, hin⟩ := hflow.direct c hcm k e hf ha
      simp only [frameOf, List.getElem?_map]
      have hlt : e.srcOut < s.outputs.length := by rw [hflow.nOutputs s hs, hse]; exact hf.1.2
      rw [hin, List.getElem?_eq_getElem hlt, ← hse, hX s hs _ _ (List.getElem?_eq_getElem hlt)]
      rfl
    · intro k e a hf ha
      obtain ⟨s, hs, hse, x, pr, out, q1, q2, q3, q4⟩ := hflow.modulated c hcm k e a hf ha
      simp only [frameOf, List.getElem?_map]
      have hk : k < T.inCount c.node := by rw [← hf.2.1, ← hf.2.2.1]; exact hf.1.1
      rw [q1, ← hse, hX s hs _ _ q3, Option.map_some, q4 t ht, hp c hcm k pr hk q2 t ht]
    · exact hflow.inFlags c hcm
    · exact hflow.outFlags c hcm
    · rw [hZ c hcm, hZ c hcm]; rfl
    · intro k hk
      have hlt : k < c.outputs.length := by rw [hflow.nOutputs c hcm]; exact hk
      have ho := (r1 c hcm).1
      have hlen : c.oldOut.length = c.outputs.length := by rw [ho]; simp
      have hk' : c.outputs[k]? = some ((frameRun K st c.toCallIn).2 k) := by
        rw [ho, List.getElem?_map, List.getElem?_range (by omega)]
        rfl
      rw [hX c hcm k _ hk', hZ c hcm]
      simp only [frameRun]
      rw [if_pos (by rw [hnf]; exact ht)]
  · rw [← hflow.order] at hn
    obtain ⟨c, hcm, rfl⟩ := List.mem_map.1 hn
    have hlt : k < c.outputs.length := by rw [hflow.nOutputs c hcm]; exact hk
    rw [callOf_unique hnd hcm, Option.bind_some, List.getElem?_eq_getElem hlt, hX c hcm k _ (List.getElem?_eq_getElem hlt)]
    rfl
  · rw [← hflow.order] at hn
    obtain ⟨c, hcm, rfl⟩ := List.mem_map.1 hn
    rw [(r1 c hcm).2, hZ c hcm, hflow.frames c hcm]

/-- The courses of all parameters from here on. -/
def courses (T : NodeTable N V A) (l : Layout N V) (pl : Playing N V A) (e : Exec N V A M) (n : N) (i : Nat) : Nat → V :=
  course e.smoothers (l.inIdx T n i) (pl.param n i)

theorem cut_sounds {T : NodeTable N V A} {a0 : A} {K : FrameNodes N V A S} {l : Layout N V} {pl : Playing N V A}
    {w w' : World N V A M (N → S)} {rs : List (Nat × BlockResult N V A)} (hcut : Cut T a0 (frameRun K) w rs w') :
    ∀ k : Clock N, Plays T l pl w.exec.prog → ParInv T l pl k w.exec w.shared.heap → w.exec.prog.owned.Nodup →
    ∃ Z X, Sounds T pl K (courses T l pl w.exec) (total rs) w.st Z X ∧
      (∀ n ∈ pl.order, ∀ k, k < T.outCount n → ∀ f, f < total rs → heard n k rs f = some (X n k f)) ∧
      (∀ n ∈ pl.order, w'.st n = Z n (total rs)) ∧ ∀ n, n ∉ pl.order → w'.st n = w.st n := by
  induction hcut with
  | nil w =>
    intro k _ _ _
    refine ⟨fun n _ => w.st n, fun _ _ _ => 0, ⟨fun n _ => rfl, fun n _ t ht => ?_⟩, fun n _ k _ f hf => ?_, fun _ _ => rfl, fun _ _ => rfl⟩
    · exact absurd ht (Nat.not_lt_zero _)
    · exact absurd hf (Nat.not_lt_zero _)
  | @cons w w1 w2 nf r rs hs _ ih =>
    intro k hpl hpar hnd
    simp only [World.step] at hs
    obtain ⟨⟨e', h', st', r'⟩, hb, heq⟩ := Option.map_eq_some_iff.1 hs
    simp only [Prod.mk.injEq, Option.some.injEq] at heq
    obtain ⟨rfl, rfl⟩ := heq
    obtain ⟨hnf, p1, p2, p3, p4, p5, p6⟩ := process_course hpar hpl hnd hb
    obtain ⟨b1, b2, b3, b4⟩ := block_sounds (par := courses T l pl w.exec) hpl.carries p4 p6
    obtain ⟨Z, X, i1, i2, i3, i4⟩ := ih (k.block nf) p1 p2 p3
    refine ⟨_, _, b1.append i1 b3 ?_, ?_, ?_, ?_⟩
    · intro n hn i hi t
      show course e'.smoothers _ _ t = course w.exec.smoothers _ _ (t + nf)
      rw [p5, course_shift hpar.nodup]
      intro s hs hd
      obtain ⟨m, j, q1, q2, q3, q4, _⟩ := hpar.run _ s hs hd
      obtain ⟨rfl, rfl⟩ := inIdx_inj T q1 (hpl.carries.ord _ hn) q2 hi q3.symm
      exact q4
    · intro n hn kk hk f hf
      simp only [heard]
      by_cases hlt : f < nf
      · rw [if_pos hlt, if_pos hlt]
        exact b2 n hn kk hk f hlt
      · rw [if_neg hlt, if_neg hlt]
        refine i2 n hn kk hk (f - nf) ?_
        simp only [total] at hf
        omega
    · intro n hn
      rw [i3 n hn]
      have ht : total ((nf, r') :: rs) = nf + total rs := rfl
      simp only [ht]
      by_cases h0 : total rs = 0
      · rw [h0, Nat.add_zero, if_pos (Nat.le_refl _), i1.start n hn]
        exact b3 n hn
      · rw [if_neg (by omega), Nat.add_sub_cancel_left]
    · intro n hn
      rw [i4 n hn]
      exact b4 n hn

theorem heard_none (n : N) (k : Nat) : ∀ (rs : List (Nat × BlockResult N V A)) (f : Nat), total rs ≤ f → heard n k rs f = none := by
  intro rs
  induction rs with
  | nil => intro f _; rfl
  | cons b rs ih =>
    intro f hf
    simp only [total] at hf
    simp only [heard]
    rw [if_neg (by omega)]
    exact ih _ (by omega)

end

end HexoDSP.Engine
