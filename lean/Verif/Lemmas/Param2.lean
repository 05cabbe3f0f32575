import Verif.Lemmas.Param
/-! Parameter values and the monitor during a block. -/

set_option linter.unusedSectionVars false

namespace HexoDSP.Engine
open EngineSpec SmootherLemmas

variable {N V A M σ : Type} [DecidableEq N]

theorem out_target [Add V] (s : Smoother V) {f : Nat} (h : s.count ≤ f) : s.out f = s.target := by
  unfold Smoother.out Smoother.next
  rw [count_after, if_pos (by omega)]
  exact target_after s f

/-- The clock after a block. -/
def _root_.HexoDSP.EngineSpec.Clock.block (k : Clock N) (nf : Nat) : Clock N :=
  { k with left := fun n i => k.left n i - nf, hot := fun n i => decide (0 < k.left n i) }

/-- The parameter buffers hold the values that have arrived. -/
def Settled (T : NodeTable N V A) (l : Layout N V) (now : Playing N V A) (k : Clock N) (nf : Nat) (inp : List BufId)
    (h : Heap V) : Prop :=
  ∀ n ∈ l.ids, ∀ i, i < T.inCount n → ∃ b, inp[l.inIdx T n i]? = some b ∧
    ∀ f, f < nf → k.left n i ≤ f + 1 → h.data b f = now.param n i

section
variable [Add V] [Mul V] [OfNat V 0]

theorem busy_after {ss : List (Nat × Smoother V)} {nf g : Nat} :
    g ∈ busy (ss.map (fun x => if x.2.done then x else (x.1, x.2.after nf))) ↔
      ∃ s, (g, s) ∈ ss ∧ s.done = false ∧ nf ≤ s.count := by
  rw [mem_busy]
  constructor
  · rintro ⟨s, h1, h2⟩
    obtain ⟨⟨g', s'⟩, h3, h4⟩ := List.mem_map.1 h1
    simp only at h4
    split at h4
    · rename_i hd
      cases h4
      rw [h2] at hd
      cases hd
    · rename_i hd
      cases h4
      have hd' : s'.done = false := by simpa using hd
      refine ⟨s', h3, hd', ?_⟩
      have := done_after s' hd' nf
      rw [h2] at this
      simpa using this
  · rintro ⟨s, h1, h2, h3⟩
    refine ⟨s.after nf, List.mem_map.2 ⟨(g, s), h1, by simp [h2]⟩, ?_⟩
    rw [done_after s h2]
    simpa using h3

theorem busy_after_sublist (ss : List (Nat × Smoother V)) (nf : Nat) :
    (busy (ss.map (fun x => if x.2.done then x else (x.1, x.2.after nf)))).Sublist (busy ss) := by
  induction ss with
  | nil => simp [busy]
  | cons x ss ih =>
    rw [List.map_cons, busy_cons, busy_cons]
    by_cases hd : x.2.done = true
    · simpa [hd] using ih
    · simp only [hd, if_false, Bool.false_eq_true]
      split
      · exact ih.cons _
      · exact ih.cons_cons _

theorem processSmoothers_par {T : NodeTable N V A} {l : Layout N V} {now : Playing N V A} {k : Clock N}
    {e : Exec N V A M} {h : Heap V} {nf : Nat} (hp : ParInv T l now k e h) (hc : Carries T l now e.prog)
    (hnd : e.prog.inp.Nodup) (hnf : 0 < nf) :
    ∃ ss tr ps h1,
      e.processSmoothers h nf = some ({ e with smoothers := ss, targetRefresh := tr, prog := { e.prog with params := ps } }, h1) ∧ ps.length = e.prog.params.length ∧
      ParInv T l now (k.block nf) { e with smoothers := ss, targetRefresh := tr, prog := { e.prog with params := ps } } h1 ∧
      Settled T l now k nf e.prog.inp h1 := by
  have hfr : ∀ r ∈ e.targetRefresh.reverse, r.1 < e.prog.inp.length := by
    intro r hr
    obtain ⟨n, i, q1, q2, q3, _⟩ := hp.fresh r (List.mem_reverse.1 hr)
    rw [q3]
    exact inIdx_lt hc q1 q2
  obtain ⟨h0, r1, r2⟩ := refreshTargets_spec hnd e.targetRefresh.reverse h hfr
  have hb : ∀ g ∈ busy e.smoothers, g < e.prog.inp.length := by
    intro g hg
    obtain ⟨s, h1, h2⟩ := mem_busy.1 hg
    obtain ⟨n, i, q1, q2, q3, _⟩ := hp.run g s h1 h2
    rw [q3]
    exact inIdx_lt hc q1 q2
  obtain ⟨ss, a, s1, s2⟩ := runSmoothers_spec hnd hnf e.smoothers { heap := h0, params := e.prog.params, refresh := [] }
    hp.nodup hb
  have hstill : ∀ n ∈ l.ids, ∀ i, i < T.inCount n → l.inIdx T n i ∉ busy e.smoothers →
      ∃ b, e.prog.inp[l.inIdx T n i]? = some b ∧ a.heap.data b = fun _ => now.param n i := by
    intro n hn i hi hbz
    obtain ⟨_, h2⟩ := hp.still n hn i hi hbz
    have hlt := inIdx_lt hc hn hi
    refine ⟨_, List.getElem?_eq_getElem hlt, ?_⟩
    rw [s2.dataElse _ _ hbz (List.getElem?_eq_getElem hlt)]
    refine r2 _ _ _ (List.getElem?_eq_getElem hlt) ?_ ?_
    · intro r hr he
      obtain ⟨m, j, q1, q2, q3, _, q5⟩ := hp.fresh r (List.mem_reverse.1 hr)
      obtain ⟨rfl, rfl⟩ := inIdx_inj T q1 hn q2 hi (q3.symm.trans he)
      exact q5 (by rw [he]; exact hbz)
    · rcases h2 with ⟨r, hr, he⟩ | ⟨b, h2, h3⟩
      · exact .inl ⟨r, List.mem_reverse.2 hr, he⟩
      · right
        rw [List.getElem?_eq_getElem hlt] at h2
        cases h2
        exact h3
  have hbusy : ∀ n ∈ l.ids, ∀ i, i < T.inCount n → l.inIdx T n i ∈ busy e.smoothers →
      ∃ s, (l.inIdx T n i, s) ∈ e.smoothers ∧ s.done = false ∧ s.target = now.param n i ∧ s.count < k.left n i := by
    intro n hn i hi hbz
    obtain ⟨s, h1, h2⟩ := mem_busy.1 hbz
    obtain ⟨m, j, q1, q2, q3, q4, q5, _⟩ := hp.run _ s h1 h2
    obtain ⟨rfl, rfl⟩ := inIdx_inj T q1 hn q2 hi q3.symm
    exact ⟨s, h1, h2, q4, q5⟩
  refine ⟨ss, a.refresh, a.params, a.heap, ?_, s2.parLen, ?_, ?_⟩
  · unfold Exec.processSmoothers
    rw [r1]
    simp only [s1]
  · have hss := s2.pool
    have hrf := s2.refresh
    simp only [List.nil_append] at hrf
    have hmemr : ∀ r ∈ a.refresh, ∃ s, (r.1, s) ∈ e.smoothers ∧ s.done = false ∧ r.2 = s.out (nf - 1) := by
      intro r hr
      rw [hrf] at hr
      obtain ⟨x, hx, rfl⟩ := List.mem_map.1 hr
      obtain ⟨hx1, hx2⟩ := List.mem_filter.1 hx
      exact ⟨x.2, hx1, by simpa using hx2, rfl⟩
    refine ⟨by simp [hss, hp.len], ?_, ?_, ?_, ?_, ?_, hp.mon⟩
    · intro x hx
      have hx' : x ∈ ss := hx
      rw [hss] at hx'
      obtain ⟨y, hy, rfl⟩ := List.mem_map.1 hx'
      split
      · exact hp.slopes y hy
      · show (y.2.after nf).slopeSamples = k.slope
        rw [slope_after]; exact hp.slopes y hy
    · show (busy ss).Nodup
      rw [hss]
      exact hp.nodup.sublist (busy_after_sublist _ _)
    · intro g s hg hs
      have hg' : (g, s) ∈ ss := hg
      rw [hss] at hg'
      obtain ⟨⟨g', y⟩, hy, he⟩ := List.mem_map.1 hg'
      simp only at he
      split at he
      · rename_i hd
        cases he
        rw [hs] at hd; cases hd
      · rename_i hd
        have hd' : y.done = false := by simpa using hd
        cases he
        obtain ⟨n, i, q1, q2, q3, q4, q5, q6⟩ := hp.run _ y hy hd'
        have hcnt : nf ≤ y.count := by
          have := done_after y hd' nf
          rw [hs] at this
          simpa using this
        refine ⟨n, i, q1, q2, q3, by rw [target_after]; exact q4, ?_, ?_⟩
        · rw [count_after]
          show y.count - nf < k.left n i - nf
          omega
        · show decide (0 < k.left n i) = true
          simp; omega
    · intro r hr
      obtain ⟨s, h1, h2, h3⟩ := hmemr r hr
      obtain ⟨n, i, q1, q2, q3, q4, q5, q6⟩ := hp.run r.1 s h1 h2
      refine ⟨n, i, q1, q2, q3, ?_, fun hb' => ?_⟩
      · show decide (0 < k.left n i) = true
        simp; omega
      · have hb'' : r.1 ∉ busy ss := hb'
        rw [hss, busy_after] at hb''
        have : ¬ nf ≤ s.count := fun hc => hb'' ⟨s, h1, h2, hc⟩
        rw [h3, out_target s (by omega), q4]
    · intro n hn i hi hb'
      have hlt : l.inIdx T n i < e.prog.params.length := by
        rw [hc.parLen, ← hc.inLen]; exact inIdx_lt hc hn hi
      by_cases hbz : l.inIdx T n i ∈ busy e.smoothers
      · obtain ⟨s, h1, h2, h3, h4⟩ := hbusy n hn i hi hbz
        have hb'' : l.inIdx T n i ∉ busy ss := hb'
        rw [hss, busy_after] at hb''
        have hcnt : ¬ nf ≤ s.count := fun hc => hb'' ⟨s, h1, h2, hc⟩
        refine ⟨?_, .inl ⟨(l.inIdx T n i, s.out (nf - 1)), ?_, rfl⟩⟩
        · show a.params[l.inIdx T n i]? = _
          rw [s2.params _ s h1 h2 hlt, out_target s (by omega), h3]
        · show _ ∈ a.refresh
          rw [hrf]
          exact List.mem_map.2 ⟨(l.inIdx T n i, s), List.mem_filter.2 ⟨h1, by simp [h2]⟩, rfl⟩
      · refine ⟨?_, .inr (hstill n hn i hi hbz)⟩
        show a.params[l.inIdx T n i]? = _
        rw [s2.paramsElse _ hbz]
        exact (hp.still n hn i hi hbz).1
  · intro n hn i hi
    by_cases hbz : l.inIdx T n i ∈ busy e.smoothers
    · obtain ⟨s, h1, h2, h3, h4⟩ := hbusy n hn i hi hbz
      have hlt := inIdx_lt hc hn hi
      refine ⟨_, List.getElem?_eq_getElem hlt, fun f hf hle => ?_⟩
      rw [s2.data _ s _ h1 h2 (List.getElem?_eq_getElem hlt) f hf, out_target s (by omega), h3]
    · obtain ⟨b, h1, h2⟩ := hstill n hn i hi hbz
      exact ⟨b, h1, fun f _ _ => by rw [h2]⟩

end

/-! ### The monitor -/

/-- The buffer of a monitored signal. -/
def monBuf (p : NodeProg N V A) (i idx : Nat) : Option BufId := if i > 2 then p.out[idx]? else (p.curInp[idx]?).join

theorem feed_some (p : NodeProg N V A) (h : Heap V) : ∀ (idxs : List Nat) (i : Nat),
    (∀ (j : Nat) x, idxs[j]? = some x → x ≠ 99999 → (monBuf p (i + j) x).isSome) → ∃ l, feedMonitors p h i idxs = some l := by
  intro idxs
  induction idxs with
  | nil => intro i _; exact ⟨[], rfl⟩
  | cons x idxs ih =>
    intro i hh
    obtain ⟨l, hl⟩ := ih (i + 1) (fun j y hy hne => by
      have := hh (j + 1) y (by simpa using hy) hne
      rw [show i + 1 + j = i + (j + 1) by omega]
      exact this)
    simp only [feedMonitors]
    split
    · exact ⟨l, hl⟩
    · rename_i hne
      have h0 := hh 0 x rfl hne
      rw [Nat.add_zero] at h0
      obtain ⟨b, hb⟩ := Option.isSome_iff_exists.1 h0
      unfold monBuf at hb
      rw [hb]
      exact ⟨(i, h.data b) :: l, by rw [hl]; rfl⟩

theorem feed_mem (p : NodeProg N V A) (h : Heap V) : ∀ (idxs : List Nat) (i : Nat) (l : List (Nat × Block V)),
    feedMonitors p h i idxs = some l → ∀ j blk, (j, blk) ∈ l ↔
      ∃ x, i ≤ j ∧ idxs[j - i]? = some x ∧ x ≠ 99999 ∧ ∃ b, monBuf p j x = some b ∧ blk = h.data b := by
  intro idxs
  induction idxs with
  | nil =>
    intro i l hl j blk
    cases hl
    simp
  | cons x idxs ih =>
    intro i l hl j blk
    have hshift : ∀ P : Nat → Prop, (∃ y, i ≤ j ∧ (x :: idxs)[j - i]? = some y ∧ P y) ↔
        (j = i ∧ P x) ∨ ∃ y, i + 1 ≤ j ∧ idxs[j - (i + 1)]? = some y ∧ P y := by
      intro P
      constructor
      · rintro ⟨y, h1, h2, h3⟩
        by_cases hj : j = i
        · subst hj
          rw [Nat.sub_self] at h2
          cases h2
          exact .inl ⟨rfl, h3⟩
        · rw [show j - i = (j - (i + 1)) + 1 by omega, List.getElem?_cons_succ] at h2
          exact .inr ⟨y, by omega, h2, h3⟩
      · rintro (⟨rfl, h3⟩ | ⟨y, h1, h2, h3⟩)
        · exact ⟨x, Nat.le_refl _, by simp, h3⟩
        · refine ⟨y, by omega, ?_, h3⟩
          rw [show j - i = (j - (i + 1)) + 1 by omega, List.getElem?_cons_succ]
          exact h2
    rw [hshift (fun y => y ≠ 99999 ∧ ∃ b, monBuf p j y = some b ∧ blk = h.data b)]
    simp only [feedMonitors] at hl
    split at hl
    · rename_i he
      rw [ih (i + 1) l hl j blk]
      constructor
      · exact .inr
      · rintro (⟨_, hne, _⟩ | hr)
        · exact absurd he hne
        · exact hr
    · rename_i hne
      split at hl
      · cases hl
      · rename_i b hb
        obtain ⟨l', hl', rfl⟩ := Option.map_eq_some_iff.1 hl
        rw [List.mem_cons, ih (i + 1) l' hl' j blk]
        constructor
        · rintro (he | hr)
          · cases he
            exact .inl ⟨rfl, hne, b, hb, rfl⟩
          · exact .inr hr
        · rintro (⟨rfl, _, b', hb', rfl⟩ | hr)
          · left
            have : monBuf p j x = some b := hb
            rw [this] at hb'
            cases hb'
            rfl
          · exact .inr hr

theorem feed_indices (p : NodeProg N V A) (h : Heap V) : ∀ (idxs : List Nat) (i : Nat) (l : List (Nat × Block V)),
    feedMonitors p h i idxs = some l → (l.map Prod.fst).Pairwise (· < ·) ∧ ∀ j ∈ l.map Prod.fst, i ≤ j := by
  intro idxs
  induction idxs with
  | nil => intro i l hl; cases hl; simp
  | cons x idxs ih =>
    intro i l hl
    simp only [feedMonitors] at hl
    split at hl
    · obtain ⟨h1, h2⟩ := ih (i + 1) l hl
      exact ⟨h1, fun j hj => by have := h2 j hj; omega⟩
    · split at hl
      · cases hl
      · obtain ⟨l', hl', rfl⟩ := Option.map_eq_some_iff.1 hl
        obtain ⟨h1, h2⟩ := ih (i + 1) l' hl'
        refine ⟨?_, ?_⟩
        · rw [List.map_cons, List.pairwise_cons]
          exact ⟨fun j hj => by have := h2 j hj; simp only; omega, h1⟩
        · intro j hj
          rw [List.map_cons, List.mem_cons] at hj
          rcases hj with rfl | hj
          · exact Nat.le_refl _
          · have := h2 j hj; omega

theorem tot_le {f : N → Nat} {c : Nat} (hf : ∀ n, f n ≤ c) (ids : List N) : tot f ids ≤ c * ids.length := by
  induction ids with
  | nil => simp [tot]
  | cons n ids ih =>
    have := hf n
    simp only [tot, List.map_cons, List.sum_cons, List.length_cons] at ih ⊢
    rw [Nat.mul_add]
    omega

/-- A monitored signal: the index is either unused or that of the port. -/
theorem monIdx_get (T : NodeTable N V A) (hI : ∀ n, T.inCount n ≤ 32) (hO : ∀ n, T.outCount n ≤ 64) {l : Layout N V}
    (hsm : l.ids.length ≤ 256) {n : N} (hn : n ∈ l.ids) {ins outs : List (Option Nat)} (hi : ins.length = 3) (j x : Nat) :
    ((l.monIdx T n ins outs)[j]? = some x ∧ x ≠ 99999) ↔
      (j < 3 ∧ ∃ k, ins[j]? = some (some k) ∧ k < T.inCount n ∧ x = l.inIdx T n k) ∨
      (3 ≤ j ∧ ∃ k, outs[j - 3]? = some (some k) ∧ k < T.outCount n ∧ x = base T.outCount l.ids n + k) := by
  have hbi := base_lt T.inCount hn
  have hbo := base_lt T.outCount hn
  have hti := tot_le hI l.ids
  have hto := tot_le hO l.ids
  unfold Layout.monIdx
  by_cases hj : j < 3
  · rw [List.getElem?_append_left (by simp [hi, hj]), List.getElem?_map]
    constructor
    · rintro ⟨h1, h2⟩
      obtain ⟨o, h3, h4⟩ := Option.map_eq_some_iff.1 h1
      cases o with
      | none => simp at h4; omega
      | some k =>
        left
        refine ⟨hj, k, h3, ?_⟩
        simp only [Option.bind_some] at h4
        split at h4
        · rename_i hk; exact ⟨hk, h4.symm⟩
        · simp at h4; omega
    · rintro (⟨_, k, h1, h2, rfl⟩ | ⟨h1, _⟩)
      · rw [h1]
        simp only [Option.map_some, Option.bind_some, if_pos h2, Option.getD_some, true_and]
        unfold Layout.inIdx
        omega
      · omega
  · rw [List.getElem?_append_right (by simp [hi]; omega), List.getElem?_map, List.length_map, hi]
    constructor
    · rintro ⟨h1, h2⟩
      obtain ⟨o, h3, h4⟩ := Option.map_eq_some_iff.1 h1
      cases o with
      | none => simp at h4; omega
      | some k =>
        right
        refine ⟨by omega, k, h3, ?_⟩
        simp only [Option.bind_some] at h4
        split at h4
        · rename_i hk; exact ⟨hk, h4.symm⟩
        · simp at h4; omega
    · rintro (⟨h1, _⟩ | ⟨_, k, h1, h2, rfl⟩)
      · omega
      · rw [h1]
        simp only [Option.map_some, Option.bind_some, if_pos h2, Option.getD_some, true_and]
        omega

end HexoDSP.Engine
