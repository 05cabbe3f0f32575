import Verif.Spec.Timed
import Verif.Lemmas.Pool
import Verif.Lemmas.Flow
/-! Parameter values: the pool of smoothers, the refresh list and the input buffers follow what was asked for. -/

set_option linter.unusedSectionVars false

namespace HexoDSP.Engine
open EngineSpec

variable {N V A M σ : Type} [DecidableEq N]

/-- The monitor indices belong to what is monitored. -/
def MonIs (T : NodeTable N V A) (l : Layout N V) (now : Playing N V A) (idx : List Nat) : Prop :=
  match now.mon with
  | none => idx = List.replicate 6 99999
  | some (n, ins, outs) => n ∈ l.ids ∧ ins.length = 3 ∧ outs.length = 3 ∧ idx = l.monIdx T n ins outs

structure ParInv (T : NodeTable N V A) (l : Layout N V) (now : Playing N V A) (k : Clock N) (e : Exec N V A M)
    (h : Heap V) : Prop where
  len : e.smoothers.length = 40
  slopes : ∀ x ∈ e.smoothers, x.2.slopeSamples = k.slope
  nodup : (busy e.smoothers).Nodup
  run : ∀ g s, (g, s) ∈ e.smoothers → s.done = false → ∃ n i, n ∈ l.ids ∧ i < T.inCount n ∧ g = l.inIdx T n i ∧
    s.target = now.param n i ∧ s.count < k.left n i ∧ k.hot n i = true
  fresh : ∀ r ∈ e.targetRefresh, ∃ n i, n ∈ l.ids ∧ i < T.inCount n ∧ r.1 = l.inIdx T n i ∧ k.hot n i = true ∧
    (r.1 ∉ busy e.smoothers → r.2 = now.param n i)
  still : ∀ n ∈ l.ids, ∀ i, i < T.inCount n → l.inIdx T n i ∉ busy e.smoothers →
    e.prog.params[l.inIdx T n i]? = some (now.param n i) ∧
    ((∃ r ∈ e.targetRefresh, r.1 = l.inIdx T n i) ∨
      ∃ b, e.prog.inp[l.inIdx T n i]? = some b ∧ h.data b = fun _ => now.param n i)
  mon : MonIs T l now e.monitorIdx

theorem base_prefix (f : N → Nat) {a b : List N} (h : a <+: b) {n : N} (hn : n ∈ a) : base f b n = base f a n := by
  obtain ⟨c, rfl⟩ := h
  unfold base
  rw [List.idxOf_append_of_mem hn, List.take_append_of_le_length]
  have := List.idxOf_lt_length_iff.2 hn
  omega

theorem inIdx_prefix (T : NodeTable N V A) {l l' : Layout N V} (h : l.ids <+: l'.ids) {n : N} (hn : n ∈ l.ids) (i : Nat) :
    l'.inIdx T n i = l.inIdx T n i := by
  unfold Layout.inIdx
  rw [base_prefix T.inCount h hn]

theorem swapZip_get {α : Type} (as : List α) : ∀ (bs : List α) (g : Nat),
    (swapZip as bs).2[g]? = if g < as.length ∧ g < bs.length then as[g]? else bs[g]? := by
  induction as with
  | nil => intro bs g; simp [swapZip]
  | cons a as ih =>
    intro bs g
    cases bs with
    | nil => simp [swapZip]
    | cons b bs =>
      cases g with
      | zero => simp [swapZip]
      | succ g => simp [swapZip, ih bs g]

theorem fillAll_data (xs : List (BufId × V)) : ∀ (h : Heap V), (xs.map Prod.fst).Nodup →
    (∀ b v, (b, v) ∈ xs → (xs.foldl (fun h bv => h.fill bv.1 bv.2) h).data b = fun _ => v) ∧
    (∀ b, b ∉ xs.map Prod.fst → (xs.foldl (fun h bv => h.fill bv.1 bv.2) h).data b = h.data b) := by
  induction xs with
  | nil => intro h _; exact ⟨fun b v hb => absurd hb (by simp), fun _ _ => rfl⟩
  | cons x xs ih =>
    intro h hnd
    rw [List.map_cons, List.nodup_cons] at hnd
    obtain ⟨h1, h2⟩ := ih (h.fill x.1 x.2) hnd.2
    constructor
    · intro b v hb
      rw [List.foldl_cons]
      rcases List.mem_cons.1 hb with rfl | hb
      · rw [h2 _ hnd.1]
        simp [Heap.fill, Heap.write]
      · exact h1 b v hb
    · intro b hb
      simp only [List.map_cons, List.mem_cons, not_or] at hb
      rw [List.foldl_cons, h2 b hb.2]
      simp [Heap.fill, Heap.write, hb.1]

theorem initInputBuffers_data {p : NodeProg N V A} (hnd : p.inp.Nodup) (h : Heap V) :
    (∀ (g : Nat) b v, p.inp[g]? = some b → p.params[g]? = some v → (p.initInputBuffers h).data b = fun _ => v) ∧
    (∀ b, b ∉ p.inp → (p.initInputBuffers h).data b = h.data b) := by
  have hz : ∀ b, b ∈ (p.inp.zip p.params).map Prod.fst → b ∈ p.inp := by
    intro b hb
    obtain ⟨x, hx, rfl⟩ := List.mem_map.1 hb
    exact (List.of_mem_zip (a := x.1) (b := x.2) hx).1
  have hn : ((p.inp.zip p.params).map Prod.fst).Nodup := by
    refine hnd.sublist ?_
    generalize p.inp = xs
    generalize p.params = ys
    induction xs generalizing ys with
    | nil => simp
    | cons x xs ih =>
      cases ys with
      | nil => simp
      | cons y ys => simpa using ih ys
  obtain ⟨h1, h2⟩ := fillAll_data (p.inp.zip p.params) h hn
  refine ⟨fun g b v hb hv => h1 b v ?_, fun b hb => h2 b (fun hc => hb (hz b hc))⟩
  refine List.mem_iff_getElem?.2 ⟨g, ?_⟩
  rw [List.getElem?_zip_eq_some]
  exact ⟨hb, hv⟩

theorem pushDrop_data (s : Shared N V A) (p : NodeProg N V A) : (s.pushDrop p).heap.data = s.heap.data := by
  unfold Shared.pushDrop
  split
  · rfl
  · rfl

theorem inIdx_lt {T : NodeTable N V A} {l : Layout N V} {pl : Playing N V A} {p : NodeProg N V A} (h : Carries T l pl p)
    {n : N} {i : Nat} (hn : n ∈ l.ids) (hi : i < T.inCount n) : l.inIdx T n i < p.inp.length := by
  have := base_lt T.inCount hn
  rw [h.inLen]
  unfold Layout.inIdx
  omega

section
variable [Sub V] [Div V] [NatCast V]

/-- The condition under which a smoother is free: few parameters move. -/
def Few (k : Clock N) (us : List (Update N V A)) : Prop :=
  ∃ S : List (N × Nat), S.length ≤ 40 ∧ ∀ n i, (0 < k.left n i ∨ ∃ v, Update.param n i v ∈ us) → (n, i) ∈ S

/-- Before the nodes are deleted nothing moves. -/
def CalmQ (k : Clock N) (us : List (Update N V A)) : Prop :=
  ∀ a b, us = a ++ Update.clear :: b → (∀ n i, k.hot n i = false) ∧ ∀ n i v, Update.param n i v ∉ a

theorem hot_empty {T : NodeTable N V A} {l : Layout N V} {now : Playing N V A} {k : Clock N} {e : Exec N V A M}
    {h : Heap V} (hp : ParInv T l now k e h) (hh : ∀ n i, k.hot n i = false) :
    busy e.smoothers = [] ∧ e.targetRefresh = [] := by
  constructor
  · rw [List.eq_nil_iff_forall_not_mem]
    intro g hg
    obtain ⟨s, h1, h2⟩ := mem_busy.1 hg
    obtain ⟨n, i, _, _, _, _, _, h3⟩ := hp.run g s h1 h2
    rw [hh n i] at h3
    cases h3
  · rw [List.eq_nil_iff_forall_not_mem]
    intro r hr
    obtain ⟨n, i, _, _, _, h3, _⟩ := hp.fresh r hr
    rw [hh n i] at h3
    cases h3

/-- Few moving parameters leave a smoother idle. -/
theorem idle_exists {T : NodeTable N V A} {l : Layout N V} {now : Playing N V A} {k : Clock N} {e : Exec N V A M}
    {h : Heap V} (hp : ParInv T l now k e h) {us : List (Update N V A)} (hf : Few k us) {n : N} {i : Nat} {v : V}
    (hm : Update.param n i v ∈ us) (hb : l.inIdx T n i ∉ busy e.smoothers) :
    ∃ x ∈ e.smoothers, x.2.done = true := by
  by_contra hc
  have hlen := busy_full hc
  rw [hp.len] at hlen
  obtain ⟨S, hS, hcov⟩ := hf
  have hnd : (l.inIdx T n i :: busy e.smoothers).Nodup := List.nodup_cons.2 ⟨hb, hp.nodup⟩
  have hsub : l.inIdx T n i :: busy e.smoothers ⊆ S.map (fun x => l.inIdx T x.1 x.2) := by
    intro g hg
    rcases List.mem_cons.1 hg with rfl | hg
    · exact List.mem_map.2 ⟨(n, i), hcov n i (.inr ⟨v, hm⟩), rfl⟩
    · obtain ⟨s, h1, h2⟩ := mem_busy.1 hg
      obtain ⟨m, j, _, _, h3, _, h4, _⟩ := hp.run g s h1 h2
      exact List.mem_map.2 ⟨(m, j), hcov m j (.inl (by omega)), h3.symm⟩
  have := (List.subperm_of_subset hnd hsub).length_le
  simp only [List.length_cons, List.length_map] at this
  omega

theorem setParam_eq {e : Exec N V A M} {idx : Nat} {v : V} {slope : Nat} (hlt : idx < e.prog.params.length)
    (hnd : (busy e.smoothers).Nodup) (hsl : ∀ x ∈ e.smoothers, x.2.slopeSamples = slope)
    (hidle : idx ∉ busy e.smoothers → ∃ x ∈ e.smoothers, x.2.done = true) :
    ∃ ss, e.setParam idx v = { e with smoothers := ss } ∧ SetIn idx v slope e.smoothers ss ∧
      ∀ g, g ∈ busy ss ↔ g = idx ∨ g ∈ busy e.smoothers := by
  unfold Exec.setParam
  rw [List.getElem?_eq_getElem hlt]
  cases hr : retarget idx e.prog.params[idx] v e.smoothers with
  | none =>
    have hni := (retarget_none _ _ _ _).1 hr
    obtain ⟨h1, h2⟩ := startIdle_spec (cur := e.prog.params[idx]) (v := v) hnd hsl hni (hidle hni)
    exact ⟨_, by simp only [hr], h1, h2⟩
  | some ss =>
    obtain ⟨h1, h2⟩ := retarget_some hnd hsl hr
    refine ⟨ss, by simp only [hr], h1, fun g => ?_⟩
    rw [h2]
    refine ⟨.inr, ?_⟩
    rintro (rfl | h)
    · by_contra hc
      rw [(retarget_none _ e.prog.params[g] v _).2 hc] at hr
      cases hr
    · exact h

theorem MonIs.congr {T : NodeTable N V A} {l : Layout N V} {now now' : Playing N V A} {idx : List Nat}
    (h : MonIs T l now idx) (hm : now'.mon = now.mon) : MonIs T l now' idx := by
  unfold MonIs at h ⊢
  rw [hm]
  exact h

/-- Only the parameters, the monitor and the layout matter. -/
theorem ParInv.congr {T : NodeTable N V A} {l : Layout N V} {now now' : Playing N V A} {k : Clock N} {e e' : Exec N V A M}
    {h h' : Heap V} (hp : ParInv T l now k e h) (hn : now'.param = now.param) (hs : e'.smoothers = e.smoothers)
    (ht : e'.targetRefresh = e.targetRefresh) (hpar : e'.prog.params = e.prog.params) (hi : e'.prog.inp = e.prog.inp)
    (hm : MonIs T l now' e'.monitorIdx) (hd : ∀ b ∈ e.prog.inp, h'.data b = h.data b) : ParInv T l now' k e' h' := by
  refine ⟨by rw [hs]; exact hp.len, by rw [hs]; exact hp.slopes, by rw [hs]; exact hp.nodup, ?_, ?_, ?_, hm⟩
  · rw [hs, hn]; exact hp.run
  · rw [hs, ht, hn]; exact hp.fresh
  · rw [hs, ht, hn, hpar, hi]
    intro n hn i hi hb
    obtain ⟨h1, h2⟩ := hp.still n hn i hi hb
    refine ⟨h1, ?_⟩
    rcases h2 with h2 | ⟨b, h2, h3⟩
    · exact .inl h2
    · exact .inr ⟨b, h2, by rw [hd b (List.mem_of_getElem? h2), h3]⟩

/-- One message. -/
theorem ParInv.apply {T : NodeTable N V A} {l l' : Layout N V} {now : Playing N V A} {k : Clock N} {e e' : Exec N V A M}
    {s s' : Shared N V A} {m : Msg N V A M} {u us : List (Update N V A)} (hp : ParInv T l now k e s.heap)
    (h : Plays T l now e.prog) (hm : Match1 T l now [m] u l') (hu : ∀ p, m.prog? = some p → Unlinked p)
    (hdisj : (m.owned ++ e.prog.owned).Nodup) (hf : Few k (u ++ us)) (hcalm : CalmQ k (u ++ us))
    (ha : e.apply s m = some (e', s')) : ParInv T l' (u.foldl Playing.update now) (u.foldl Clock.take k) e' s'.heap := by
  cases hm with
  | @param _ n i v hn hi =>
    simp only [Exec.apply, Option.some.injEq, Prod.mk.injEq] at ha
    obtain ⟨rfl, rfl⟩ := ha
    have hlt : l.inIdx T n i < e.prog.params.length := by
      rw [h.carries.parLen, ← h.carries.inLen]
      exact inIdx_lt h.carries hn hi
    obtain ⟨ss, h1, h2, h3⟩ := setParam_eq (v := v) hlt hp.nodup hp.slopes
      (fun hb => idle_exists hp hf (v := v) (by simp) hb)
    rw [h1]
    show ParInv T l (now.update (.param n i v)) (k.take (.param n i v : Update N V A)) _ _
    have hpar : ∀ m j, (now.update (.param n i v)).param m j = if m = n ∧ j = i then v else now.param m j := fun _ _ => rfl
    have hleft : ∀ m j, (k.take (.param n i v : Update N V A)).left m j = if m = n ∧ j = i then k.slope + 1 else k.left m j :=
      fun _ _ => rfl
    have hhot : ∀ m j, (k.take (.param n i v : Update N V A)).hot m j = if m = n ∧ j = i then true else k.hot m j :=
      fun _ _ => rfl
    have hhot' : ∀ m j, k.hot m j = true → (k.take (.param n i v : Update N V A)).hot m j = true := by
      intro m j hmj
      rw [hhot]
      split
      · rfl
      · exact hmj
    refine ⟨h2.len.trans hp.len, h2.slopes, h2.nodup, ?_, ?_, ?_, hp.mon.congr rfl⟩
    · intro g t hg ht
      by_cases he : g = l.inIdx T n i
      · subst he
        obtain ⟨q1, q2⟩ := h2.this t hg ht
        refine ⟨n, i, hn, hi, rfl, ?_, ?_, ?_⟩
        · rw [hpar, if_pos ⟨rfl, rfl⟩, q1]
        · rw [hleft, if_pos ⟨rfl, rfl⟩, q2]; omega
        · rw [hhot, if_pos ⟨rfl, rfl⟩]
      · obtain ⟨m, j, q1, q2, q3, q4, q5, q6⟩ := hp.run g t ((h2.other g t he ht).1 hg) ht
        have hne : ¬ (m = n ∧ j = i) := by rintro ⟨rfl, rfl⟩; exact he q3
        exact ⟨m, j, q1, q2, q3, by rw [hpar, if_neg hne]; exact q4, by rw [hleft, if_neg hne]; exact q5, hhot' m j q6⟩
    · intro r hr
      obtain ⟨m, j, q1, q2, q3, q4, q5⟩ := hp.fresh r hr
      refine ⟨m, j, q1, q2, q3, hhot' m j q4, fun hb => ?_⟩
      have hnb : ¬ (r.1 = l.inIdx T n i ∨ r.1 ∈ busy e.smoothers) := fun hc => hb ((h3 _).2 hc)
      rw [not_or] at hnb
      have hne : ¬ (m = n ∧ j = i) := by rintro ⟨rfl, rfl⟩; exact hnb.1 q3
      rw [hpar, if_neg hne]
      exact q5 hnb.2
    · intro m hm j hj hb
      have hnb : ¬ (l.inIdx T m j = l.inIdx T n i ∨ l.inIdx T m j ∈ busy e.smoothers) := fun hc => hb ((h3 _).2 hc)
      rw [not_or] at hnb
      have hne : ¬ (m = n ∧ j = i) := by rintro ⟨rfl, rfl⟩; exact hnb.1 rfl
      rw [hpar, if_neg hne]
      exact hp.still m hm j hj hnb.2
  | atom a hn hi =>
    obtain ⟨hlt, hc⟩ := h.carries.setAtom a hn hi
    simp only [Exec.apply, if_pos hlt, Option.some.injEq, Prod.mk.injEq] at ha
    obtain ⟨rfl, rfl⟩ := ha
    exact hp.congr rfl rfl rfl rfl rfl (hp.mon.congr rfl) (fun _ _ => rfl)
  | amount v hn hi hsome =>
    simp only [Exec.apply, Option.some.injEq, Prod.mk.injEq] at ha
    obtain ⟨rfl, rfl⟩ := ha
    exact hp.congr rfl rfl rfl rfl rfl (hp.mon.congr rfl) (fun _ _ => rfl)
  | @program _ _ pl p co hc hpar hpre hsame hmon =>
    have hu' := hu _ rfl
    have hdisj' : (p.owned ++ e.prog.owned).Nodup := hdisj
    have hnd := (List.nodup_append.1 hdisj').1
    have hsep : p.inp.Nodup := by
      unfold NodeProg.owned at hnd
      exact (List.nodup_append.1 (List.nodup_append.1 hnd).1).1
    have hsb := (swap_assign_plays hc hu' hnd hdisj ha).2
    have hex : e'.smoothers = e.smoothers ∧ e'.targetRefresh = e.targetRefresh ∧
        e'.monitorIdx = List.replicate 6 99999 ∧ s'.heap.data = (p.initInputBuffers s.heap).data := by
      simp only [Exec.apply] at ha
      cases hx : (if co then p.swapPrevious e.prog else (p, e.prog)) with
      | mk q prev =>
        rw [hx] at ha
        simp only at ha
        split at ha
        · cases ha
        · simp only [Option.some.injEq, Prod.mk.injEq] at ha
          obtain ⟨rfl, rfl⟩ := ha
          exact ⟨rfl, rfl, rfl, pushDrop_data _ _⟩
    obtain ⟨x1, x2, x3, x4⟩ := hex
    obtain ⟨d1, d2⟩ := initInputBuffers_data hsep s.heap
    -- the program in the executor
    have hpp : e'.prog.params = p.params := by
      rw [hsb.params]
      split
      · exact (swapPrevious_spec (prev := e.prog) hu').2.2.2.1
      · rfl
    have hinp : ∀ g : Nat, e'.prog.inp[g]? = p.inp[g]? ∨ (g < e.prog.inp.length ∧ e'.prog.inp[g]? = e.prog.inp[g]?) := by
      intro g
      rw [hsb.inp]
      split
      · rw [(swapPrevious_spec (prev := e.prog) hu').2.2.2.2.2.2.1, swapZip_get]
        split
        · rename_i hg; exact .inr ⟨hg.1, rfl⟩
        · exact .inl rfl
      · exact .inl rfl
    show ParInv T l' pl k _ _
    refine ⟨by rw [x1]; exact hp.len, by rw [x1]; exact hp.slopes, by rw [x1]; exact hp.nodup, ?_, ?_, ?_, ?_⟩
    · rw [x1]
      intro g t hg ht
      obtain ⟨n, i, q1, q2, q3, q4, q5, q6⟩ := hp.run g t hg ht
      exact ⟨n, i, hpre.subset q1, q2, by rw [inIdx_prefix T hpre q1]; exact q3, by rw [hsame n q1 i q2]; exact q4, q5, q6⟩
    · rw [x1, x2]
      intro r hr
      obtain ⟨n, i, q1, q2, q3, q4, q5⟩ := hp.fresh r hr
      exact ⟨n, i, hpre.subset q1, q2, by rw [inIdx_prefix T hpre q1]; exact q3, q4, fun hb => by rw [hsame n q1 i q2]; exact q5 hb⟩
    · rw [x1, x2]
      intro n hn i hi hb
      have hv := hpar n hn i hi
      refine ⟨by rw [hpp]; exact hv, ?_⟩
      have hlt := inIdx_lt hc hn hi
      rcases hinp (l'.inIdx T n i) with hg | ⟨hglt, hg⟩
      · right
        rw [List.getElem?_eq_getElem hlt] at hg
        exact ⟨_, hg, by rw [x4]; exact d1 _ _ _ (List.getElem?_eq_getElem hlt) hv⟩
      · -- an old buffer: its node was there before
        rw [h.carries.inLen] at hglt
        obtain ⟨m, hm, j, hj, he⟩ := base_cover T.inCount l.ids h.carries.idsNodup hglt
        have he' : l'.inIdx T n i = l'.inIdx T m j := by
          rw [inIdx_prefix T hpre hm j]; exact he
        obtain ⟨rfl, rfl⟩ := inIdx_inj T hn (hpre.subset hm) hi hj he'
        rw [inIdx_prefix T hpre hm] at hb hg ⊢
        rw [hsame n hm i hi]
        rcases (hp.still n hm i hi hb).2 with h2 | ⟨b, h2, h3⟩
        · exact .inl h2
        · refine .inr ⟨b, hg.trans h2, ?_⟩
          rw [x4, d2 b, h3]
          intro hbp
          exact (List.nodup_append.1 hdisj').2.2 b (by unfold NodeProg.owned; simp [hbp]) b (mem_owned_inp h2) rfl
    · rw [x3]
      unfold MonIs
      rw [hmon]
  | clear =>
    simp only [Exec.apply, Option.some.injEq, Prod.mk.injEq] at ha
    obtain ⟨rfl, rfl⟩ := ha
    obtain ⟨hb, hr⟩ := hot_empty hp (hcalm [] us rfl).1
    show ParInv T Layout.empty (now.update .clear) k _ _
    refine ⟨hp.len, hp.slopes, hp.nodup, ?_, ?_, fun n hn => absurd hn (by simp [Layout.empty]), by unfold MonIs; rfl⟩
    · intro g t hg ht
      have : g ∈ busy e.smoothers := mem_busy.2 ⟨t, hg, ht⟩
      rw [hb] at this
      cases this
    · intro r hrm
      have : r ∈ e.targetRefresh := hrm
      rw [hr] at this
      cases this
  | monitor hn hi ho =>
    simp only [Exec.apply, Option.some.injEq, Prod.mk.injEq] at ha
    obtain ⟨rfl, rfl⟩ := ha
    exact hp.congr rfl rfl rfl rfl rfl ⟨hn, hi, ho, rfl⟩ (fun _ _ => rfl)
  | midi ev =>
    simp only [Exec.apply, Option.some.injEq, Prod.mk.injEq] at ha
    obtain ⟨rfl, rfl⟩ := ha
    refine hp.congr rfl ?_ ?_ ?_ ?_ ?_ (fun _ _ => rfl)
    · split <;> rfl
    · split <;> rfl
    · split <;> rfl
    · split <;> rfl
    · split <;> exact hp.mon

/-- An update without a message. -/
theorem ParInv.skip {T : NodeTable N V A} {l l' : Layout N V} {now : Playing N V A} {k : Clock N} {e : Exec N V A M}
    {h : Heap V} {u : List (Update N V A)} (hp : ParInv T l now k e h)
    (hm : Match1 (M := M) T l now [] u l') : ParInv T l' (u.foldl Playing.update now) (u.foldl Clock.take k) e h := by
  cases hm with
  | @paramSkip _ n i v hs =>
    show ParInv T l (now.update (.store n i v)) k _ _
    have hne : ∀ m j, m ∈ l.ids → j < T.inCount m → ¬ (m = n ∧ j = i) := by
      rintro m j h1 h2 ⟨rfl, rfl⟩
      exact hs ⟨h1, h2⟩
    have hpar : ∀ m j, m ∈ l.ids → j < T.inCount m → (now.update (.store n i v)).param m j = now.param m j :=
      fun m j h1 h2 => if_neg (hne m j h1 h2)
    refine ⟨hp.len, hp.slopes, hp.nodup, ?_, ?_, ?_, hp.mon.congr rfl⟩
    · intro g t hg ht
      obtain ⟨m, j, q1, q2, q3, q4, q5, q6⟩ := hp.run g t hg ht
      exact ⟨m, j, q1, q2, q3, by rw [hpar m j q1 q2]; exact q4, q5, q6⟩
    · intro r hr
      obtain ⟨m, j, q1, q2, q3, q4, q5⟩ := hp.fresh r hr
      exact ⟨m, j, q1, q2, q3, q4, fun hb => by rw [hpar m j q1 q2]; exact q5 hb⟩
    · intro m hm j hj hb
      rw [hpar m j hm hj]
      exact hp.still m hm j hj hb
  | atomSkip a hs => exact hp.congr rfl rfl rfl rfl rfl (hp.mon.congr rfl) (fun _ _ => rfl)
  | amountSkip v hs => exact hp.congr rfl rfl rfl rfl rfl (hp.mon.congr rfl) (fun _ _ => rfl)

theorem Few.next {k : Clock N} {u us : List (Update N V A)} (h : Few k (u ++ us)) : Few (u.foldl Clock.take k) us := by
  induction u generalizing k with
  | nil => exact h
  | cons x u ih =>
    rw [List.foldl_cons]
    refine ih ?_
    obtain ⟨S, h1, h2⟩ := h
    refine ⟨S, h1, fun n i hc => h2 n i ?_⟩
    rcases hc with hc | ⟨v, hv⟩
    · cases x with
      | param m j v =>
        by_cases he : n = m ∧ i = j
        · obtain ⟨rfl, rfl⟩ := he
          exact .inr ⟨v, by simp⟩
        · have : (k.take (.param m j v : Update N V A)).left n i = k.left n i := if_neg he
          rw [this] at hc
          exact .inl hc
      | store m j v => exact .inl hc
      | program p => exact .inl hc
      | clear => exact .inl hc
      | atom m j a => exact .inl hc
      | amount m j v => exact .inl hc
      | monitor m a b => exact .inl hc
    · exact .inr ⟨v, List.mem_cons_of_mem _ hv⟩

theorem CalmQ.next {k : Clock N} {u us : List (Update N V A)} (h : CalmQ k (u ++ us)) : CalmQ (u.foldl Clock.take k) us := by
  induction u generalizing k with
  | nil => exact h
  | cons x u ih =>
    rw [List.foldl_cons]
    refine ih ?_
    intro a b hab
    obtain ⟨h1, h2⟩ := h (x :: a) b (by rw [List.cons_append, hab]; rfl)
    have hx : ∀ n i v, x ≠ .param n i v := fun n i v hc => h2 n i v (by simp [hc])
    have hk : k.take x = k := by
      cases x with
      | param m j v => exact absurd rfl (hx m j v)
      | store m j v => rfl
      | program p => rfl
      | clear => rfl
      | atom m j a => rfl
      | amount m j v => rfl
      | monitor m a b => rfl
    rw [hk]
    exact ⟨h1, fun n i v hc => h2 n i v (List.mem_cons_of_mem _ hc)⟩

/-- Polling. -/
theorem applyAll_par {T : NodeTable N V A} {l l' : Layout N V} {q : List (Msg N V A M)} {us : List (Update N V A)}
    {now : Playing N V A} (hm : Match T l now q us l') : ∀ {k : Clock N} {e e' : Exec N V A M} {s s' : Shared N V A},
    Plays T l now e.prog → RefsOwn e.prog → QueueFresh q →
    (∀ b, cnt e s b + (q.flatMap Msg.owned).count b ≤ 1) → ParInv T l now k e s.heap → Few k us → CalmQ k us →
    e.applyAll s q = some (e', s') → ParInv T l' (us.foldl Playing.update now) (us.foldl Clock.take k) e' s'.heap := by
  induction hm with
  | nil l now => intro k e e' s s' h _ _ _ hp _ _ ha; cases ha; exact hp
  | @cons l l1 l2 now m q u us h1 _ ih =>
    intro k e e' s s' h hr hf hc hp hfew hcalm ha
    rcases h1.shape with rfl | ⟨x, rfl⟩
    · obtain ⟨rfl, h'⟩ := h.skip h1
      rw [List.foldl_append, List.foldl_append]
      exact ih h' hr hf hc (hp.skip h1) hfew.next hcalm.next ha
    · have hfx := hf x (by simp)
      have hdisj : (x.owned ++ e.prog.owned).Nodup := by
        apply nodup_of_count_le
        intro b
        have := hc b
        simp only [List.singleton_append, List.flatMap_cons, List.count_append, cnt] at this ⊢
        omega
      obtain ⟨⟨e1, s1⟩, ha1⟩ := h.apply_some s h1 hfx hdisj
      obtain ⟨o1, o2, o3⟩ := apply_owner hr hfx ha1
      have h' := h.apply h1 hfx hdisj ha1
      have hp' := hp.apply h h1 hfx hdisj hfew hcalm ha1
      simp only [List.singleton_append, Exec.applyAll, ha1] at ha
      rw [List.foldl_append, List.foldl_append]
      exact ih (e := e1) (s := s1) h' o1 (fun m' hm' => hf m' (by simp [hm'])) (by
        intro b
        have := hc b
        simp only [List.singleton_append, List.flatMap_cons, List.count_append] at this
        rw [o3]
        omega) hp' hfew.next hcalm.next ha

end

end HexoDSP.Engine
