import Verif.Spec.Ride
import Verif.Lemmas.Cut
/-! The courses of the parameters are those of the reference machine. -/

set_option linter.unusedSectionVars false

namespace HexoDSP.Engine
open EngineSpec SmootherLemmas

variable {N V A M σ : Type} [DecidableEq N]

section
variable [Add V] [Sub V] [Div V] [NatCast V]

theorem climb_shift (a d : V) (f : Nat) : climb (a + d) d f = climb a d (f + 1) := by
  induction f with
  | zero => rfl
  | succ f ih =>
    show climb (a + d) d f + d = climb a d (f + 1) + d
    rw [ih]

theorem value_after (s : Smoother V) : ∀ f, f ≤ s.count → (s.after f).value = climb s.value s.inc f
  | 0, _ => rfl
  | f + 1, h => by
    have ih := value_after s f (by omega)
    simp only [Smoother.after, Smoother.next]
    rw [count_after, if_neg (by omega)]
    show (s.after f).value + (s.after f).inc = _
    rw [ih, inc_after]
    rfl

/-- A smoother that has just been set moves on a line. -/
theorem out_set (s : Smoother V) (a b : V) (f : Nat) : (s.set a b).out f = line a b s.slopeSamples f := by
  unfold line
  split
  · rename_i h
    have hc : f < (s.set a b).count := h
    have hv := value_after (s.set a b) (f + 1) (by omega)
    have hn : (s.set a b).after (f + 1) = ((s.set a b).after f).next.2 := rfl
    have ho : (s.set a b).out f = ((s.set a b).after f).next.1 := rfl
    rw [ho]
    rw [hn] at hv
    have he : ∀ t : Smoother V, t.count ≠ 0 → t.next.1 = t.next.2.value := by
      intro t ht
      simp only [Smoother.next, if_neg ht]
    rw [he _ (by rw [count_after]; omega), hv]
    rfl
  · rename_i h
    have hc : (s.set a b).count ≤ f := Nat.not_lt.1 h
    rw [out_target _ hc]
    rfl

theorem retarget_has {idx : Nat} {cur v : V} : ∀ {ss ss' : List (Nat × Smoother V)}, retarget idx cur v ss = some ss' →
    ∃ x ∈ ss, (idx, x.2.set cur v) ∈ ss' := by
  intro ss
  induction ss with
  | nil => intro ss' h; cases h
  | cons x ss ih =>
    intro ss' h
    simp only [retarget] at h
    split at h
    · rename_i hc
      simp only [Option.some.injEq] at h
      subst h
      refine ⟨x, by simp, ?_⟩
      have : x.1 = idx := by
        simp only [Bool.and_eq_true, beq_iff_eq] at hc
        exact hc.2
      rw [← this]
      simp
    · obtain ⟨y, hy, rfl⟩ := Option.map_eq_some_iff.1 h
      obtain ⟨z, h1, h2⟩ := ih hy
      exact ⟨z, by simp [h1], by simp [h2]⟩

theorem startIdle_has {idx : Nat} {cur v : V} : ∀ {ss : List (Nat × Smoother V)}, (∃ x ∈ ss, x.2.done = true) →
    ∃ x ∈ ss, (idx, x.2.set cur v) ∈ startIdle idx cur v ss := by
  intro ss
  induction ss with
  | nil => rintro ⟨x, hx, _⟩; cases hx
  | cons x ss ih =>
    rintro ⟨y, hy, hd⟩
    simp only [startIdle]
    split
    · exact ⟨x, by simp, by simp⟩
    · rename_i hx
      rcases List.mem_cons.1 hy with rfl | hy
      · exact absurd hd hx
      · obtain ⟨z, h1, h2⟩ := ih ⟨y, hy, hd⟩
        exact ⟨z, by simp [h1], by simp [h2]⟩

/-- Setting a parameter starts a smoother at the present value. -/
theorem setParam_has {e : Exec N V A M} {idx : Nat} {v cur : V} (hcur : e.prog.params[idx]? = some cur)
    (hidle : idx ∉ busy e.smoothers → ∃ x ∈ e.smoothers, x.2.done = true) :
    ∃ x ∈ e.smoothers, (idx, x.2.set cur v) ∈ (e.setParam idx v).smoothers := by
  unfold Exec.setParam
  rw [hcur]
  cases hr : retarget idx cur v e.smoothers with
  | none =>
    obtain ⟨x, h1, h2⟩ := startIdle_has (idx := idx) (cur := cur) (v := v) (hidle ((retarget_none _ _ _ _).1 hr))
    exact ⟨x, h1, by simpa only [hr] using h2⟩
  | some ss =>
    obtain ⟨x, h1, h2⟩ := retarget_has hr
    exact ⟨x, h1, by simpa only [hr] using h2⟩

theorem setIn_course {idx slope : Nat} {v : V} {ss ss' : List (Nat × Smoother V)} (hnd : (busy ss).Nodup)
    (h : SetIn idx v slope ss ss') {g : Nat} (hg : g ≠ idx) (c : V) : course ss' g c = course ss g c := by
  by_cases hb : g ∈ busy ss
  · obtain ⟨s, h1, h2⟩ := mem_busy.1 hb
    rw [course_busy hnd h1 h2, course_busy h.nodup ((h.other g s hg h2).2 h1) h2]
  · have hb' : g ∉ busy ss' := by
      intro hc
      obtain ⟨s, h1, h2⟩ := mem_busy.1 hc
      exact hb (mem_busy.2 ⟨s, (h.other g s hg h2).1 h1, h2⟩)
    rw [course_idle hb, course_idle hb']

/-- The reference machine knows where the parameters of the nodes in the engine go and where they are. -/
structure RideInv (T : NodeTable N V A) (l : Layout N V) (now : Playing N V A) (k : Clock N) (r : Ride N V)
    (e : Exec N V A M) : Prop where
  way : ∀ n ∈ l.ids, ∀ i, i < T.inCount n → course e.smoothers (l.inIdx T n i) (now.param n i) = r.way n i
  here : ∀ n ∈ l.ids, ∀ i, i < T.inCount n → e.prog.params[l.inIdx T n i]? = some (r.here n i)
  gone : ∀ n i, ¬ (n ∈ l.ids ∧ i < T.inCount n) → k.left n i = 0

theorem RideInv.congr {T : NodeTable N V A} {l : Layout N V} {now now' : Playing N V A} {k : Clock N} {r : Ride N V}
    {e e' : Exec N V A M} (hr : RideInv T l now k r e)
    (hn : ∀ n ∈ l.ids, ∀ i, i < T.inCount n → now'.param n i = now.param n i) (hs : e'.smoothers = e.smoothers)
    (hpar : e'.prog.params = e.prog.params) : RideInv T l now' k r e' := by
  refine ⟨fun n h1 i h2 => ?_, fun n h1 i h2 => ?_, hr.gone⟩
  · rw [hs, hn n h1 i h2]; exact hr.way n h1 i h2
  · rw [hpar]; exact hr.here n h1 i h2

/-- One message. -/
theorem RideInv.apply {T : NodeTable N V A} {l l' : Layout N V} {now : Playing N V A} {k : Clock N} {r : Ride N V}
    {e e' : Exec N V A M} {s s' : Shared N V A} {m : Msg N V A M} {u us : List (Update N V A)}
    (hr : RideInv T l now k r e) (hp : ParInv T l now k e s.heap)
    (h : Plays T l now e.prog) (hm : Match1 T l now [m] u l') (hu : ∀ p, m.prog? = some p → Unlinked p)
    (hdisj : (m.owned ++ e.prog.owned).Nodup) (hf : Few k (u ++ us)) (hcalm : CalmQ k (u ++ us))
    (hcold : ∀ n i, k.hot n i = false → k.left n i = 0)
    (ha : e.apply s m = some (e', s')) :
    RideInv T l' (u.foldl Playing.update now) (u.foldl Clock.take k) (Ride.takeAll k r u) e' := by
  cases hm with
  | @param _ n i v hn hi =>
    simp only [Exec.apply, Option.some.injEq, Prod.mk.injEq] at ha
    obtain ⟨rfl, rfl⟩ := ha
    have hlt : l.inIdx T n i < e.prog.params.length := by
      rw [h.carries.parLen, ← h.carries.inLen]
      exact inIdx_lt h.carries hn hi
    have hidle := fun hb => idle_exists (n := n) (i := i) hp hf (v := v) (by simp) hb
    obtain ⟨ss, h1, h2, h3⟩ := setParam_eq (v := v) hlt hp.nodup hp.slopes hidle
    obtain ⟨x, hx1, hx2⟩ := setParam_has (v := v) (hr.here n hn i hi) hidle
    rw [h1] at hx2 ⊢
    show RideInv T l (now.update (.param n i v)) (k.take (.param n i v : Update N V A)) (r.take k (.param n i v : Update N V A)) _
    refine ⟨?_, hr.here, ?_⟩
    · intro m hm j hj
      show course ss _ (if m = n ∧ j = i then v else now.param m j) =
        (if m = n ∧ j = i then line (r.here n i) v k.slope else r.way m j)
      by_cases he : m = n ∧ j = i
      · rw [if_pos he, if_pos he]
        obtain ⟨rfl, rfl⟩ := he
        rw [course_busy h2.nodup hx2 rfl]
        funext f
        rw [out_set, hp.slopes x hx1]
      · rw [if_neg he, if_neg he, setIn_course hp.nodup h2 ?_]
        · exact hr.way m hm j hj
        · intro hc
          exact he (inIdx_inj T hm hn hj hi hc)
    · intro m j hc
      show (if m = n ∧ j = i then k.slope + 1 else k.left m j) = 0
      rw [if_neg (by rintro ⟨rfl, rfl⟩; exact hc ⟨hn, hi⟩)]
      exact hr.gone m j hc
  | atom a hn hi =>
    obtain ⟨hlt, hc⟩ := h.carries.setAtom a hn hi
    simp only [Exec.apply, if_pos hlt, Option.some.injEq, Prod.mk.injEq] at ha
    obtain ⟨rfl, rfl⟩ := ha
    exact hr.congr (fun _ _ _ _ => rfl) rfl rfl
  | amount v hn hi hsome =>
    simp only [Exec.apply, Option.some.injEq, Prod.mk.injEq] at ha
    obtain ⟨rfl, rfl⟩ := ha
    exact hr.congr (fun _ _ _ _ => rfl) rfl rfl
  | @program _ _ pl p co hc hpar hpre hsame hmon =>
    have hu' := hu _ rfl
    have hdisj' : (p.owned ++ e.prog.owned).Nodup := hdisj
    have hnd := (List.nodup_append.1 hdisj').1
    have hsb := (swap_assign_plays hc hu' hnd hdisj ha).2
    have x1 : e'.smoothers = e.smoothers := by
      simp only [Exec.apply] at ha
      cases hx : (if co then p.swapPrevious e.prog else (p, e.prog)) with
      | mk q prev =>
        rw [hx] at ha
        simp only at ha
        split at ha
        · cases ha
        · simp only [Option.some.injEq, Prod.mk.injEq] at ha
          obtain ⟨rfl, rfl⟩ := ha
          rfl
    have hpp : e'.prog.params = p.params := by
      rw [hsb.params]
      split
      · exact (swapPrevious_spec (prev := e.prog) hu').2.2.2.1
      · rfl
    show RideInv T l' pl k (r.take k (.program pl : Update N V A)) _
    refine ⟨?_, ?_, ?_⟩
    · intro n hn i hi
      show _ = if k.left n i = 0 then fun _ => pl.param n i else r.way n i
      rw [x1]
      by_cases hin : n ∈ l.ids
      · rw [inIdx_prefix T hpre hin, hsame n hin i hi]
        split
        · rename_i h0
          refine course_idle fun hb => ?_
          obtain ⟨s0, q1, q2⟩ := mem_busy.1 hb
          obtain ⟨m, j, w1, w2, w3, _, w5, _⟩ := hp.run _ s0 q1 q2
          obtain ⟨rfl, rfl⟩ := inIdx_inj T hin w1 hi w2 w3
          omega
        · exact hr.way n hin i hi
      · rw [if_pos (hr.gone n i (fun hc => hin hc.1))]
        refine course_idle fun hb => ?_
        obtain ⟨s0, q1, q2⟩ := mem_busy.1 hb
        obtain ⟨m, j, w1, w2, w3, _⟩ := hp.run _ s0 q1 q2
        rw [← inIdx_prefix T hpre w1] at w3
        obtain ⟨rfl, rfl⟩ := inIdx_inj T hn (hpre.subset w1) hi w2 w3
        exact hin w1
    · intro n hn i hi
      rw [hpp]
      exact hpar n hn i hi
    · intro n i hc
      exact hr.gone n i fun hx => hc ⟨hpre.subset hx.1, hx.2⟩
  | clear =>
    simp only [Exec.apply, Option.some.injEq, Prod.mk.injEq] at ha
    obtain ⟨rfl, rfl⟩ := ha
    show RideInv T Layout.empty (now.update .clear) k r _
    exact ⟨fun n hn => absurd hn (by simp [Layout.empty]), fun n hn => absurd hn (by simp [Layout.empty]),
      fun n i _ => hcold n i ((hcalm [] us rfl).1 n i)⟩
  | monitor hn hi ho =>
    simp only [Exec.apply, Option.some.injEq, Prod.mk.injEq] at ha
    obtain ⟨rfl, rfl⟩ := ha
    exact hr.congr (fun _ _ _ _ => rfl) rfl rfl
  | midi ev =>
    simp only [Exec.apply, Option.some.injEq, Prod.mk.injEq] at ha
    obtain ⟨rfl, rfl⟩ := ha
    refine hr.congr (fun _ _ _ _ => rfl) ?_ ?_
    · split <;> rfl
    · split <;> rfl

/-- An update without a message. -/
theorem RideInv.skip {T : NodeTable N V A} {l l' : Layout N V} {now : Playing N V A} {k : Clock N} {r : Ride N V}
    {e : Exec N V A M} {u : List (Update N V A)} (hr : RideInv T l now k r e)
    (hm : Match1 (M := M) T l now [] u l') :
    RideInv T l' (u.foldl Playing.update now) (u.foldl Clock.take k) (Ride.takeAll k r u) e := by
  cases hm with
  | @paramSkip _ n i v hs =>
    refine hr.congr (fun m h1 j h2 => if_neg ?_) rfl rfl
    rintro ⟨rfl, rfl⟩
    exact hs ⟨h1, h2⟩
  | atomSkip a hs => exact hr.congr (fun _ _ _ _ => rfl) rfl rfl
  | amountSkip v hs => exact hr.congr (fun _ _ _ _ => rfl) rfl rfl

theorem takeAll_append (u us : List (Update N V A)) : ∀ (k : Clock N) (r : Ride N V),
    Ride.takeAll k r (u ++ us) = Ride.takeAll (u.foldl Clock.take k) (Ride.takeAll k r u) us := by
  induction u with
  | nil => intro k r; rfl
  | cons x u ih => intro k r; exact ih _ _

theorem cold_take (us : List (Update N V A)) : ∀ (k : Clock N), (∀ n i, k.hot n i = false → k.left n i = 0) →
    ∀ n i, (us.foldl Clock.take k).hot n i = false → (us.foldl Clock.take k).left n i = 0 := by
  induction us with
  | nil => intro k hk; exact hk
  | cons u us ih =>
    intro k hk
    rw [List.foldl_cons]
    refine ih _ ?_
    cases u with
    | param m j v =>
      intro n i
      show (if n = m ∧ i = j then true else k.hot n i) = false → (if n = m ∧ i = j then k.slope + 1 else k.left n i) = 0
      split
      · intro hc; cases hc
      · exact hk n i
    | store m j v => exact hk
    | program p => exact hk
    | clear => exact hk
    | atom m j a => exact hk
    | amount m j v => exact hk
    | monitor m a b => exact hk

/-- Polling. -/
theorem applyAll_ride {T : NodeTable N V A} {l l' : Layout N V} {q : List (Msg N V A M)} {us : List (Update N V A)}
    {now : Playing N V A} (hm : Match T l now q us l') :
    ∀ {k : Clock N} {r : Ride N V} {e e' : Exec N V A M} {s s' : Shared N V A},
    Plays T l now e.prog → RefsOwn e.prog → QueueFresh q →
    (∀ b, cnt e s b + (q.flatMap Msg.owned).count b ≤ 1) → ParInv T l now k e s.heap → RideInv T l now k r e → Few k us →
    CalmQ k us → (∀ n i, k.hot n i = false → k.left n i = 0) →
    e.applyAll s q = some (e', s') →
    RideInv T l' (us.foldl Playing.update now) (us.foldl Clock.take k) (Ride.takeAll k r us) e' := by
  induction hm with
  | nil l now => intro k r e e' s s' h _ _ _ _ hr _ _ _ ha; cases ha; exact hr
  | @cons l l1 l2 now m q u us h1 _ ih =>
    intro k r e e' s s' h href hf hc hp hr hfew hcalm hcold ha
    rw [List.foldl_append, List.foldl_append, takeAll_append]
    rcases h1.shape with rfl | ⟨x, rfl⟩
    · obtain ⟨rfl, h'⟩ := h.skip h1
      exact ih h' href hf hc (hp.skip h1) (hr.skip h1) hfew.next hcalm.next (cold_take u k hcold) ha
    · have hfx := hf x (by simp)
      have hdisj : (x.owned ++ e.prog.owned).Nodup := by
        apply nodup_of_count_le
        intro b
        have := hc b
        simp only [List.singleton_append, List.flatMap_cons, List.count_append, cnt] at this ⊢
        omega
      obtain ⟨⟨e1, s1⟩, ha1⟩ := h.apply_some s h1 hfx hdisj
      obtain ⟨o1, o2, o3⟩ := apply_owner href hfx ha1
      have h' := h.apply h1 hfx hdisj ha1
      have hp' := hp.apply h h1 hfx hdisj hfew hcalm ha1
      have hr' := hr.apply hp h h1 hfx hdisj hfew hcalm hcold ha1
      simp only [List.singleton_append, Exec.applyAll, ha1] at ha
      exact ih (e := e1) (s := s1) h' o1 (fun m' hm' => hf m' (by simp [hm'])) (by
        intro b
        have := hc b
        simp only [List.singleton_append, List.flatMap_cons, List.count_append] at this
        rw [o3]
        omega) hp' hr' hfew.next hcalm.next (cold_take u k hcold) ha

variable [Mul V] [OfNat V 0]

/-- After a block the parameters are where they are in its last frame. -/
theorem process_here {T : NodeTable N V A} {l : Layout N V} {now : Playing N V A} {k : Clock N}
    {run : σ → CallIn N V A → σ × (Nat → Block V)} {e e' : Exec N V A M} {h h' : Heap V} {st st' : σ} {nf : Nat}
    {r : BlockResult N V A} (hp : ParInv T l now k e h) (hc : Carries T l now e.prog) (hnd : e.prog.inp.Nodup)
    (hnf : 0 < nf) (hpr : e.process run h st nf = some (e', h', st', r)) :
    ∀ n ∈ l.ids, ∀ i, i < T.inCount n →
      e'.prog.params[l.inIdx T n i]? = some (course e.smoothers (l.inIdx T n i) (now.param n i) (nf - 1)) := by
  have hfr : ∀ r ∈ e.targetRefresh.reverse, r.1 < e.prog.inp.length := by
    intro r hr
    obtain ⟨n, i, q1, q2, q3, _⟩ := hp.fresh r (List.mem_reverse.1 hr)
    rw [q3]
    exact inIdx_lt hc q1 q2
  obtain ⟨h0, r1, r2⟩ := refreshTargets_spec hnd e.targetRefresh.reverse h hfr
  have hb : ∀ g ∈ busy e.smoothers, g < e.prog.inp.length := by
    intro g hg
    obtain ⟨s, h1, h2⟩ := mem_busy.1 hg
    obtain ⟨n, i, q1, q2, q3, _⟩ := hp.run g s h1 h2
    rw [q3]
    exact inIdx_lt hc q1 q2
  obtain ⟨ss, a, s1, s2⟩ := runSmoothers_spec hnd hnf e.smoothers { heap := h0, params := e.prog.params, refresh := [] }
    hp.nodup hb
  have hps : e.processSmoothers h nf =
      some ({ e with smoothers := ss, targetRefresh := a.refresh, prog := { e.prog with params := a.params } }, a.heap) := by
    unfold Exec.processSmoothers
    rw [r1]
    simp only [s1]
  have hpe : e'.prog.params = a.params := by
    unfold Exec.process at hpr
    split at hpr
    · cases hpr
    · rw [hps] at hpr
      simp only at hpr
      split at hpr
      · cases hpr
      · split at hpr
        · cases hpr
        · simp only [Option.some.injEq, Prod.mk.injEq] at hpr
          rw [← hpr.1]
  intro n hn i hi
  have hlt : l.inIdx T n i < e.prog.params.length := by
    rw [hc.parLen, ← hc.inLen]
    exact inIdx_lt hc hn hi
  rw [hpe]
  by_cases hbz : l.inIdx T n i ∈ busy e.smoothers
  · obtain ⟨s, q1, q2⟩ := mem_busy.1 hbz
    rw [s2.params _ s q1 q2 hlt, course_busy hp.nodup q1 q2]
  · rw [s2.paramsElse _ hbz, course_idle hbz]
    exact (hp.still n hn i hi hbz).1

theorem course_slope (ss : List (Nat × Smoother V)) (n g : Nat) (c : V) :
    course (ss.map (fun s => (s.1, s.2.setSlope n))) g c = course ss g c := by
  have hnext : ∀ t : Smoother V, (t.setSlope n).next.2 = t.next.2.setSlope n := by
    intro t
    obtain ⟨a, b, c, d, e, g⟩ := t
    cases e <;> rfl
  have hfirst : ∀ t : Smoother V, (t.setSlope n).next.1 = t.next.1 := by
    intro t
    obtain ⟨a, b, c, d, e, g⟩ := t
    cases e <;> rfl
  have hout : ∀ (s : Smoother V) (f : Nat), (s.setSlope n).after f = (s.after f).setSlope n := by
    intro s f
    induction f with
    | zero => rfl
    | succ f ih =>
      simp only [Smoother.after, ih]
      exact hnext _
  have hout' : ∀ s : Smoother V, (s.setSlope n).out = s.out := by
    intro s
    funext f
    simp only [Smoother.out, hout]
    exact hfirst _
  unfold course
  rw [List.find?_map]
  have : ((fun x : Nat × Smoother V => !x.2.done && x.1 == g) ∘ fun s : Nat × Smoother V => (s.1, s.2.setSlope n)) =
      fun x => !x.2.done && x.1 == g := rfl
  rw [this]
  cases ss.find? (fun x => !x.2.done && x.1 == g) with
  | none => rfl
  | some x => exact hout' x.2

theorem ride_step_at {T : NodeTable N V A} {a0 : A}
    {run : σ → CallIn N V A → σ × (Nat → Block V)}
    {w w' : World N V A M σ} {t : Track N V A} {k : Clock N} {r : Ride N V} {op : EOp N V A M}
    {out : Option (BlockResult N V A)} {le lc : Layout N V}
    (hacc : Account w) (hsim : SimAt T le lc w t) (hpar : ParInv T le t.now k w.exec w.shared.heap)
    (hr : RideInv T le t.now k r w.exec)
    (hcalm : CalmQ k t.pending) (hcold : ∀ n i, k.hot n i = false → k.left n i = 0) (hg : Gentle T w t k op)
    (hs : w.step T a0 run op = some (w', out)) :
    RideInv T (nextLay le lc op) (t.step T w.conf op).now (k.step t.pending op) (r.step k t.pending op) w'.exec := by
  rcases step_frame hs with rfl | ⟨nf, rfl⟩ | ⟨n, rfl⟩ | ⟨hq, hexec, hdata⟩
  · obtain ⟨h1, h2, h3, h4⟩ := hsim
    simp only [World.step] at hs
    obtain ⟨⟨e', s'⟩, ha, heq⟩ := Option.map_eq_some_iff.1 hs
    simp only [Prod.mk.injEq] at heq
    obtain ⟨rfl, _⟩ := heq
    exact applyAll_ride h2 h1 hacc.refs hacc.fresh (account_cnt hacc) hpar hr (hg.few rfl) hcalm hcold ha
  · have ht : t.step T w.conf (.process nf : EOp N V A M) = t := by simp [Track.step, asks]
    rw [ht]
    simp only [World.step] at hs
    obtain ⟨⟨e', h', st', b⟩, hb, heq⟩ := Option.map_eq_some_iff.1 hs
    simp only [Prod.mk.injEq] at heq
    obtain ⟨rfl, _⟩ := heq
    have hown := account_owned hacc
    obtain ⟨hnf, _, _, _, _, p5, _⟩ := process_course hpar hsim.1 hown hb
    have hh := process_here hpar hsim.1.carries (sep_of_owned hown).inp hnf.1 hb
    show RideInv T le t.now _ _ e'
    refine ⟨?_, ?_, ?_⟩
    · intro n hn i hi
      funext f
      rw [p5, course_shift hpar.nodup]
      · show _ = r.way n i (f + nf)
        rw [← hr.way n hn i hi]
      · intro s hs hd
        obtain ⟨m, j, q1, q2, q3, q4, _⟩ := hpar.run _ s hs hd
        obtain ⟨rfl, rfl⟩ := inIdx_inj T q1 hn q2 hi q3.symm
        exact q4
    · intro n hn i hi
      rw [hh n hn i hi]
      show _ = some (r.way n i (nf - 1))
      rw [← hr.way n hn i hi]
    · intro n i hc
      show k.left n i - nf = 0
      rw [hr.gone n i hc, Nat.zero_sub]
  · have ht : t.step T w.conf (.setSlope n : EOp N V A M) = t := by simp [Track.step, asks]
    rw [ht]
    cases hs
    show RideInv T le t.now _ _ _
    refine ⟨fun m hm i hi => ?_, hr.here, hr.gone⟩
    show course (w.exec.smoothers.map (fun s => (s.1, s.2.setSlope n))) _ _ = _
    rw [course_slope]
    exact hr.way m hm i hi
  · have hr' : RideInv T le t.now k r w'.exec := hr.congr (fun _ _ _ _ => rfl) (by rw [hexec]) (by rw [hexec])
    cases op with
    | poll => cases hq
    | process nf => cases hq
    | setSlope n => cases hq
    | _ => exact hr'

end

end HexoDSP.Engine
