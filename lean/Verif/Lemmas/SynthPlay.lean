import Verif.Lemmas.SynthUpload
import Verif.Props.Messages
import Verif.Props.Flow
/-! What is played after an upload. -/

set_option linter.unusedSectionVars false

namespace HexoDSP.Synth
open HexoDSP.Table HexoDSP.TableProps
open HexoDSP.EngineSpec HexoDSP.NodeConfProps HexoDSP.Play
open HexoDSP.Engine (World EOp Conf Conn NodeTable Value CallIn Block ConfWF conf_send conf_sendAll uniqueIndexFor_none wf_reached ids_buildProg
  buildProg_isSome queueCapacity)
open HexoDSP.GraphOrdering (Ordering Graph Before)

variable {V A M σ : Type}
variable [Add V] [Mul V] [Sub V] [Div V] [NatCast V] [OfNat V 0] [DecidableEq V] [DecidableEq A]
variable {T : NodeTable NodeId V A} {a0 : A} {run : σ → CallIn NodeId V A → σ × (Nat → Block V)} {E : Env V A}

/-- The values played are the values set. -/
theorem playback_values (hE : EnvOk E) {s : SC V A M σ} {seen : List (Visit V)} (h : Ok T a0 run E s seen)
    (hsync : ∀ n, InSync E s.world.conf seen n) {t : Track NodeId V A} (ha : Agree T t s.world.conf) :
    (∀ n p i, n.inp p = some i → (final t).param n i = ((valueOf E seen n p).map (fun x => E.f x.1)).getD (T.normDef n i)) ∧
    (∀ n p pid i, n.inpParam p = some pid → engineParam pid = .atom n i →
      (final t).atom n i = ((valueOf E seen n p).map (·.1)).getD (T.atomDef n i)) ∧
    (∀ n p i, n.inp p = some i → (final t).amt n i = (valueOf E seen n p).bind (·.2)) := by
  refine ⟨?_, ?_, ?_⟩
  · intro n p i hi
    obtain ⟨pid, hp, hat, he⟩ := inp_param hi
    rw [ha.param]
    cases hv : valueOf E seen n p with
    | none =>
      have := (h.unset n p pid hp hv).1
      rw [he] at this
      simp only [paramIn, Option.map_none, Option.getD_none]
      rcases this with hh | hh
      · rw [hh]
      · rw [hh]; rfl
    | some x =>
      obtain ⟨a, ma⟩ := x
      have hh := (hsync n p a ma pid hv hp).1
      simp only [getAtom, he] at hh
      simp only [paramIn, Option.map_some, Option.getD_some]
      cases hg : s.world.conf.getParam (.input n i) with
      | none => rw [hg] at hh; simp at hh
      | some v =>
        rw [hg] at hh
        cases v with
        | num v => simp only [Option.some.injEq] at hh; rw [← hh, hE.f]
        | atom b =>
          simp only [Conf.getParam] at hg
          obtain ⟨y, -, hy⟩ := Option.map_eq_some_iff.1 hg
          cases hy
  · intro n p pid i hp he
    rw [ha.atom]
    cases hv : valueOf E seen n p with
    | none =>
      have := (h.unset n p pid hp hv).1
      rw [he] at this
      simp only [atomIn, Option.map_none, Option.getD_none]
      rcases this with hh | hh
      · rw [hh]
      · rw [hh]; rfl
    | some x =>
      obtain ⟨a, ma⟩ := x
      have hh := (hsync n p a ma pid hv hp).1
      simp only [getAtom, he] at hh
      simp only [atomIn, Option.map_some, Option.getD_some]
      cases hg : s.world.conf.getParam (.atom n i) with
      | none => rw [hg] at hh; simp at hh
      | some v =>
        rw [hg] at hh
        cases v with
        | atom v => simp only [Option.some.injEq] at hh; rw [← hh]
        | num b =>
          simp only [Conf.getParam] at hg
          obtain ⟨y, -, hy⟩ := Option.map_eq_some_iff.1 hg
          cases hy
  · intro n p i hi
    obtain ⟨pid, hp, hat, he⟩ := inp_param hi
    rw [ha.amt]
    cases hv : valueOf E seen n p with
    | none =>
      have := (h.unset n p pid hp hv).2
      rw [he] at this
      rw [this]; rfl
    | some x =>
      obtain ⟨a, ma⟩ := x
      have hh := (hsync n p a ma pid hv hp).2 hat
      rw [he] at hh
      rw [hh]; rfl

theorem follows_upload (hE : EnvOk E) {s s0 : SC V A M σ} {seen : List (Visit V)} (h : Ok T a0 run E s seen) {fuel : Nat} {st : Store V}
    {own : Nat → NodeId} (hst : Typed own st) {r : Nat} {res : Except SynthError Unit}
    (hu : s.upload T a0 run E fuel st (own r, r) = some (s0, res)) (hr : Room s0) {t : Track NodeId V A} (ht : Follows T a0 run s.world t) :
    ∃ vs t0, visits st false fuel (own r, r) = some vs ∧ Follows T a0 run s0.world t0 ∧ (res = .ok () →
      Agree T t0 s0.world.conf ∧ (∀ n, InSync E s0.world.conf (seen ++ vs) n) ∧ (final t0).order.Nodup ∧
      (∀ n, n ∈ (final t0).order ↔ n ∈ known (seen ++ vs)) ∧ (∀ n m, Reads (seen ++ vs) n m → Before (final t0).order m n) ∧
      ((final t0).wires.map (fun c => (c.dst, c.dstIn))).Nodup ∧ (∀ e, e ∈ (final t0).wires ↔ Wired (seen ++ vs) e)) := by
  obtain ⟨h1, h2⟩ := upload_stage (T := T) (a0 := a0) (run := run) hE h (fuel := fuel) hst r
  cases hv : visits st false fuel (own r, r) with
  | none => rw [h1 hv] at hu; cases hu
  | some vs =>
    obtain ⟨h3, h4⟩ := h2 vs hv
    by_cases hc : Cyclic (seen ++ vs)
    · obtain ⟨s1, e1, hw, -, -⟩ := h3 hc
      rw [hu] at e1
      simp only [Option.some.injEq, Prod.mk.injEq] at e1
      obtain ⟨rfl, rfl⟩ := e1
      exact ⟨vs, t, rfl, by rw [hw]; exact ht, fun hh => nomatch hh⟩
    · obtain ⟨s1, cs, order, ws, e1, -, hq, hran, hok, hnd, hmem, hbef, hwn, hws, hids, hsync⟩ := h4 hc
      rw [hu] at e1
      obtain ⟨s2, e2, e3⟩ := Option.map_eq_some_iff.1 e1.symm
      simp only [Prod.mk.injEq] at e3
      obtain ⟨rfl, -⟩ := e3
      obtain ⟨-, -, hids2, hsync2⟩ := sync_after hok e2
      simp only [SC.call] at e2
      obtain ⟨⟨w, out⟩, hstep, rfl⟩ := Option.map_eq_some_iff.1 e2
      have hroom := queue_mono (Or.inr (Or.inr ⟨order, ws, true, rfl⟩)) hstep
      have hlt : w.queue.length < queueCapacity := hr.1
      obtain ⟨t1, ht1⟩ := follows_quiet hran hq (by omega) t ht
      obtain ⟨st', hR⟩ := hok.reached
      have hReached : Reached T a0 run s1.world := ⟨st', _, hR⟩
      have hwf := wf_reached hReached
      have hlen : s1.world.conf.nodes.length ≤ 256 := by
        have hc2 : w.conf.ids.length = s1.world.conf.ids.length := by
          have := hstep
          simp only [World.step] at this
          obtain ⟨⟨c', p, h'⟩, hb, heq⟩ := Option.map_eq_some_iff.1 this
          simp only [Prod.mk.injEq] at heq
          rw [← heq.1, conf_send]
          simp only
          rw [ids_buildProg hwf hb]
        have h5 : w.conf.nodes.length ≤ 256 := hr.2
        simp only [Conf.ids, List.length_map] at hc2
        omega
      have hlegal : Legal s1.world.conf order ws := by
        refine ⟨hlen, hnd, fun n hn => (mem_ids hReached n).2 ((hids n).2 hn), ?_⟩
        intro e he
        obtain ⟨p, o, hw, -⟩ := (hws e).1 he
        exact hbef _ _ ⟨p, o, hw⟩
      have hcare : Careful T s1.world (.sync order ws true : EOp NodeId V A M) := by
        refine ⟨trivial, fun _ => by omega, ?_, (fun _ _ _ hh => nomatch hh)⟩
        rintro o' w' c' hh
        simp only [EOp.sync.injEq] at hh
        obtain ⟨rfl, rfl, -⟩ := hh
        exact hlegal
      obtain ⟨a1, a2, a3⟩ := agree_sync hReached hstep t1
      refine ⟨vs, _, rfl, .call ht1 hcare hstep, fun _ => ⟨a1, fun n => hsync2 n (hsync n), ?_⟩⟩
      rw [a2, a3]
      exact ⟨hnd, hmem, hbef, hwn, hws⟩

theorem follows_walked {s s1 : SC V A M σ} {seen vs : List (Visit V)} {only b : Bool} (hw : Walked T a0 run E only s s1 seen vs b)
    (hr : s1.world.queue.length < queueCapacity) {t : Track NodeId V A} (ht : Follows T a0 run s.world t) : ∃ t', Follows T a0 run s1.world t' := by
  obtain ⟨cs, -, h1, h2⟩ := hw.calls
  exact follows_quiet h1 (fun op ho => quiet_of_set _ (h2 op ho)) hr t ht

theorem upload_queue (hE : EnvOk E) {s s0 : SC V A M σ} {seen : List (Visit V)} (h : Ok T a0 run E s seen) {fuel : Nat} {st : Store V}
    {own : Nat → NodeId} (hst : Typed own st) {r : Nat} {res : Except SynthError Unit}
    (hu : s.upload T a0 run E fuel st (own r, r) = some (s0, res)) : s.world.queue.length ≤ s0.world.queue.length := by
  obtain ⟨h1, h2⟩ := upload_stage (T := T) (a0 := a0) (run := run) hE h (fuel := fuel) hst r
  cases hv : visits st false fuel (own r, r) with
  | none => rw [h1 hv] at hu; cases hu
  | some vs =>
    obtain ⟨h3, h4⟩ := h2 vs hv
    by_cases hc : Cyclic (seen ++ vs)
    · obtain ⟨s1, e1, hw, -, -⟩ := h3 hc
      rw [hu] at e1
      simp only [Option.some.injEq, Prod.mk.injEq] at e1
      rw [e1.1, hw]
    · obtain ⟨s1, cs, order, ws, e1, -, hq, hran, -⟩ := h4 hc
      rw [hu] at e1
      obtain ⟨s2, e2, e3⟩ := Option.map_eq_some_iff.1 e1.symm
      simp only [Prod.mk.injEq] at e3
      obtain ⟨rfl, -⟩ := e3
      simp only [SC.call] at e2
      obtain ⟨⟨w, out⟩, hstep, rfl⟩ := Option.map_eq_some_iff.1 e2
      exact Nat.le_trans (queue_monos hran hq) (queue_mono (Or.inr (Or.inr ⟨order, ws, true, rfl⟩)) hstep)

theorem audio_call {s s' : SC V A M σ} {fuel : Nat} {op : SOp V} (hop : op = .poll ∨ (∃ n, op = .process n) ∨ op = .dropOne)
    (hs : s.step T a0 run E fuel op = some s') : ∃ o : EOp NodeId V A M, (o = .poll ∨ (∃ n, o = .process n) ∨ o = .dropOne) ∧
      ∃ w out, s.world.step T a0 run o = some (w, out) ∧ s' = { s with world := w, calls := s.calls ++ [o] } := by
  have key : ∀ o : EOp NodeId V A M, s.call T a0 run o = some s' →
      ∃ w out, s.world.step T a0 run o = some (w, out) ∧ s' = { s with world := w, calls := s.calls ++ [o] } := by
    intro o hc
    simp only [SC.call] at hc
    obtain ⟨⟨w, out⟩, hw, rfl⟩ := Option.map_eq_some_iff.1 hc
    exact ⟨w, out, hw, rfl⟩
  rcases hop with rfl | ⟨n, rfl⟩ | rfl
  · exact ⟨.poll, Or.inl rfl, key _ hs⟩
  · exact ⟨.process n, Or.inr (Or.inl ⟨n, rfl⟩), key _ hs⟩
  · exact ⟨.dropOne, Or.inr (Or.inr rfl), key _ hs⟩

/-- The engine is followed by the reference machine in every history in which there is room. -/
theorem hist_follows (hE : EnvOk E) {fuel : Nat} {s : SC V A M σ} {seen : List (Visit V)} (h : Hist T a0 run E fuel Room s seen) :
    ∃ t, Follows T a0 run s.world t := by
  induction h with
  | new st => exact ⟨_, .new st⟩
  | outside st _ _ ih =>
    obtain ⟨t, ht⟩ := ih
    exact ⟨t, .outside st ht⟩
  | upload hh hst hs hr ih =>
    obtain ⟨t, ht⟩ := ih
    obtain ⟨vs, t0, -, h0, -⟩ := follows_upload hE (hist_ok hE hh) hst hs hr ht
    exact ⟨t0, h0⟩
  | @updated s s' seen st own r hh hst hs hr ih =>
    obtain ⟨t, ht⟩ := ih
    obtain ⟨h1, h2⟩ := updateParams_stage (T := T) (a0 := a0) (run := run) hE (hist_ok hE hh) (fuel := fuel) hst r
    cases hv : visits st true fuel (own r, r) with
    | none => rw [h1 hv] at hs; cases hs
    | some vs =>
      obtain ⟨s1, b, hw, hok, e⟩ := h2 vs hv
      rw [e] at hs
      cases b with
      | false =>
        simp only [Bool.false_eq_true, if_false, Option.some.injEq, Prod.mk.injEq] at hs
        rw [← hs.1]; rw [← hs.1] at hr
        exact follows_walked hw hr.1 ht
      | true =>
        rw [if_pos rfl] at hs
        obtain ⟨⟨s2, res⟩, h3, h4⟩ := Option.map_eq_some_iff.1 hs
        cases res <;> simp [Except.map] at h4
  | @uploaded s s' seen st own r res hh hst hs hres hr ih =>
    obtain ⟨t, ht⟩ := ih
    obtain ⟨h1, h2⟩ := updateParams_stage (T := T) (a0 := a0) (run := run) hE (hist_ok hE hh) (fuel := fuel) hst r
    cases hv : visits st true fuel (own r, r) with
    | none => rw [h1 hv] at hs; cases hs
    | some vs =>
      obtain ⟨s1, b, hw, hok, e⟩ := h2 vs hv
      rw [e] at hs
      cases b with
      | false =>
        simp only [Bool.false_eq_true, if_false, Option.some.injEq, Prod.mk.injEq] at hs
        have := hres false hs.2.symm
        cases this
      | true =>
        rw [if_pos rfl] at hs
        obtain ⟨⟨s2, res'⟩, h3, h4⟩ := Option.map_eq_some_iff.1 hs
        simp only [Prod.mk.injEq] at h4
        obtain ⟨rfl, -⟩ := h4
        have hq := upload_queue hE hok hst h3
        have hlt := hr.1
        obtain ⟨t1, ht1⟩ := follows_walked hw (by omega) ht
        obtain ⟨vs', t0, -, h0, -⟩ := follows_upload hE hok hst h3 hr ht1
        exact ⟨t0, h0⟩
  | @clear s s' seen hh hs hr ih =>
    obtain ⟨t, ht⟩ := ih
    simp only [SC.clear, SC.call] at hs
    obtain ⟨⟨w, out⟩, hw, rfl⟩ := Option.map_eq_some_iff.1 hs
    have hm := queue_mono (Or.inr (Or.inl rfl)) hw
    have hlt : w.queue.length < queueCapacity := hr.1
    have hcare : Careful T s.world (.deleteNodes : EOp NodeId V A M) :=
      ⟨trivial, fun _ => by omega, (fun _ _ _ h => nomatch h), (fun _ _ _ h => nomatch h)⟩
    exact ⟨_, .call ht hcare hw⟩
  | audio hh hop hs hr ih =>
    obtain ⟨t, ht⟩ := ih
    obtain ⟨o, ho, w, out, hw, rfl⟩ := audio_call hop hs
    exact ⟨_, (agree_audio ho hw ht).1⟩

/-- After an upload, as long as no new program is needed. -/
theorem since_plays (hE : EnvOk E) {fuel : Nat} {s0 s1 : SC V A M σ} {seen more : List (Visit V)} (h0 : Ok T a0 run E s0 seen)
    {t0 : Track NodeId V A} (ht : Follows T a0 run s0.world t0) (ha : Agree T t0 s0.world.conf) (hs : ∀ n, InSync E s0.world.conf seen n)
    (h : Since T a0 run E fuel Room s0 s1 more) :
    Ok T a0 run E s1 (seen ++ more) ∧ (∀ n, InSync E s1.world.conf (seen ++ more) n) ∧ ∃ t, Follows T a0 run s1.world t ∧ Agree T t s1.world.conf ∧
      (final t).order = (final t0).order ∧ (final t).wires = (final t0).wires := by
  induction h with
  | refl => rw [List.append_nil]; exact ⟨h0, hs, t0, ht, ha, rfl, rfl⟩
  | @updated s s' more st own r _ hst hs hr ih =>
    obtain ⟨hok, hsync, t, ht, ha, k1, k2⟩ := ih
    obtain ⟨h1, h2⟩ := updateParams_stage (T := T) (a0 := a0) (run := run) hE hok (fuel := fuel) hst r
    cases hv : visits st true fuel (own r, r) with
    | none => rw [h1 hv] at hs; cases hs
    | some vs =>
      obtain ⟨s1, b, hw, hok', e⟩ := h2 vs hv
      rw [e] at hs
      cases b with
      | false =>
        simp only [Bool.false_eq_true, if_false, Option.some.injEq, Prod.mk.injEq] at hs
        obtain ⟨rfl, -⟩ := hs
        simp only [Option.getD_some]
        rw [← List.append_assoc]
        obtain ⟨cs, -, hst'⟩ := hw.calm rfl
        obtain ⟨t', b1, b2, b3, b4⟩ := follows_steady hst' hr.1 t ht ha
        exact ⟨hok', fun n => hw.sync rfl n (Or.inl (hsync n)), t', b1, b2, b3.trans k1, b4.trans k2⟩
      | true =>
        rw [if_pos rfl] at hs
        obtain ⟨⟨s2, res⟩, h3, h4⟩ := Option.map_eq_some_iff.1 hs
        cases res <;> simp [Except.map] at h4
  | @audio s s' more op _ hop hs hr ih =>
    obtain ⟨hok, hsync, t, ht, ha, k1, k2⟩ := ih
    obtain ⟨o, ho, w, out, hw, rfl⟩ := audio_call hop hs
    obtain ⟨c1, c2, c3⟩ := agree_audio ho hw ht
    obtain ⟨st, hR⟩ := hok.reached
    have hp : Polite s.world o := by rcases ho with rfl | ⟨n, rfl⟩ | rfl <;> trivial
    refine ⟨⟨hok.nodes, hok.typed, hok.closed, hok.lens, ⟨st, ran_append hR (.cons hp hw (.nil _))⟩, by simp only [c3]; exact hok.ids,
      by simp only [c3]; exact hok.unset⟩, by simp only [c3]; exact hsync, _, c1, ?_, by rw [c2]; exact k1, by rw [c2]; exact k2⟩
    simp only [c3]
    exact ⟨by rw [c2]; exact ha.param, by rw [c2]; exact ha.atom, by rw [c2]; exact ha.amt⟩
  | outside st _ _ ih =>
    obtain ⟨hok, hsync, t, ht, ha, k1, k2⟩ := ih
    exact ⟨⟨hok.nodes, hok.typed, hok.closed, hok.lens, ⟨hok.reached.choose, ran_outside hok.reached.choose_spec st⟩, hok.ids, hok.unset⟩, hsync, t,
      .outside st ht, ha, k1, k2⟩

end HexoDSP.Synth
