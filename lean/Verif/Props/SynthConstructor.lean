import Verif.Lemmas.SynthPlay
/-! # Constructed networks (C37, C74, C75) -/

set_option linter.unusedSectionVars false

namespace HexoDSP.SynthProps
open HexoDSP.Synth
open HexoDSP.Table HexoDSP.TableProps
open HexoDSP.EngineSpec HexoDSP.NodeConfProps HexoDSP.Play
open HexoDSP.Engine (World EOp Conf Conn NodeTable Value CallIn Block BlockResult queueCapacity)
open HexoDSP.GraphOrdering (Ordering Graph Before)

variable {V A M σ : Type}
variable [Add V] [Mul V] [Sub V] [Div V] [NatCast V] [OfNat V 0] [DecidableEq V] [DecidableEq A]
variable {T : NodeTable NodeId V A} {a0 : A} {run : σ → CallIn NodeId V A → σ × (Nat → Block V)} {E : Env V A}
variable {fuel : Nat} {P : SC V A M σ → Prop} {s s0 s1 s2 : SC V A M σ} {seen more vs : List (Visit V)} {st : Store V} {own : Nat → NodeId} {r : Nat}

/-! ## Order -/

/-- **C37** Whatever was uploaded before: if the known nodes form a cycle then `upload` reports it and does nothing to the engine. Otherwise it
succeeds, and hands one program to the audio thread: every known node is in it once, after all nodes it reads from, and the connections are the known
ones, at most one per input. -/
theorem upload_outcome (hE : EnvOk E) (h : Hist T a0 run E fuel P s seen) (hst : Typed own st) (hv : visits st false fuel (own r, r) = some vs)
    (hk : (known (seen ++ vs)).dedup.length ≤ 256) :
    (Cyclic (seen ++ vs) → ∃ s', s.upload T a0 run E fuel st (own r, r) = some (s', .error .cycleDetected) ∧ s'.world = s.world ∧ s'.calls = s.calls) ∧
    (¬ Cyclic (seen ++ vs) → ∃ s' cs order ws, s.upload T a0 run E fuel st (own r, r) = some (s', .ok ()) ∧
      s'.calls = s.calls ++ cs ++ [.sync order ws true] ∧ (∀ op ∈ cs, ∀ o w c, op ≠ .sync o w c) ∧
      order.Nodup ∧ (∀ n, n ∈ order ↔ n ∈ known (seen ++ vs)) ∧ (∀ n m, Reads (seen ++ vs) n m → Before order m n) ∧
      (ws.map (fun c => (c.dst, c.dstIn))).Nodup ∧ (∀ e, e ∈ ws ↔ Wired (seen ++ vs) e)) := by
  obtain ⟨-, h2⟩ := upload_stage (T := T) (a0 := a0) (run := run) hE (hist_ok hE h) (fuel := fuel) hst r
  obtain ⟨h3, h4⟩ := h2 vs hv
  refine ⟨fun hc => ?_, fun hc => ?_⟩
  · obtain ⟨s', e, hw, hcalls, -⟩ := h3 hc
    exact ⟨s', e, hw, hcalls⟩
  · obtain ⟨s1, cs, order, ws, e1, hcs, hq, hran, hok, hnd, hmem, hbef, hwn, hws, hids, -⟩ := h4 hc
    obtain ⟨s2, e2⟩ := sync_ok hok hnd (fun n hn => (hids n).2 hn) (fun e he => (hws e).1 he) hk
    obtain ⟨-, hcalls, -⟩ := sync_after hok e2
    refine ⟨s2, cs, order, ws, by rw [e1, e2]; rfl, by rw [hcalls, hcs], ?_, hnd, hmem, hbef, hwn, hws⟩
    rintro op ho o w c rfl
    exact hq _ ho

/-- **C37** A network is rejected exactly if the known nodes form a cycle. -/
theorem upload_ok_iff (hE : EnvOk E) (h : Hist T a0 run E fuel P s seen) (hst : Typed own st) (hv : visits st false fuel (own r, r) = some vs)
    (hk : (known (seen ++ vs)).dedup.length ≤ 256) :
    (∃ s', s.upload T a0 run E fuel st (own r, r) = some (s', .ok ())) ↔ ¬ Cyclic (seen ++ vs) := by
  obtain ⟨h1, h2⟩ := upload_outcome hE h hst hv hk
  refine ⟨fun ⟨s', e⟩ hc => ?_, fun hc => ?_⟩
  · obtain ⟨s1, e1, -⟩ := h1 hc
    rw [e] at e1; cases e1
  · obtain ⟨s1, _, _, _, e1, -⟩ := h2 hc
    exact ⟨s1, e1⟩

/-! ## Termination -/

theorem mapM_some {α β : Type} (f : α → Option β) (l : List α) (h : ∀ a ∈ l, (f a).isSome) : (l.mapM f).isSome := by
  induction l with
  | nil => simp
  | cons a l ih =>
    obtain ⟨b, hb⟩ := Option.isSome_iff_exists.1 (h a (by simp))
    obtain ⟨bs, hbs⟩ := Option.isSome_iff_exists.1 (ih (fun x hx => h x (by simp [hx])))
    simp [List.mapM_cons, hb, hbs]

theorem mapM_isSome {α β : Type} (f : α → Option β) (l : List α) (h : (l.mapM f).isSome) : ∀ a ∈ l, (f a).isSome := by
  induction l with
  | nil => simp
  | cons a l ih =>
    rw [List.mapM_cons] at h
    cases ha : f a with
    | none => simp [ha] at h
    | some b =>
      cases hl : l.mapM f with
      | none => simp [ha, hl] at h
      | some bs =>
        intro x hx
        rcases List.mem_cons.1 hx with rfl | hx
        · simp [ha]
        · exact ih (by simp [hl]) x hx

/-- **C37** A network whose lists of operations do not refer back to themselves is read completely, given call stack for its depth. -/
theorem network_is_read (only : Bool) (rank : NodeId × Nat → Nat) (hr : ∀ n m, ReadsFrom st n m → rank m < rank n) (n : NodeId × Nat) (hf : rank n < fuel) :
    ∃ vs, visits st only fuel n = some vs := by
  rw [← Option.isSome_iff_exists]
  induction fuel generalizing n with
  | zero => omega
  | succ fuel ih =>
    simp only [visits, Option.isSome_map]
    refine mapM_some _ _ (fun m hm => ih m ?_)
    have := hr n m hm
    omega

/-- **C37** A node that reads, over any number of nodes, from itself can not be read with any amount of call stack. -/
theorem self_reading_never_read (only : Bool) {n : NodeId × Nat} (h : Relation.TransGen (ReadsFrom st) n n) (fuel : Nat) : visits st only fuel n = none := by
  have key : ∀ {a b : NodeId × Nat}, Relation.TransGen (ReadsFrom st) a b → ∀ f, (visits st only f a).isSome → ∃ g, g < f ∧ (visits st only g b).isSome := by
    have one : ∀ {a b : NodeId × Nat}, ReadsFrom st a b → ∀ f, (visits st only f a).isSome → ∃ g, g < f ∧ (visits st only g b).isSome := by
      intro a b hab f hf
      cases f with
      | zero => simp [visits] at hf
      | succ f =>
        simp only [visits, Option.isSome_map] at hf
        exact ⟨f, Nat.lt_succ_self f, mapM_isSome _ _ hf b hab⟩
    intro a b hab
    induction hab with
    | single h => exact one h
    | tail _ h ih =>
      intro f hf
      obtain ⟨g, hg, hs⟩ := ih f hf
      obtain ⟨g', hg', hs'⟩ := one h g hs
      exact ⟨g', by omega, hs'⟩
  induction fuel using Nat.strong_induction_on with
  | _ fuel ih =>
    cases hv : visits st only fuel n with
    | none => rfl
    | some vs =>
      obtain ⟨g, hg, hs⟩ := key h fuel (by simp [hv])
      rw [ih g hg] at hs; cases hs

/-- **C37** Such a network is not rejected: `upload` and `update_params` exhaust the call stack, however large it is. -/
theorem self_reading_not_rejected (hE : EnvOk E) (h : Hist T a0 run E fuel P s seen) (hst : Typed own st)
    (hc : Relation.TransGen (ReadsFrom st) (own r, r) (own r, r)) (fuel' : Nat) :
    s.upload T a0 run E fuel' st (own r, r) = none ∧ s.updateParams T a0 run E fuel' st (own r, r) = none :=
  ⟨(upload_stage hE (hist_ok hE h) hst r).1 (self_reading_never_read false hc fuel'),
    (updateParams_stage hE (hist_ok hE h) hst r).1 (self_reading_never_read true hc fuel')⟩

/-! ## What is played -/

theorem plays_of (hE : EnvOk E) (hok : Ok T a0 run E s seen) {t : Track NodeId V A} (ht : Follows T a0 run s.world t) (hst : Typed own st)
    (hu : s.upload T a0 run E fuel st (own r, r) = some (s0, .ok ())) (hr : Room s0) (hs : Since T a0 run E fuel Room s0 s1 more) :
    ∃ vs t, visits st false fuel (own r, r) = some vs ∧ Follows T a0 run s1.world t ∧ SeenTyped (seen ++ vs) ∧
      Playback T E (seen ++ vs) (seen ++ vs ++ more) (final t) := by
  obtain ⟨vs, t0, hv, h0, hrest⟩ := follows_upload hE hok hst hu hr ht
  obtain ⟨ha, hsync, hnd, hmem, hbef, hwn, hws⟩ := hrest rfl
  obtain ⟨vs', hv', hok'⟩ := upload_ok hE hok hst hu
  rw [hv] at hv'
  cases hv'
  obtain ⟨hok1, hsync1, t1, ht1, ha1, k1, k2⟩ := since_plays hE hok' h0 ha hsync hs
  obtain ⟨v1, v2, v3⟩ := playback_values hE hok1 hsync1 ha1
  exact ⟨vs, t1, hv, ht1, hok'.typed, by rw [k1]; exact hnd, by rw [k1]; exact hmem, by rw [k1]; exact hbef, by rw [k2]; exact hws, by rw [k2]; exact hwn, v1, v2, v3⟩

/-- `update_params` that reports a new program: parameters are set, then the network is uploaded. -/
theorem update_splits (hE : EnvOk E) (hok : Ok T a0 run E s seen) (hst : Typed own st)
    (hu : s.updateParams T a0 run E fuel st (own r, r) = some (s0, .ok true)) :
    ∃ us s', visits st true fuel (own r, r) = some us ∧ Walked T a0 run E true s s' seen us true ∧ Ok T a0 run E s' (seen ++ us) ∧
      s'.upload T a0 run E fuel st (own r, r) = some (s0, .ok ()) := by
  obtain ⟨h1, h2⟩ := updateParams_stage (T := T) (a0 := a0) (run := run) hE hok (fuel := fuel) hst r
  cases hv : visits st true fuel (own r, r) with
  | none => rw [h1 hv] at hu; cases hu
  | some us =>
    obtain ⟨s', b, hw, hok', e⟩ := h2 us hv
    rw [e] at hu
    cases b with
    | false => simp at hu
    | true =>
      rw [if_pos rfl] at hu
      obtain ⟨⟨s2, res⟩, h3, h4⟩ := Option.map_eq_some_iff.1 hu
      simp only [Prod.mk.injEq] at h4
      obtain ⟨rfl, h5⟩ := h4
      cases res with
      | error e => simp [Except.map] at h5
      | ok u => exact ⟨us, s', rfl, hw, hok', h3⟩

/-- **C74** Once all messages have reached the audio thread an uploaded network is what is played: the known nodes and connections, with the values set
last. This stays so, with the newer values, over any number of calls of `update_params` that need no new program. -/
theorem network_plays (hE : EnvOk E) (h : Hist T a0 run E fuel Room s seen) (hst : Typed own st)
    (hu : s.upload T a0 run E fuel st (own r, r) = some (s0, .ok ())) (hr : Room s0) (hs : Since T a0 run E fuel Room s0 s1 more) :
    ∃ vs t, visits st false fuel (own r, r) = some vs ∧ Follows T a0 run s1.world t ∧ Playback T E (seen ++ vs) (seen ++ vs ++ more) (final t) := by
  obtain ⟨t, ht⟩ := hist_follows hE h
  obtain ⟨vs, t1, hv, ht1, -, hp⟩ := plays_of hE (hist_ok hE h) ht hst hu hr hs
  exact ⟨vs, t1, hv, ht1, hp⟩

/-- **C75** If `update_params` reports that it has made a new program then the same holds: all known nodes and connections are played, with the values
set last. -/
theorem updated_network_plays (hE : EnvOk E) (h : Hist T a0 run E fuel Room s seen) (hst : Typed own st)
    (hu : s.updateParams T a0 run E fuel st (own r, r) = some (s0, .ok true)) (hr : Room s0) (hs : Since T a0 run E fuel Room s0 s1 more) :
    ∃ us vs t, visits st true fuel (own r, r) = some us ∧ visits st false fuel (own r, r) = some vs ∧ Follows T a0 run s1.world t ∧
      Playback T E (seen ++ us ++ vs) (seen ++ us ++ vs ++ more) (final t) := by
  obtain ⟨t, ht⟩ := hist_follows hE h
  obtain ⟨us, s', hus, hw, hok', h3⟩ := update_splits hE (hist_ok hE h) hst hu
  have hq := upload_queue hE hok' hst h3
  have hlt := hr.1
  obtain ⟨t', ht'⟩ := follows_walked hw (by omega) ht
  obtain ⟨vs, t1, hv, ht1, -, hp⟩ := plays_of hE hok' ht' hst h3 hr hs
  exact ⟨us, vs, t1, hus, hv, ht1, hp⟩

theorem visits_only {only : Bool} (fuel : Nat) (n : NodeId × Nat) (us : List (Visit V)) (h : visits st only fuel n = some us) : ∀ v ∈ us, v.only = only := by
  induction fuel generalizing n us with
  | zero => simp [visits] at h
  | succ fuel ih =>
    have hl : ∀ (l : List (NodeId × Nat)) (vss : List (List (Visit V))), l.mapM (visits st only fuel) = some vss → ∀ v ∈ vss.flatten, v.only = only := by
      intro l
      induction l with
      | nil =>
        intro vss hh
        simp only [List.mapM_nil, Option.pure_def, Option.some.injEq] at hh
        subst hh; simp
      | cons a l ihl =>
        intro vss hh
        rw [List.mapM_cons] at hh
        cases ha : visits st only fuel a with
        | none => simp [ha] at hh
        | some us =>
          cases hr : l.mapM (visits st only fuel) with
          | none => simp [ha, hr] at hh
          | some rest =>
            simp only [ha, hr, Option.bind_eq_bind, Option.bind_some, Option.pure_def, Option.some.injEq] at hh
            subst hh
            intro v hv
            rw [List.flatten_cons, List.mem_append] at hv
            rcases hv with hv | hv
            · exact ih a us ha v hv
            · exact ihl rest hr v hv
    simp only [visits] at h
    obtain ⟨vss, h1, rfl⟩ := Option.map_eq_some_iff.1 h
    intro v hv
    rcases List.mem_cons.1 hv with rfl | hv
    · rfl
    · exact hl _ vss h1 v hv

/-- **C75** If `update_params` reports that no new program was needed then it has only set parameters and modulation amounts, no connection has changed,
no modulation amount has come or gone, and every node something was set on has the values set last. -/
theorem update_only_sets (hE : EnvOk E) (h : Hist T a0 run E fuel P s seen) (hst : Typed own st)
    (hu : s.updateParams T a0 run E fuel st (own r, r) = some (s0, .ok false)) :
    ∃ us cs, visits st true fuel (own r, r) = some us ∧ s0.calls = s.calls ++ cs ∧
      (∀ op ∈ cs, (∃ n i v, op = .setInput n i v) ∨ (∃ n i a, op = .setAtom n i a) ∨ ∃ q m, op = .setModamt q m) ∧
      (∀ n p, wireOf (seen ++ us) n p = wireOf seen n p) ∧
      (∀ q, (s0.world.conf.getModamt q).isSome = (s.world.conf.getModamt q).isSome) ∧
      ∀ v ∈ us, (∃ op ∈ v.ops, ∀ p src o, op ≠ .input p src o) → ∀ p pid a ma, valueOf E (seen ++ us) v.node p = some (a, ma) →
        v.node.inpParam p = some pid → getAtom E s0.world.conf pid = some a ∧ (pid.isAtom = false → s0.world.conf.getModamt (engineParam pid) = ma) := by
  obtain ⟨h1, h2⟩ := updateParams_stage (T := T) (a0 := a0) (run := run) hE (hist_ok hE h) (fuel := fuel) hst r
  cases hv : visits st true fuel (own r, r) with
  | none => rw [h1 hv] at hu; cases hu
  | some us =>
    obtain ⟨s', b, hw, hok', e⟩ := h2 us hv
    rw [e] at hu
    cases b with
    | true =>
      rw [if_pos rfl] at hu
      obtain ⟨⟨s2, res⟩, h3, h4⟩ := Option.map_eq_some_iff.1 hu
      cases res <;> simp [Except.map] at h4
    | false =>
      simp only [Bool.false_eq_true, if_false, Option.some.injEq, Prod.mk.injEq] at hu
      obtain ⟨rfl, -⟩ := hu
      obtain ⟨cs, hcs, -, hset⟩ := hw.calls
      refine ⟨us, cs, rfl, hcs, ?_, ?_, hw.amounts rfl, ?_⟩
      · intro op ho
        have := hset op ho
        cases op <;> simp_all [IsSet]
      · intro n p
        have hf : us.filter (fun v => decide (v.node = n) && !v.only) = [] := by
          rw [List.filter_eq_nil_iff]
          intro v hv'
          simp [visits_only fuel _ us hv v hv']
        simp only [wireOf, List.filter_append, hf, List.append_nil]
      · intro v hv' hop p pid a ma hval hpid
        refine hw.sync rfl v.node (Or.inr ⟨v, hv', rfl, ?_⟩) p a ma pid hval hpid
        obtain ⟨op, ho, hne⟩ := hop
        simp only [HasSet, List.any_eq_true]
        refine ⟨op, ho, ?_⟩
        cases op <;> simp_all

theorem table_small (hT : TableOk T) (n : NodeId) : T.inCount n ≤ 32 := by
  rw [hT.inCount]
  cases n with
  | nop => simp [NodeInfo.fromNodeId, NodeInfo.inCount]
  | node k j => rw [(info_counts k j).1]; exact few_inputs k

theorem inp_count (hT : TableOk T) {n : NodeId} {p : String} {i : Nat} (h : n.inp p = some i) : i < T.inCount n := by
  rw [hT.inCount]; exact ((port_names n p i).1.1 h).2

theorem out_count (hT : TableOk T) {n : NodeId} {p : String} {i : Nat} (h : n.out p = some i) : i < T.outCount n := by
  rw [hT.outCount]
  cases n with
  | nop => simp [NodeId.out] at h
  | node k j =>
    rw [(info_counts k j).2.2]
    simp only [NodeId.out, Option.map_eq_some_iff] at h
    obtain ⟨o, ho, rfl⟩ := h
    have : o.idx ∈ (row k).outs.map (·.idx) := List.mem_map.2 ⟨o, List.mem_of_find?_eq_some ho, rfl⟩
    rw [ok_outs (table_ok k)] at this
    exact List.mem_range.1 this

theorem at_count (hT : TableOk T) {n : NodeId} {p : String} {pid : Table.ParamId} {i : Nat} (h : n.inpParam p = some pid) (he : engineParam pid = .atom n i) :
    i < T.atCount n := by
  rw [hT.atCount]
  cases n with
  | nop => simp [NodeId.inpParam] at h
  | node k j =>
    rw [(info_counts k j).2.1]
    obtain ⟨rfl, h2, x, h3⟩ := (inpParam_iff k j p pid).1 h
    obtain ⟨an, an', ai⟩ := pid
    simp only at h2 h3
    subst h2
    have h1 : ParamId.isAtom ⟨an, .node k j, ai⟩ = x := isAtom_of_entry h3
    cases x with
    | false => simp [engineParam, h1] at he
    | true =>
      simp only [engineParam, h1, if_true, Engine.ParamId.atom.injEq, true_and] at he
      have hf : ParamId.isAtom ⟨an, .node k j, ai⟩ = true := h1
      simp only [ParamId.isAtom] at hf
      cases hp : (row k).params.find? (fun r => decide (r.idx = ai)) with
      | some _ => simp [hp] at hf
      | none =>
        simp only [hp] at hf
        obtain ⟨a, ha⟩ := Option.isSome_iff_exists.1 hf
        simp only [ha] at he
        rw [← he]
        exact ok_atIdx_lt (table_ok k) a (List.mem_of_find?_eq_some ha)

theorem feeds_of_mem {es : List (Conn NodeId)} (hn : (es.map (fun e => (e.dst, e.dstIn))).Nodup) {e : Conn NodeId} (he : e ∈ es) (hp : Plugged T e) :
    Feeds T es e.dst e.dstIn e := by
  obtain ⟨pre, post, rfl⟩ := List.append_of_mem he
  refine ⟨hp, rfl, rfl, pre, post, rfl, fun e' he' _ hh => ?_⟩
  rw [List.map_append, List.map_cons] at hn
  have := (List.nodup_cons.1 (List.nodup_append.1 hn).2.1).1
  exact this (List.mem_map.2 ⟨e', he', by rw [hh.1, hh.2]⟩)

theorem flow_of_playback (hT : TableOk T) {net : List (Visit V)} {t : Track NodeId V A} (ht : Follows T a0 run s1.world t) (htyp : SeenTyped net)
    (hpl : Playback T E net more (final t)) {out : Option (BlockResult NodeId V A)} {w2 w3 : World NodeId V A M σ} {nf : Nat} {res : BlockResult NodeId V A}
    (hp : s1.world.step T a0 run .poll = some (w2, out)) (hb : w2.step T a0 run (.process nf) = some (w3, some res)) :
    NetFlow T E net more nf res.calls := by
  have hcare : Careful T s1.world (.poll : EOp NodeId V A M) := ⟨trivial, fun hh => absurd rfl hh, (fun _ _ _ hh => nomatch hh), (fun _ _ _ hh => nomatch hh)⟩
  have ht2 := Follows.call ht hcare hp
  have hnow : (t.step (M := M) T s1.world.conf .poll).now = final t := rfl
  have hf := (FlowProps.block_is_dataflow (table_small hT) ht2 hb).2
  rw [hnow] at hf
  have hfeed : ∀ (n : NodeId) (p : String) (i : Nat) (m : NodeId) (o : String), n.inp p = some i → wireOf net n p = some (m, o) →
      ∃ k, m.out o = some k ∧ Feeds T (final t).wires n i ⟨n, i, m, k⟩ ∧ k < T.outCount m := by
    intro n p i m o hi hw
    obtain ⟨_, h2⟩ := wire_typed htyp hw
    obtain ⟨k, hk⟩ := Option.isSome_iff_exists.1 h2
    have hlt := out_count hT hk
    have hin := inp_count hT hi
    have hmem : (⟨n, i, m, k⟩ : Conn NodeId) ∈ (final t).wires := (hpl.wires _).2 ⟨p, o, hw, hi, hk⟩
    exact ⟨k, hk, feeds_of_mem hpl.once hmem ⟨hin, hlt⟩, hlt⟩
  refine ⟨by rw [hf.order]; exact hpl.nodup, by rw [hf.order]; exact hpl.nodes, by rw [hf.order]; exact hpl.before, ?_, ?_, ?_, ?_⟩
  · intro c hc p i m o hi hw ha
    obtain ⟨k, hk, hfe, hlt⟩ := hfeed _ p i m o hi hw
    obtain ⟨s', hs', hn, hx⟩ := hf.direct c hc i _ hfe (by rw [hpl.amount _ p i hi, ha])
    have hlen := hf.nOutputs s' hs'
    rw [hn] at hlen
    obtain ⟨x, hx'⟩ : ∃ x, s'.outputs[k]? = some x := ⟨_, List.getElem?_eq_getElem (by simp only at hlen; omega)⟩
    exact ⟨s', hs', hn, k, x, hk, hx', by rw [hx]; exact hx'⟩
  · intro c hc p i m o a hi hw ha
    obtain ⟨k, hk, hfe, hlt⟩ := hfeed _ p i m o hi hw
    obtain ⟨s', hs', hn, x, par, y, h1, h2, h3, h4⟩ := hf.modulated c hc i _ a hfe (by rw [hpl.amount _ p i hi, ha])
    exact ⟨s', hs', hn, k, x, par, y, hk, h3, h2, h1, h4⟩
  · intro c hc p pid i hpid he
    rw [hf.atoms c hc i (at_count hT hpid he), hpl.setting _ p pid i hpid he]
  · intro c hc p i hi hw
    refine hf.unfed c hc i (inp_count hT hi) (fun e he _ hh => ?_)
    obtain ⟨q, o, h1, h2, h3⟩ := (hpl.wires e).1 he
    rw [hh.1] at h1 h2
    rw [hh.2] at h2
    rw [inp_inj h2 hi, hw] at h1
    cases h1

/-- **C74** The blocks after that compute the network: every known node runs once, on what its sources have put out in the same block. -/
theorem block_computes_network (hT : TableOk T) (hE : EnvOk E) (h : Hist T a0 run E fuel Room s seen) (hst : Typed own st)
    (hu : s.upload T a0 run E fuel st (own r, r) = some (s0, .ok ())) (hr : Room s0) (hs : Since T a0 run E fuel Room s0 s1 more)
    {out : Option (BlockResult NodeId V A)} {w2 w3 : World NodeId V A M σ} {nf : Nat} {res : BlockResult NodeId V A}
    (hp : s1.world.step T a0 run .poll = some (w2, out)) (hb : w2.step T a0 run (.process nf) = some (w3, some res)) :
    ∃ vs, visits st false fuel (own r, r) = some vs ∧ NetFlow T E (seen ++ vs) (seen ++ vs ++ more) nf res.calls := by
  obtain ⟨t', ht'⟩ := hist_follows hE h
  obtain ⟨vs, t, hv, ht, htyp, hpl⟩ := plays_of hE (hist_ok hE h) ht' hst hu hr hs
  exact ⟨vs, hv, flow_of_playback hT ht htyp hpl hp hb⟩

/-- **C75** The same after `update_params` has made a new program. -/
theorem block_computes_updated (hT : TableOk T) (hE : EnvOk E) (h : Hist T a0 run E fuel Room s seen) (hst : Typed own st)
    (hu : s.updateParams T a0 run E fuel st (own r, r) = some (s0, .ok true)) (hr : Room s0) (hs : Since T a0 run E fuel Room s0 s1 more)
    {out : Option (BlockResult NodeId V A)} {w2 w3 : World NodeId V A M σ} {nf : Nat} {res : BlockResult NodeId V A}
    (hp : s1.world.step T a0 run .poll = some (w2, out)) (hb : w2.step T a0 run (.process nf) = some (w3, some res)) :
    ∃ us vs, visits st true fuel (own r, r) = some us ∧ visits st false fuel (own r, r) = some vs ∧
      NetFlow T E (seen ++ us ++ vs) (seen ++ us ++ vs ++ more) nf res.calls := by
  obtain ⟨t, ht⟩ := hist_follows hE h
  obtain ⟨us, s', hus, hw, hok', h3⟩ := update_splits hE (hist_ok hE h) hst hu
  have hq := upload_queue hE hok' hst h3
  have hlt := hr.1
  obtain ⟨t', ht'⟩ := follows_walked hw (by omega) ht
  obtain ⟨vs, t1, hv, ht1, htyp, hpl⟩ := plays_of hE hok' ht' hst h3 hr hs
  exact ⟨us, vs, hus, hv, flow_of_playback hT ht1 htyp hpl hp hb⟩

/-! ## Concrete networks -/

/-- A store with finitely many lists, the nodes beside them. -/
def mk (l : List (NodeId × List (COp Int))) : Store Int := fun r => (l[r]?.map (·.2)).getD []
def ow (l : List (NodeId × List (COp Int))) : Nat → NodeId := fun r => (l[r]?.map (·.1)).getD (NodeId.fromStr "sin")

def opB (own : Nat → NodeId) (id : NodeId) : COp Int → Bool
  | .set name _ => (id.inp name).isSome
  | .setMod name _ _ => (id.inp name).isSome
  | .setting name _ => ((id.inpParam name).map (·.isAtom)).getD false
  | .input p src out => (id.inp p).isSome && (src.1.out out).isSome && decide (src.1 = own src.2)

def typedB (l : List (NodeId × List (COp Int))) : Bool := l.all (fun e => decide (e.1 ≠ .nop) && e.2.all (opB (ow l) e.1))

theorem sin_ne : NodeId.fromStr "sin" ≠ .nop := by decide +kernel

theorem typed_of (l : List (NodeId × List (COp Int))) (h : typedB l = true) : Typed (ow l) (mk l) := by
  have key : ∀ r, ow l r ≠ .nop ∧ ∀ op ∈ mk l r, opB (ow l) (ow l r) op = true := by
    intro r
    cases hr : l[r]? with
    | none => simpa [ow, mk, hr] using sin_ne
    | some e =>
      have := List.all_eq_true.1 h e (List.mem_of_getElem? hr)
      simp only [Bool.and_eq_true, decide_eq_true_eq, List.all_eq_true] at this
      simpa [ow, mk, hr] using this
  refine ⟨fun r => (key r).1, fun r op ho => ?_, fun r p src out ho => ?_⟩
  · have := (key r).2 op ho
    cases op with
    | set name v => exact this
    | setMod name v ma => exact this
    | setting name i =>
      simp only [opB] at this
      cases hp : (ow l r).inpParam name with
      | none => simp [hp] at this
      | some pid => exact ⟨pid, hp, by simpa [hp] using this⟩
    | input p src out =>
      simp only [opB, Bool.and_eq_true] at this
      exact this.1
  · have := (key r).2 _ ho
    simp only [opB, Bool.and_eq_true, decide_eq_true_eq] at this
    exact this.2

def exT : NodeTable NodeId Int Int where
  outCount := fun n => (NodeInfo.fromNodeId n).outCount
  inCount := fun n => (NodeInfo.fromNodeId n).inCount
  atCount := fun n => (NodeInfo.fromNodeId n).atCount
  normDef := fun _ i => 100 + i
  atomDef := fun _ i => 50 + i

/-- Parameters are not converted, and `HashMap`s are iterated backwards. -/
def exE : Env Int Int where
  norm := fun _ v => v
  setting := fun i => i
  param := fun v => v
  f := fun a => a
  shN := List.reverse
  shE := List.reverse
  shP := List.reverse

theorem exE_ok : EnvOk exE := ⟨List.reverse_perm, List.reverse_perm, List.reverse_perm, fun _ => rfl⟩
theorem exT_ok : TableOk exT := ⟨fun _ => rfl, fun _ => rfl, fun _ => rfl⟩

def exRun : Unit → CallIn NodeId Int Int → Unit × (Nat → Block Int) := fun u ci => (u, fun k f => (ci.inputs.map (fun b => b f)).sum + k)

abbrev ExS := SC Int Int Unit Unit

def up (s : ExS) (l : List (NodeId × List (COp Int))) (r : Nat) : Option (ExS × Except SynthError Unit) := s.upload exT 0 exRun exE 8 (mk l) (ow l r, r)
def upd (s : ExS) (l : List (NodeId × List (COp Int))) (r : Nat) : Option (ExS × Except SynthError Bool) :=
  s.updateParams exT 0 exRun exE 8 (mk l) (ow l r, r)
def after {α : Type} (x : Option (ExS × Except SynthError α)) : ExS := (x.map (·.1)).getD (SC.new ())
def okOf {α : Type} (x : Option (ExS × Except SynthError α)) : Option α := x.bind (fun p => match p.2 with | .ok a => some a | .error _ => none)
def errOf {α : Type} (x : Option (ExS × Except SynthError α)) : Option SynthError := x.bind (fun p => match p.2 with | .ok _ => none | .error e => some e)

theorem after_ok {α : Type} {x : Option (ExS × Except SynthError α)} {a : α} (h : okOf x = some a) : x = some (after x, .ok a) := by
  rcases x with _ | ⟨s, _ | b⟩ <;> simp_all [okOf, after]
theorem after_err {α : Type} {x : Option (ExS × Except SynthError α)} {e : SynthError} (h : errOf x = some e) : x = some (after x, .error e) := by
  rcases x with _ | ⟨s, _ | b⟩ <;> simp_all [errOf, after]

instance (s : ExS) : Decidable (Room s) := inferInstanceAs (Decidable (_ ∧ _))

/-- The audio thread takes the messages and computes a block of two frames; the calls of the nodes. -/
def block (s : ExS) : Option (List (Engine.Call NodeId Int Int)) :=
  match s.world.step exT 0 exRun .poll with
  | none => none
  | some (w, _) => ((w.step exT 0 exRun (.process 2)).bind (·.2)).map (·.calls)

def sin0 : NodeId := NodeId.fromStr "sin"
def sin1 : NodeId := sin0.toInstance 1
def amp0 : NodeId := NodeId.fromStr "amp"

/-- A sine into two inputs of an amplifier, one of them with a modulation amount. -/
def exNet : List (NodeId × List (COp Int)) :=
  [(sin0, [.set "freq" 5]), (amp0, [.input "inp" (sin0, 0) "sig", .setMod "att" 3 2, .setting "neg_att" 1, .input "att" (sin0, 0) "sig"])]
def exA : ExS := after (up (SC.new ()) exNet 1)
/-- The frequency is changed. -/
def exB : ExS := after (upd exA [(sin0, [.set "freq" 9])] 0)

/-- All hypotheses of the theorems above are met: the network is uploaded, then the frequency is changed without a new program. -/
example : Hist exT 0 exRun exE 8 Room exA ([] ++ (visits (mk exNet) false 8 (ow exNet 1, 1)).getD []) ∧
    up (SC.new ()) exNet 1 = some (exA, .ok ()) ∧ Room exA ∧
    Since exT 0 exRun exE 8 Room exA exB ([] ++ (visits (mk [(sin0, [.set "freq" 9])]) true 8 (sin0, 0)).getD []) := by
  have h0 : okOf (up (SC.new ()) exNet 1) = some () := by decide +kernel
  have h1 : okOf (upd exA [(sin0, [.set "freq" 9])] 0) = some false := by decide +kernel
  have r0 : Room exA := by decide +kernel
  have r1 : Room exB := by decide +kernel
  exact ⟨.upload (.new ()) (typed_of _ (by decide +kernel)) (after_ok h0) r0, after_ok h0, r0,
    .updated .refl (typed_of _ (by decide +kernel)) (after_ok h1) r1⟩

/-- What a block then computes: the amplifier runs after the sine, on its output 212 and on 3 + 2 * 212. -/
example : (block exB).map (fun cs => cs.map (fun c => (c.node, c.inputs.map (fun b => (b 0, b 1)), c.outputs.map (fun b => (b 0, b 1))))) =
    some [(sin0, [(9, 9), (101, 101), (102, 102)], [(212, 212)]), (amp0, [(212, 212), (101, 101), (427, 427)], [(740, 740)])] ∧
    (block exB).map (fun cs => cs.map (·.atoms)) = some [[], [1]] := by
  decide +kernel

/-! ## Findings -/

/-- Two sines that read from each other. -/
def cycle : List (NodeId × List (COp Int)) :=
  [(sin0, [.input "freq" (sin1, 1) "sig"]), (sin1, [.input "freq" (sin0, 2) "sig"]), (sin0, [])]
/-- An amplifier on a third one. -/
def plain : List (NodeId × List (COp Int)) := [(sin0, []), (amp0, [.input "inp" (sin0, 0) "sig"])]

def exC : ExS := after (up (SC.new ()) cycle 0)

/-- **C37** A rejected network stays: a network without a cycle that a new constructor accepts is rejected after it, until `clear`. -/
theorem rejected_network_stays :
    (∃ s, up (SC.new ()) plain 1 = some (s, .ok ())) ∧
    Hist exT 0 exRun exE 8 Room exC ([] ++ (visits (mk cycle) false 8 (ow cycle 0, 0)).getD []) ∧
    (∃ s, up (SC.new ()) cycle 0 = some (s, .error .cycleDetected) ∧ s = exC) ∧
    (∃ s, up exC plain 1 = some (s, .error .cycleDetected)) ∧
    ∃ s, exC.clear exT 0 exRun = some s ∧ ∃ s', up s plain 1 = some (s', .ok ()) := by
  have h0 : errOf (up (SC.new ()) cycle 0) = some .cycleDetected := by decide +kernel
  have h1 : okOf (up (SC.new ()) plain 1) = some () := by decide +kernel
  have h2 : errOf (up exC plain 1) = some .cycleDetected := by decide +kernel
  have h3 : ∃ s, exC.clear exT 0 exRun = some s := Option.isSome_iff_exists.1 (by decide +kernel)
  have h4 : ((exC.clear exT 0 exRun).bind (fun s => okOf (up s plain 1))) = some () := by decide +kernel
  have r0 : Room exC := by decide +kernel
  obtain ⟨s, hs⟩ := h3
  rw [hs, Option.bind_some] at h4
  exact ⟨⟨_, after_ok h1⟩, .upload (.new ()) (typed_of _ (by decide +kernel)) (after_err h0) r0, ⟨_, after_err h0, rfl⟩, ⟨_, after_err h2⟩, s, hs, _, after_ok h4⟩

/-- A sine that reads from itself. -/
def selfLoop : List (NodeId × List (COp Int)) := [(sin0, [.input "freq" (sin0, 0) "sig"])]

/-- **C37** A network with a cycle is not always rejected: a node given as its own input, as the builders allow, exhausts the call stack. -/
theorem cycle_overflows : Typed (ow selfLoop) (mk selfLoop) ∧ ReadsFrom (mk selfLoop) (sin0, 0) (sin0, 0) ∧
    ∀ fuel, (SC.new () : ExS).upload exT 0 exRun exE fuel (mk selfLoop) (sin0, 0) = none := by
  have h : ReadsFrom (mk selfLoop) (sin0, 0) (sin0, 0) := by simp [ReadsFrom, mk, selfLoop, sources]
  have ht := typed_of selfLoop (by decide +kernel)
  exact ⟨ht, h, fun fuel => (self_reading_not_rejected (own := ow selfLoop) (P := fun _ => True) (fuel := 0) exE_ok (.new ()) ht (.single h) fuel).1⟩

/-- The amplifier without an input, then with one. -/
def bare : List (NodeId × List (COp Int)) := [(amp0, [.set "inp" 1])]
def exD : ExS := after (up (SC.new ()) bare 0)
def exD' : ExS := after (upd exD plain 1)

/-- **C75** `update_params` does not notice a changed graph: it reports that no new program was needed, and the new input is not played. -/
theorem update_ignores_inputs :
    Hist exT 0 exRun exE 8 Room exD ([] ++ (visits (mk bare) false 8 (ow bare 0, 0)).getD []) ∧
    upd exD plain 1 = some (exD', .ok false) ∧ (block exD').map (fun cs => cs.map (·.node)) = some [amp0] ∧
    (block (after (up exD plain 1))).map (fun cs => cs.map (·.node)) = some [sin0, amp0] := by
  have h0 : okOf (up (SC.new ()) bare 0) = some () := by decide +kernel
  have h1 : okOf (upd exD plain 1) = some false := by decide +kernel
  have r0 : Room exD := by decide +kernel
  exact ⟨.upload (.new ()) (typed_of _ (by decide +kernel)) (after_ok h0) r0, after_ok h1, by decide +kernel, by decide +kernel⟩

/-- **C75** `update_params` on a node that is not part of the network makes it a part of the next one. -/
theorem update_adds_node :
    upd exD [(sin1, [.set "freq" 3])] 0 = some (after (upd exD [(sin1, [.set "freq" 3])] 0), .ok false) ∧
    (block (after (up (after (upd exD [(sin1, [.set "freq" 3])] 0)) bare 0))).map (fun cs => cs.map (·.node)) = some [amp0, sin1] := by
  have h1 : okOf (upd exD [(sin1, [.set "freq" 3])] 0) = some false := by decide +kernel
  exact ⟨after_ok h1, by decide +kernel⟩

/-- A modulation amount and a cycle. -/
def loud : List (NodeId × List (COp Int)) := [(amp0, [.setMod "inp" 1 2, .input "inp" (amp0, 1) "sig"]), (amp0, [])]
/-- The amount alone. -/
def amount : List (NodeId × List (COp Int)) := [(amp0, [.setMod "inp" 1 2])]
def exF : ExS := after (up (SC.new ()) plain 1)
def exF' : ExS := after (upd exF loud 0)

/-- **C75** After a rejected call `update_params` may report that no new program was needed although the modulation amount it was given is not played. -/
theorem update_after_rejection :
    up (SC.new ()) plain 1 = some (exF, .ok ()) ∧ upd exF loud 0 = some (exF', .error .cycleDetected) ∧
    upd exF' amount 0 = some (after (upd exF' amount 0), .ok false) ∧
    (block (after (upd exF' amount 0))).map (fun cs => cs.map (fun c => (c.node, c.inputs.map (fun b => (b 0, b 1))))) =
      some [(sin0, [(100, 100), (101, 101), (102, 102)]), (amp0, [(303, 303), (101, 101), (102, 102)])] ∧
    (block (after (upd exF amount 0))).map (fun cs => cs.map (fun c => (c.node, c.inputs.map (fun b => (b 0, b 1))))) =
      some [(sin0, [(100, 100), (101, 101), (102, 102)]), (amp0, [(607, 607), (101, 101), (102, 102)])] := by
  have h0 : okOf (up (SC.new ()) plain 1) = some () := by decide +kernel
  have h1 : errOf (upd exF loud 0) = some .cycleDetected := by decide +kernel
  have h2 : okOf (upd exF' amount 0) = some false := by decide +kernel
  exact ⟨after_ok h0, after_err h1, after_ok h2, by decide +kernel, by decide +kernel⟩

end HexoDSP.SynthProps
