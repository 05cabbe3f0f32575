import Verif.Lemmas.SynthWalk
import Mathlib.Data.List.Dedup
/-! Uploading a network, and histories of calls. -/

set_option linter.unusedSectionVars false

namespace HexoDSP.Synth
open HexoDSP.Table HexoDSP.TableProps
open HexoDSP.EngineSpec HexoDSP.NodeConfProps HexoDSP.Play
open HexoDSP.Engine (World EOp Conf Conn NodeTable Value CallIn Block ConfWF conf_send conf_sendAll uniqueIndexFor_none wf_reached ids_buildProg
  buildProg_isSome)
open HexoDSP.GraphOrdering (Ordering Graph Before)

variable {V A M σ : Type}
variable [Add V] [Mul V] [Sub V] [Div V] [NatCast V] [OfNat V 0] [DecidableEq V] [DecidableEq A]
variable {T : NodeTable NodeId V A} {a0 : A} {run : σ → CallIn NodeId V A → σ × (Nat → Block V)} {E : Env V A}

/-! ## Calls that create nodes or set values -/

theorem ids_set {w w' : World NodeId V A M σ} {op : EOp NodeId V A M} {out : Option (Engine.BlockResult NodeId V A)} (hq : IsSet op)
    (h : w.step T a0 run op = some (w', out)) : w'.conf.ids = w.conf.ids := by
  cases op with
  | setInput n i v =>
    simp only [World.step, Option.some.injEq, Prod.mk.injEq] at h
    rw [← h.1]
    simp only [conf_sendAll]
    simp only [Conf.setInput]
    split <;> rfl
  | setAtom n i v =>
    simp only [World.step, Option.some.injEq, Prod.mk.injEq] at h
    rw [← h.1]
    simp only [conf_sendAll]
    simp only [Conf.setAtom]
    split <;> rfl
  | setModamt p v =>
    simp only [World.step, Option.some.injEq, Prod.mk.injEq] at h
    rw [← h.1]
    simp only [conf_sendAll]
    cases p with
    | input n i => simp only [Conf.setModamt]; split <;> rfl
    | atom n i => rfl
  | _ => exact absurd hq (by simp [IsSet])

theorem ids_sets {w w' : World NodeId V A M σ} {ops : List (EOp NodeId V A M)} (h : Ran T a0 run w ops w') (hq : ∀ op ∈ ops, IsSet op) :
    w'.conf.ids = w.conf.ids := by
  induction h with
  | nil => rfl
  | cons _ hs _ ih =>
    rw [ih (fun op ho => hq op (List.mem_cons_of_mem _ ho)), ids_set (hq _ List.mem_cons_self) hs]
  | outside st _ ih => exact ih hq

theorem Moves.ids {s s' : SC V A M σ} (h : Moves T a0 run IsSet s s') : s'.world.conf.ids = s.world.conf.ids := by
  obtain ⟨cs, -, h1, h2⟩ := h.calls
  exact ids_sets h1 h2

theorem Moves.reached {Q : EOp NodeId V A M → Prop} {s s' : SC V A M σ} (h : Moves T a0 run Q s s')
    (hr : ∃ st, Ran T a0 run (World.new st) s.calls s.world) : ∃ st, Ran T a0 run (World.new st) s'.calls s'.world := by
  obtain ⟨cs, h1, h2, -⟩ := h.calls
  obtain ⟨st, hr⟩ := hr
  exact ⟨st, by rw [h1]; exact ran_append hr h2⟩

theorem createAll_spec (hE : EnvOk E) {seen : List (Visit V)} (ht : SeenTyped seen) : ∀ (ids : List NodeId) (s : SC V A M σ),
    NodesOk E s.nodes seen → (∃ st, Ran T a0 run (World.new st) s.calls s.world) →
    ∃ s', createAll T a0 run E ids s = some (s', .ok ()) ∧ Moves T a0 run IsQuiet s s' ∧
      (∀ n, n ∈ s'.world.conf.ids ↔ n ∈ s.world.conf.ids ∨ n ∈ ids) ∧
      (∀ n, InSync E s.world.conf seen n ∨ n ∈ ids → InSync E s'.world.conf seen n) ∧
      ∀ m p pid, m.inpParam p = some pid → valueOf E seen m p = none → SameAt s.world.conf s'.world.conf (engineParam pid) := by
  intro ids
  induction ids with
  | nil =>
    intro s h _
    exact ⟨s, rfl, .refl _ _, by simp, fun n hn => by simpa using hn, fun _ _ _ _ _ => .refl _ _⟩
  | cons id ids ih =>
    intro s h hr
    have hm : ∀ n, Allocated s.world.conf n ↔ n ∈ s.world.conf.ids := mem_ids (by obtain ⟨st, hr⟩ := hr; exact ⟨st, _, hr⟩)
    have hcreate : ∃ s1, (if (s.world.conf.uniqueIndexFor id).isNone then s.call T a0 run (.createNode id) else some s) = some s1 ∧
        Moves T a0 run IsQuiet s s1 ∧ (∀ n, n ∈ s1.world.conf.ids ↔ n ∈ s.world.conf.ids ∨ n = id) ∧
        ∀ q, SameAt s.world.conf s1.world.conf q := by
      by_cases hu : (s.world.conf.uniqueIndexFor id).isNone
      · rw [if_pos hu]
        have hp : Polite s.world (.createNode id : EOp NodeId V A M) := by
          simp only [Polite, Allocated]
          simpa using hu
        obtain ⟨c1, c2⟩ := call_moves (T := T) (a0 := a0) (run := run) (Q := IsQuiet) (s := s) (op := .createNode id)
          (w := { s.world with conf := s.world.conf.createNode id }) (out := none) trivial hp rfl
        refine ⟨_, c1, c2, ?_, ?_⟩
        · intro n
          simp [Conf.createNode, Conf.ids]
        · intro q; cases q <;> exact ⟨rfl, rfl⟩
      · rw [if_neg hu]
        have ha : id ∈ s.world.conf.ids := (hm id).1 (by simpa [Allocated, Option.isSome_iff_ne_none] using hu)
        exact ⟨s, rfl, .refl _ _, fun n => ⟨Or.inl, fun hh => hh.elim _root_.id (fun e => e ▸ ha)⟩, fun q => .refl _ _⟩
    obtain ⟨s1, e1, m1, i1, q1⟩ := hcreate
    obtain ⟨s2, b, e2, m2, h3, h4, -, -⟩ := updateNodeParams_spec (T := T) (a0 := a0) (run := run) hE (s := s1) (by rw [m1.nodes]; exact h) ht id
    obtain ⟨s3, e3, m3, i3, h5, h6⟩ := ih s2 (by rw [m2.nodes, m1.nodes]; exact h) (m2.reached (m1.reached hr))
    refine ⟨s3, by simp only [createAll, e1, e2, e3], (m1.trans (m2.weaken quiet_of_set)).trans m3, ?_, ?_, ?_⟩
    · intro n
      rw [i3, m2.ids, i1, List.mem_cons]
      tauto
    · intro n hn
      apply h5 n
      by_cases hni : n = id
      · subst hni; exact Or.inl h3
      · rcases hn with hn | hn
        · left
          intro p a ma pid hv hp
          refine ((hn p a ma pid hv hp).same (q1 _)).same (h4 _ (fun p' pid' hp' _ hx => hni (engineParam_inj hp hp' hx).1))
        · rcases List.mem_cons.1 hn with hn | hn
          · exact absurd hn hni
          · exact Or.inr hn
    · intro m p pid hp hv
      refine ((q1 _).trans (h4 _ (fun p' pid' hp' hv' hx => hv' ?_))).trans (h6 m p pid hp hv)
      obtain ⟨rfl, rfl⟩ := engineParam_inj hp hp' hx
      exact hv

/-! ## Histories -/

/-- The default of a parameter or setting. -/
def defaultOf (T : NodeTable NodeId V A) : Engine.ParamId NodeId → Value V A
  | .input n k => .num (T.normDef n k)
  | .atom n k => .atom (T.atomDef n k)

/-- The engine has nothing or the default for a parameter. -/
def Unset (T : NodeTable NodeId V A) (c : Conf NodeId V A) (q : Engine.ParamId NodeId) : Prop :=
  (c.getParam q = none ∨ c.getParam q = some (defaultOf T q)) ∧ c.getModamt q = none

theorem Unset.same {c c' : Conf NodeId V A} {q : Engine.ParamId NodeId} (h : Unset T c q) (hs : SameAt c c' q) : Unset T c' q := by
  unfold Unset
  rw [hs.1, hs.2]
  exact h

/-- What holds between the calls of the API. -/
structure Ok (T : NodeTable NodeId V A) (a0 : A) (run : σ → CallIn NodeId V A → σ × (Nat → Block V)) (E : Env V A) (s : SC V A M σ)
    (seen : List (Visit V)) : Prop where
  nodes : NodesOk E s.nodes seen
  typed : SeenTyped seen
  closed : Closed seen
  lens : s.ordering.nodes.length = s.ordering.inDegree.length
  reached : ∃ st, Ran T a0 run (World.new st) s.calls s.world
  ids : ∀ n ∈ s.world.conf.ids, n ∈ known seen
  unset : ∀ n p pid, n.inpParam p = some pid → valueOf E seen n p = none → Unset T s.world.conf (engineParam pid)

theorem Ok.small {s : SC V A M σ} {seen : List (Visit V)} (h : Ok T a0 run E s seen) (hk : (known seen).dedup.length ≤ 256) :
    s.world.conf.ids.length ≤ 256 := by
  obtain ⟨st, hr⟩ := h.reached
  have hw := wf_reached (T := T) (a0 := a0) (run := run) ⟨st, _, hr⟩
  have := (List.subperm_of_subset hw.nodup (fun n hn => List.mem_dedup.2 (h.ids n hn))).length_le
  omega

/-- An upload ends with a cycle or with a new program. -/
theorem upload_stage (hE : EnvOk E) {s : SC V A M σ} {seen : List (Visit V)} (h : Ok T a0 run E s seen) {fuel : Nat} {st : Store V} {own : Nat → NodeId}
    (hst : Typed own st) (r : Nat) :
    (visits st false fuel (own r, r) = none → s.upload T a0 run E fuel st (own r, r) = none) ∧
    ∀ vs, visits st false fuel (own r, r) = some vs →
      (Cyclic (seen ++ vs) → ∃ s', s.upload T a0 run E fuel st (own r, r) = some (s', .error .cycleDetected) ∧ s'.world = s.world ∧
        s'.calls = s.calls ∧ Ok T a0 run E s' (seen ++ vs)) ∧
      (¬ Cyclic (seen ++ vs) → ∃ s' cs order ws, s.upload T a0 run E fuel st (own r, r) =
          (s'.call T a0 run (.sync order ws true)).map (fun s => (s, .ok ())) ∧
        s'.calls = s.calls ++ cs ∧ (∀ op ∈ cs, IsQuiet op) ∧ Ran T a0 run s.world cs s'.world ∧ Ok T a0 run E s' (seen ++ vs) ∧
        order.Nodup ∧ (∀ n, n ∈ order ↔ n ∈ known (seen ++ vs)) ∧ (∀ n m, Reads (seen ++ vs) n m → Before order m n) ∧
        (ws.map (fun c => (c.dst, c.dstIn))).Nodup ∧ (∀ e, e ∈ ws ↔ Wired (seen ++ vs) e) ∧ (∀ n, n ∈ s'.world.conf.ids ↔ n ∈ order) ∧
        ∀ n, InSync E s'.world.conf (seen ++ vs) n) := by
  obtain ⟨w1, w2⟩ := walk_spec (T := T) (a0 := a0) (run := run) hE false hst fuel s r seen h.nodes h.typed
  refine ⟨fun hv => by simp only [SC.upload, w1 hv], fun vs hv => ?_⟩
  obtain ⟨s1, b, e1, k1⟩ := w2 vs hv
  obtain ⟨hwld, hcalls⟩ := k1.still rfl
  have hcl := closed_append h.closed hv
  obtain ⟨o, g, e2, hrep, hnodes, hedges⟩ := orderingOf_spec hE k1.nodes k1.typed hcl (o := s1.ordering) (by rw [k1.ordering]; exact h.lens)
  obtain ⟨o', L, hrep', hcase⟩ := GraphOrdering.rep_calculateOrder hrep []
  have hcyc : g.Cyclic ↔ Cyclic (seen ++ vs) := by
    unfold Graph.Cyclic Cyclic
    have : g.Edge = Reads (seen ++ vs) := by
      funext a b; exact propext (hedges a b)
    rw [this]
  have hids : ∀ n ∈ s1.world.conf.ids, n ∈ known (seen ++ vs) := by
    intro n hn
    rw [hwld] at hn
    have := h.ids n hn
    simp only [known, List.map_append, List.mem_append] at this ⊢
    exact Or.inl this
  have hreached : ∃ st, Ran T a0 run (World.new st) s1.calls s1.world := by rw [hwld, hcalls]; exact h.reached
  have hunset : ∀ n p pid, n.inpParam p = some pid → valueOf E (seen ++ vs) n p = none → Unset T s1.world.conf (engineParam pid) := by
    intro n p pid hp hv
    rw [hwld]
    exact h.unset n p pid hp (value_none_left hv)
  simp only [SC.upload, e1, e2]
  constructor
  · intro hc
    rcases hcase with ⟨hnc, -⟩ | ⟨-, hord⟩
    · exact absurd (hcyc.2 hc) hnc
    · rw [hord]
      exact ⟨_, rfl, hwld, hcalls, k1.nodes, k1.typed, hcl, hrep'.lens, hreached, hids, hunset⟩
  · intro hc
    rcases hcase with ⟨-, hord, hnd, hmem, hbef⟩ | ⟨hcy, -⟩
    · rw [hord]
      simp only [List.nil_append]
      obtain ⟨s2, e3, m3, i3, y3, y4⟩ := createAll_spec (T := T) (a0 := a0) (run := run) hE k1.typed L.reverse { s1 with ordering := o' } k1.nodes hreached
      obtain ⟨ws, e4, x1, x2⟩ := allWires_spec hE (nodes := s2.nodes) (by rw [m3.nodes]; exact k1.nodes) k1.typed L.reverse (List.nodup_reverse.2 hnd)
      rw [e3]
      simp only [e4]
      obtain ⟨cs, z1, z2, z3⟩ := m3.calls
      have hmo : ∀ n, n ∈ L.reverse ↔ n ∈ known (seen ++ vs) := fun n => by rw [List.mem_reverse, hmem, hnodes]
      have hid2 : ∀ n, n ∈ s2.world.conf.ids ↔ n ∈ L.reverse := by
        intro n
        rw [i3]
        exact ⟨fun hh => hh.elim (fun hh => (hmo n).2 (hids n hh)) id, Or.inr⟩
      simp only at z1 z2
      refine ⟨s2, cs, L.reverse, ws, rfl, by rw [z1, hcalls], z3, by rw [← hwld]; exact z2,
        ⟨by rw [m3.nodes]; exact k1.nodes, k1.typed, hcl, by rw [m3.ordering]; exact hrep'.lens, m3.reached hreached,
          fun n hn => (hmo n).1 ((hid2 n).1 hn),
          fun n p pid hp hv => (hunset n p pid hp hv).same (y4 n p pid hp hv)⟩, List.nodup_reverse.2 hnd, hmo, ?_, x1, ?_, hid2, ?_⟩
      · intro n m hnm
        obtain ⟨p, q, t, hL⟩ := hbef n m ((hedges n m).2 hnm)
        refine ⟨t.reverse, q.reverse, p.reverse, ?_⟩
        rw [hL]
        simp
      · intro e
        rw [x2]
        refine ⟨fun hh => hh.2, fun hh => ⟨?_, hh⟩⟩
        obtain ⟨p, out, hw, -⟩ := hh
        exact (hmo _).2 (wire_known hcl hw).1
      · intro n
        by_cases hn : n ∈ L.reverse
        · exact y3 n (Or.inr hn)
        · intro p a ma pid hval
          rw [valueOf_unknown E (fun hk => hn ((hmo n).2 hk))] at hval
          cases hval
    · exact absurd (hcyc.1 hcy) hc

/-- The engine accepts the new program. -/
theorem sync_ok {s : SC V A M σ} {seen : List (Visit V)} (h : Ok T a0 run E s seen) {order : List NodeId} {ws : List (Conn NodeId)}
    (hnd : order.Nodup) (hord : ∀ n ∈ order, n ∈ s.world.conf.ids) (hw : ∀ e ∈ ws, Wired seen e) (hk : (known seen).dedup.length ≤ 256) :
    ∃ s', s.call T a0 run (.sync order ws true) = some s' := by
  obtain ⟨st, hr⟩ := h.reached
  have hwf := wf_reached (T := T) (a0 := a0) (run := run) ⟨st, _, hr⟩
  obtain ⟨b, hb⟩ := buildProg_isSome (T := T) (a0 := a0) (h := s.world.shared.heap) (es := ws) hwf (h.small hk) hnd hord (by
    intro e he h32
    obtain ⟨p, out, -, hi, -⟩ := hw e he
    have := inp_lt hi
    omega)
  exact ⟨_, by simp only [SC.call, World.step, hb]; rfl⟩

theorem sync_after {s s' : SC V A M σ} {seen : List (Visit V)} (h : Ok T a0 run E s seen) {order : List NodeId} {ws : List (Conn NodeId)}
    (hc : s.call T a0 run (.sync order ws true) = some s') :
    Ok T a0 run E s' seen ∧ s'.calls = s.calls ++ [.sync order ws true] ∧ (∀ n, n ∈ s'.world.conf.ids ↔ n ∈ s.world.conf.ids) ∧
      ∀ n, InSync E s.world.conf seen n → InSync E s'.world.conf seen n := by
  obtain ⟨st, hr⟩ := h.reached
  have hR : Reached T a0 run s.world := ⟨st, _, hr⟩
  simp only [SC.call] at hc
  cases hs : s.world.step T a0 run (.sync order ws true) with
  | none => rw [hs] at hc; simp at hc
  | some wo =>
    obtain ⟨w, out⟩ := wo
    rw [hs] at hc
    simp only [Option.map_some, Option.some.injEq] at hc
    subst hc
    have hs' := hs
    simp only [World.step] at hs'
    obtain ⟨⟨c', p, h'⟩, hb, heq⟩ := Option.map_eq_some_iff.1 hs'
    simp only [Prod.mk.injEq] at heq
    have hconf : w.conf = c' := by rw [← heq.1]; simp [conf_send]
    have hids : w.conf.ids = s.world.conf.ids := by rw [hconf]; exact ids_buildProg (wf_reached hR) hb
    refine ⟨⟨h.nodes, h.typed, h.closed, h.lens, ⟨st, ran_append hr (.cons trivial hs (.nil _))⟩, ?_, ?_⟩, rfl, ?_, ?_⟩
    · intro n hn; exact h.ids n (by simpa [hids] using hn)
    · intro n p pid hp hv
      obtain ⟨h1, h2⟩ := h.unset n p pid hp hv
      refine ⟨?_, by rw [hconf, rebuild_keeps_modamt hb]; exact h2⟩
      rw [hconf]
      generalize engineParam pid = q at h1
      cases q with
      | input m k =>
        obtain ⟨k1, k2, -, -⟩ := rebuild_keeps_params hR hb m k
        rcases h1 with h1 | h1
        · rw [k2 h1]; split
          · exact Or.inr rfl
          · exact Or.inl rfl
        · exact Or.inr (k1 _ h1)
      | atom m k =>
        obtain ⟨-, -, k1, k2⟩ := rebuild_keeps_params hR hb m k
        rcases h1 with h1 | h1
        · rw [k2 h1]; split
          · exact Or.inr rfl
          · exact Or.inl rfl
        · exact Or.inr (k1 _ h1)
    · intro n; simp [hids]
    · intro n hn p a ma pid hv hp
      have hh := hn p a ma pid hv hp
      simp only [hconf]
      obtain ⟨h1, h2⟩ := hh
      refine ⟨?_, ?_⟩
      · have hkeep : ∀ v, s.world.conf.getParam (engineParam pid) = some v → c'.getParam (engineParam pid) = some v := by
          intro v hv
          cases hk : engineParam pid with
          | input m k =>
            rw [hk] at hv
            exact (rebuild_keeps_params hR hb m k).1 _ hv
          | atom m k =>
            rw [hk] at hv
            exact (rebuild_keeps_params hR hb m k).2.2.1 _ hv
        unfold getAtom at h1 ⊢
        cases hg : s.world.conf.getParam (engineParam pid) with
        | none => rw [hg] at h1; simp at h1
        | some v => rw [hkeep v hg]; rw [hg] at h1; exact h1
      · intro ha
        rw [rebuild_keeps_modamt hb]
        exact h2 ha

/-- Walking for `update_params` keeps the invariant. -/
theorem ok_walked {only : Bool} {s s' : SC V A M σ} {seen vs : List (Visit V)} {b : Bool} (h : Ok T a0 run E s seen)
    (hw : Walked T a0 run E only s s' seen vs b) (hcl : Closed (seen ++ vs)) : Ok T a0 run E s' (seen ++ vs) := by
  obtain ⟨cs, h1, h2, h3⟩ := hw.calls
  obtain ⟨st, hr⟩ := h.reached
  refine ⟨hw.nodes, hw.typed, hcl, by rw [hw.ordering]; exact h.lens, ⟨st, by rw [h1]; exact ran_append hr h2⟩, ?_, ?_⟩
  · intro n hn
    rw [ids_sets h2 h3] at hn
    have := h.ids n hn
    simp only [known, List.map_append, List.mem_append] at this ⊢
    exact Or.inl this
  · intro n p pid hp hv
    exact (h.unset n p pid hp (value_none_left hv)).same (hw.fresh n p pid hp hv)

theorem ok_new (st : σ) : Ok T a0 run E (SC.new st : SC V A M σ) [] := by
  refine ⟨nodesOk_nil E, fun v hv => by simp at hv, fun v hv => by simp at hv, by simp only [SC.new, Ordering.new, List.length_replicate], ⟨st, .nil _⟩, ?_, ?_⟩
  · intro n hn; simp [SC.new, World.new, Conf.new, Conf.ids] at hn
  · intro n p pid _ _
    generalize engineParam pid = q
    cases q <;> exact ⟨Or.inl rfl, rfl⟩

theorem ok_clear {s s' : SC V A M σ} {seen : List (Visit V)} (h : Ok T a0 run E s seen) (hs : s.clear T a0 run = some s') : Ok T a0 run E s' [] := by
  obtain ⟨st, hr⟩ := h.reached
  simp only [SC.clear, SC.call] at hs
  obtain ⟨⟨w, out⟩, hw, rfl⟩ := Option.map_eq_some_iff.1 hs
  have hconf : w.conf = Conf.new := by
    simp only [World.step, Option.some.injEq, Prod.mk.injEq] at hw
    rw [← hw.1, conf_sendAll]
    rfl
  refine ⟨nodesOk_nil E, fun v hv => by simp at hv, fun v hv => by simp at hv, ?_, ⟨st, ran_append hr (.cons trivial hw (.nil _))⟩, ?_, ?_⟩
  · simpa [Ordering.clear] using h.lens
  · intro n hn
    simp [hconf, Conf.new, Conf.ids] at hn
  · intro n p pid _ _
    generalize engineParam pid = q
    simp only [hconf]
    cases q <;> exact ⟨Or.inl rfl, rfl⟩

theorem upload_ok (hE : EnvOk E) {s s' : SC V A M σ} {seen : List (Visit V)} (h : Ok T a0 run E s seen) {fuel : Nat} {st : Store V} {own : Nat → NodeId}
    (hst : Typed own st) {r : Nat} {res : Except SynthError Unit} (hs : s.upload T a0 run E fuel st (own r, r) = some (s', res)) :
    ∃ vs, visits st false fuel (own r, r) = some vs ∧ Ok T a0 run E s' (seen ++ vs) := by
  obtain ⟨h1, h2⟩ := upload_stage (T := T) (a0 := a0) (run := run) hE h (fuel := fuel) hst r
  cases hv : visits st false fuel (own r, r) with
  | none => rw [h1 hv] at hs; cases hs
  | some vs =>
    refine ⟨vs, rfl, ?_⟩
    obtain ⟨h3, h4⟩ := h2 vs hv
    by_cases hc : Cyclic (seen ++ vs)
    · obtain ⟨s1, e1, -, -, hok⟩ := h3 hc
      rw [hs] at e1
      simp only [Option.some.injEq, Prod.mk.injEq] at e1
      rw [e1.1]; exact hok
    · obtain ⟨s1, cs, order, ws, e1, -, -, -, hok, -⟩ := h4 hc
      rw [hs] at e1
      obtain ⟨s2, e2, e3⟩ := Option.map_eq_some_iff.1 e1.symm
      simp only [Prod.mk.injEq] at e3
      rw [← e3.1]
      exact (sync_after hok e2).1

/-- What `update_params` does before it uploads. -/
theorem updateParams_stage (hE : EnvOk E) {s : SC V A M σ} {seen : List (Visit V)} (h : Ok T a0 run E s seen) {fuel : Nat} {st : Store V}
    {own : Nat → NodeId} (hst : Typed own st) (r : Nat) :
    (visits st true fuel (own r, r) = none → s.updateParams T a0 run E fuel st (own r, r) = none) ∧
    ∀ vs, visits st true fuel (own r, r) = some vs → ∃ s1 b, Walked T a0 run E true s s1 seen vs b ∧ Ok T a0 run E s1 (seen ++ vs) ∧
      s.updateParams T a0 run E fuel st (own r, r) = if b then (s1.upload T a0 run E fuel st (own r, r)).map
        (fun x => (x.1, x.2.map (fun _ => true))) else some (s1, .ok false) := by
  obtain ⟨w1, w2⟩ := walk_spec (T := T) (a0 := a0) (run := run) hE true hst fuel s r seen h.nodes h.typed
  refine ⟨fun hv => by simp only [SC.updateParams, w1 hv], fun vs hv => ?_⟩
  obtain ⟨s1, b, e1, k1⟩ := w2 vs hv
  refine ⟨s1, b, k1, ok_walked h k1 (closed_append h.closed hv), ?_⟩
  simp only [SC.updateParams, e1]
  cases b with
  | false => rfl
  | true =>
    simp only [if_true]
    cases s1.upload T a0 run E fuel st (own r, r) with
    | none => rfl
    | some x => obtain ⟨y, z⟩ := x; cases z <;> rfl

theorem hist_ok (hE : EnvOk E) {fuel : Nat} {P : SC V A M σ → Prop} {s : SC V A M σ} {seen : List (Visit V)} (h : Hist T a0 run E fuel P s seen) :
    Ok T a0 run E s seen := by
  induction h with
  | new st => exact ok_new st
  | outside st _ _ ih => exact ⟨ih.nodes, ih.typed, ih.closed, ih.lens, ⟨ih.reached.choose, ran_outside ih.reached.choose_spec st⟩, ih.ids, ih.unset⟩
  | upload _ hst hs _ ih =>
    obtain ⟨vs, hv, hok⟩ := upload_ok hE ih hst hs
    rw [hv]; exact hok
  | @updated s s' seen st own r _ hst hs _ ih =>
    obtain ⟨h1, h2⟩ := updateParams_stage (T := T) (a0 := a0) (run := run) hE ih (fuel := fuel) hst r
    cases hv : visits st true fuel (own r, r) with
    | none => rw [h1 hv] at hs; cases hs
    | some vs =>
      obtain ⟨s1, b, -, hok, e⟩ := h2 vs hv
      rw [e] at hs
      cases b with
      | false =>
        simp only [Bool.false_eq_true, if_false, Option.some.injEq, Prod.mk.injEq] at hs
        rw [← hs.1]; exact hok
      | true =>
        rw [if_pos rfl] at hs
        obtain ⟨⟨s2, res⟩, h3, h4⟩ := Option.map_eq_some_iff.1 hs
        cases res <;> simp [Except.map] at h4
  | @uploaded s s' seen st own r res _ hst hs hres _ ih =>
    obtain ⟨h1, h2⟩ := updateParams_stage (T := T) (a0 := a0) (run := run) hE ih (fuel := fuel) hst r
    cases hv : visits st true fuel (own r, r) with
    | none => rw [h1 hv] at hs; cases hs
    | some vs =>
      obtain ⟨s1, b, -, hok, e⟩ := h2 vs hv
      rw [e] at hs
      cases b with
      | false =>
        simp only [Bool.false_eq_true, if_false, Option.some.injEq, Prod.mk.injEq] at hs
        have := hres false hs.2.symm
        cases this
      | true =>
        rw [if_pos rfl] at hs
        obtain ⟨⟨s2, res'⟩, h3, h4⟩ := Option.map_eq_some_iff.1 hs
        simp only [Prod.mk.injEq] at h4
        obtain ⟨ws, hw, hok'⟩ := upload_ok hE hok hst h3
        rw [hw, ← h4.1]
        exact hok'
  | clear _ hs _ ih => exact ok_clear ih hs
  | @audio s s' seen op _ hop hs _ ih =>
    obtain ⟨st, hr⟩ := ih.reached
    have key : ∀ o : EOp NodeId V A M, (o = .poll ∨ (∃ n, o = .process n) ∨ o = .dropOne) → s.call T a0 run o = some s' → Ok T a0 run E s' seen := by
      intro o ho hc
      simp only [SC.call] at hc
      obtain ⟨⟨w, out⟩, hw, rfl⟩ := Option.map_eq_some_iff.1 hc
      have hconf : w.conf = s.world.conf := by
        rcases ho with rfl | ⟨n, rfl⟩ | rfl
        · simp only [World.step] at hw
          obtain ⟨x, -, hx⟩ := Option.map_eq_some_iff.1 hw
          simp only [Prod.mk.injEq] at hx
          rw [← hx.1]
        · simp only [World.step] at hw
          obtain ⟨x, -, hx⟩ := Option.map_eq_some_iff.1 hw
          simp only [Prod.mk.injEq] at hx
          rw [← hx.1]
        · simp only [World.step] at hw
          split at hw
          · simp only [Option.some.injEq, Prod.mk.injEq] at hw; rw [← hw.1]
          · simp only [Option.some.injEq, Prod.mk.injEq] at hw; rw [← hw.1]
      have hp : Polite s.world o := by rcases ho with rfl | ⟨n, rfl⟩ | rfl <;> trivial
      exact ⟨ih.nodes, ih.typed, ih.closed, ih.lens, ⟨st, ran_append hr (.cons hp hw (.nil _))⟩, by rw [hconf]; exact ih.ids,
        by rw [hconf]; exact ih.unset⟩
    rcases hop with rfl | ⟨n, rfl⟩ | rfl
    · exact key .poll (Or.inl rfl) hs
    · exact key (.process n) (Or.inr (Or.inl ⟨n, rfl⟩)) hs
    · exact key .dropOne (Or.inr (Or.inr rfl)) hs

end HexoDSP.Synth
