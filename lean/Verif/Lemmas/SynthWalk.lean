import Verif.Lemmas.SynthEngine
/-! Walking over a network, and the order and connections of the known nodes. -/

set_option linter.unusedSectionVars false

namespace HexoDSP.Synth
open HexoDSP.Table HexoDSP.TableProps
open HexoDSP.EngineSpec HexoDSP.NodeConfProps HexoDSP.Play
open HexoDSP.Engine (World EOp Conf Conn NodeTable Value CallIn Block ConfWF conf_send conf_sendAll uniqueIndexFor_none)
open HexoDSP.GraphOrdering (Ordering Graph Before)

variable {V A M σ : Type}

/-! ## What was read is made by builders -/

/-- Everything that was read was made by builders. -/
def SeenTyped (seen : List (Visit V)) : Prop := ∀ v ∈ seen, v.node ≠ .nop ∧ ∀ op ∈ v.ops, OpOk v.node op

/-- The sources of the nodes are known. -/
def Closed (seen : List (Visit V)) : Prop := ∀ v ∈ seen, ∀ m ∈ sources v.ops, m.1 ∈ known seen

theorem lastOf_mem {α β : Type} {f : α → Option β} : ∀ {l : List α} {b : β}, lastOf f l = some b → ∃ a ∈ l, f a = some b := by
  intro l
  induction l using List.reverseRecOn with
  | nil => intro b h; simp [lastOf] at h
  | append_singleton l a ih =>
    intro b h
    rw [lastOf_append] at h
    simp only [List.foldl_cons, List.foldl_nil] at h
    cases hf : f a with
    | some c =>
      rw [hf] at h
      simp only [Option.some_or, Option.some.injEq] at h
      subst h
      exact ⟨a, by simp, hf⟩
    | none =>
      rw [hf, Option.none_or] at h
      obtain ⟨x, hx, hb⟩ := ih h
      exact ⟨x, List.mem_append_left _ hx, hb⟩

theorem mem_sources {ops : List (COp V)} {m : NodeId × Nat} : m ∈ sources ops ↔ ∃ p out, COp.input p m out ∈ ops := by
  induction ops with
  | nil => simp [sources]
  | cons op ops ih =>
    cases op with
    | input q src out =>
      simp only [sources, List.mem_cons, ih, COp.input.injEq]
      constructor
      · rintro (h | ⟨p, o, h⟩)
        · exact ⟨q, out, Or.inl ⟨rfl, h, rfl⟩⟩
        · exact ⟨p, o, Or.inr h⟩
      · rintro ⟨p, o, h | h⟩
        · exact Or.inl h.2.1
        · exact Or.inr ⟨p, o, h⟩
    | _ => simp [sources, ih]

theorem wire_mem {seen : List (Visit V)} {n m : NodeId} {p out : String} (h : wireOf seen n p = some (m, out)) :
    ∃ v ∈ seen, v.node = n ∧ ∃ r, COp.input p (m, r) out ∈ v.ops := by
  obtain ⟨op, ho, hw⟩ := lastOf_mem h
  obtain ⟨v, hv, hop⟩ := List.mem_flatMap.1 ho
  obtain ⟨h1, h2⟩ := List.mem_filter.1 hv
  simp only [Bool.and_eq_true, decide_eq_true_eq] at h2
  cases op with
  | input q src o =>
    simp only [COp.wire] at hw
    split at hw
    · rename_i hq
      simp only [Option.some.injEq, Prod.mk.injEq] at hw
      obtain ⟨rfl, rfl⟩ := hw
      subst hq
      exact ⟨v, h1, h2.1, src.2, hop⟩
    · cases hw
  | _ => simp [COp.wire] at hw

theorem wire_typed {seen : List (Visit V)} (ht : SeenTyped seen) {n m : NodeId} {p out : String} (h : wireOf seen n p = some (m, out)) :
    (n.inp p).isSome ∧ (m.out out).isSome := by
  obtain ⟨v, hv, rfl, r, hop⟩ := wire_mem h
  exact (ht v hv).2 _ hop

theorem wire_known {seen : List (Visit V)} (hc : Closed seen) {n m : NodeId} {p out : String} (h : wireOf seen n p = some (m, out)) :
    n ∈ known seen ∧ m ∈ known seen := by
  obtain ⟨v, hv, rfl, r, hop⟩ := wire_mem h
  exact ⟨List.mem_map.2 ⟨v, hv, rfl⟩, hc v hv (m, r) (mem_sources.2 ⟨p, out, hop⟩)⟩

theorem value_typed {E : Env V A} {seen : List (Visit V)} (ht : SeenTyped seen) {n : NodeId} {p : String} {a : A} {ma : Option V}
    (h : valueOf E seen n p = some (a, ma)) :
    ∃ pid, n.inpParam p = some pid ∧ (pid.isAtom = false → ∃ v, a = E.param v) := by
  obtain ⟨op, ho, hw⟩ := lastOf_mem h
  obtain ⟨v, hv, hop⟩ := List.mem_flatMap.1 ho
  obtain ⟨h1, h2⟩ := List.mem_filter.1 hv
  simp only [decide_eq_true_eq] at h2
  have hk := (ht v h1).2 op hop
  rw [h2] at hk
  cases op with
  | set q x =>
    simp only [COp.value] at hw
    split at hw
    · obtain ⟨pid, hp, he⟩ := Option.map_eq_some_iff.1 hw
      exact ⟨pid, hp, fun _ => ⟨_, (Prod.mk.injEq .. ▸ he).1.symm⟩⟩
    · cases hw
  | setMod q x y =>
    simp only [COp.value] at hw
    split at hw
    · obtain ⟨pid, hp, he⟩ := Option.map_eq_some_iff.1 hw
      exact ⟨pid, hp, fun _ => ⟨_, (Prod.mk.injEq .. ▸ he).1.symm⟩⟩
    · cases hw
  | setting q i =>
    simp only [COp.value] at hw
    split at hw
    · rename_i hq
      subst hq
      obtain ⟨pid, hp, ha⟩ := hk
      exact ⟨pid, hp, fun hf => by rw [ha] at hf; cases hf⟩
    · cases hw
  | input q src out => simp [COp.value] at hw

section
variable [Add V] [Mul V] [Sub V] [Div V] [NatCast V] [OfNat V 0] [DecidableEq V] [DecidableEq A]
variable {T : NodeTable NodeId V A} {a0 : A} {run : σ → CallIn NodeId V A → σ × (Nat → Block V)} {E : Env V A}

/-- The engine has all values of a node. -/
def InSync (E : Env V A) (c : Conf NodeId V A) (seen : List (Visit V)) (n : NodeId) : Prop :=
  ∀ p a ma pid, valueOf E seen n p = some (a, ma) → n.inpParam p = some pid → Holds E c pid a ma

theorem updateNodeParams_spec (hE : EnvOk E) {s : SC V A M σ} {seen : List (Visit V)} (h : NodesOk E s.nodes seen) (ht : SeenTyped seen)
    (n : NodeId) :
    ∃ s' b, s.updateNodeParams T a0 run E n = some (s', .ok b) ∧ Moves T a0 run IsSet s s' ∧ InSync E s'.world.conf seen n ∧
      (∀ q, (∀ p pid, n.inpParam p = some pid → valueOf E seen n p ≠ none → q ≠ engineParam pid) → SameAt s.world.conf s'.world.conf q) ∧
      (b = false → ∀ q, (s'.world.conf.getModamt q).isSome = (s.world.conf.getModamt q).isSome) ∧ (b = false → Calm T a0 run s s') := by
  unfold SC.updateNodeParams
  cases hl : s.nodes.lookup n with
  | none =>
    have hu : n ∉ known seen := fun hm => by have := (h.mem n).2 hm; simp [hl] at this
    refine ⟨s, false, rfl, .refl _ _, ?_, fun q _ => .refl _ _, fun _ q => rfl, fun _ => .refl _⟩
    intro p a ma pid hv
    rw [valueOf_unknown E hu] at hv
    cases hv
  | some nc =>
    obtain ⟨k1, k2⟩ := h.params n nc hl
    have hperm := hE.shP nc.params
    have hval : ∀ e ∈ E.shP nc.params, valueOf E seen n e.1 = some e.2 := by
      intro e he
      rw [← k2]
      exact lookup_of_mem k1 (hperm.mem_iff.1 he)
    obtain ⟨s', b', h1, h2, h3, h4, h5, h6⟩ := updateParams_spec (T := T) (a0 := a0) (run := run) hE.f n (E.shP nc.params) s false
      ((hperm.map Prod.fst).nodup_iff.2 k1) (fun e he => value_typed ht (ma := e.2.2) (hval e he))
    have hin : InSync E s'.world.conf seen n := by
      intro p a ma pid hv hp
      rw [← k2] at hv
      exact h3 (p, a, ma) (hperm.mem_iff.2 (mem_of_lookup hv)) pid hp
    refine ⟨s', b', by simpa using h1, h2, hin, ?_, ?_, h6⟩
    · intro q hq
      exact h4 q (fun e he pid hp => hq e.1 pid hp (by rw [hval e he]; simp))
    · intro hb q
      have hno : ¬ ∃ e ∈ E.shP nc.params, ∃ pid, n.inpParam e.1 = some pid ∧ pid.isAtom = false ∧
          (s.world.conf.getModamt (engineParam pid)).isSome ≠ e.2.2.isSome := by
        rw [← h5, hb]; simp
      by_cases hq : ∃ e ∈ E.shP nc.params, ∃ pid, n.inpParam e.1 = some pid ∧ q = engineParam pid
      · obtain ⟨e, he, pid, hp, rfl⟩ := hq
        cases ha : pid.isAtom with
        | true =>
          obtain ⟨m, i, hk⟩ := (engineParam_kind pid).2 ha
          simp [hk, Conf.getModamt]
        | false =>
          rw [(h3 e he pid hp).2 ha]
          by_contra hne
          exact hno ⟨e, he, pid, hp, ha, fun hh => hne hh.symm⟩
      · rw [(h4 q (fun e he pid hp hc => hq ⟨e, he, pid, hp, hc⟩)).2]

/-- The operations set something. -/
def HasSet (ops : List (COp V)) : Bool := ops.any (fun op => match op with | .input _ _ _ => false | _ => true)

theorem value_input (ops : List (COp V)) (h : HasSet ops = false) (n : NodeId) (p : String) (b : Option (A × Option V)) :
    ops.foldl (fun b a => (COp.value E n p a).or b) b = b := by
  induction ops generalizing b with
  | nil => rfl
  | cons op ops ih =>
    simp only [HasSet, List.any_cons, Bool.or_eq_false_iff] at h
    cases op with
    | input q src out => simp only [List.foldl_cons, COp.value, Option.none_or]; exact ih h.2 b
    | _ => simp at h

/-- What a walk has done. -/
structure Walked (T : NodeTable NodeId V A) (a0 : A) (run : σ → CallIn NodeId V A → σ × (Nat → Block V)) (E : Env V A) (only : Bool)
    (s s' : SC V A M σ) (seen vs : List (Visit V)) (b : Bool) : Prop where
  nodes : NodesOk E s'.nodes (seen ++ vs)
  typed : SeenTyped (seen ++ vs)
  ordering : s'.ordering = s.ordering
  calls : ∃ cs, s'.calls = s.calls ++ cs ∧ Ran T a0 run s.world cs s'.world ∧ ∀ op ∈ cs, IsSet op
  still : only = false → s'.world = s.world ∧ s'.calls = s.calls
  sync : only = true → ∀ n, (InSync E s.world.conf seen n ∨ ∃ v ∈ vs, v.node = n ∧ HasSet v.ops = true) →
    InSync E s'.world.conf (seen ++ vs) n
  fresh : ∀ m p pid, m.inpParam p = some pid → valueOf E (seen ++ vs) m p = none → SameAt s.world.conf s'.world.conf (engineParam pid)
  calm : b = false → Calm T a0 run s s'
  amounts : b = false → ∀ q, (s'.world.conf.getModamt q).isSome = (s.world.conf.getModamt q).isSome

theorem walked_nil {only b : Bool} {s : SC V A M σ} {seen : List (Visit V)} (h : NodesOk E s.nodes seen) (ht : SeenTyped seen) :
    Walked T a0 run E only s s seen [] b := by
  refine ⟨by simpa using h, by simpa using ht, rfl, ⟨[], by simp, .nil _, by simp⟩, fun _ => ⟨rfl, rfl⟩, ?_, fun _ _ _ _ _ => .refl _ _, fun _ => .refl _, fun _ _ => rfl⟩
  rintro _ n (h | ⟨v, hv, _⟩)
  · simpa using h
  · simp at hv

theorem lastOf_isSome_mono {α β : Type} (f : α → Option β) (l l' : List α) (h : lastOf f (l ++ l') = none) : lastOf f l = none := by
  induction l' using List.reverseRecOn with
  | nil => simpa using h
  | append_singleton l' a ih =>
    rw [← List.append_assoc, lastOf_append] at h
    simp only [List.foldl_cons, List.foldl_nil, Option.or_eq_none_iff] at h
    exact ih h.2

theorem value_none_left {seen vs : List (Visit V)} {n : NodeId} {p : String} (h : valueOf E (seen ++ vs) n p = none) :
    valueOf E seen n p = none := by
  unfold valueOf at h ⊢
  rw [List.filter_append, List.flatMap_append] at h
  exact lastOf_isSome_mono _ _ _ h

theorem walked_append {only b b' b'' : Bool} {s s1 s2 : SC V A M σ} {seen vs ws : List (Visit V)} (h : Walked T a0 run E only s s1 seen vs b)
    (h' : Walked T a0 run E only s1 s2 (seen ++ vs) ws b') (hb : b'' = false → b = false ∧ b' = false) :
    Walked T a0 run E only s s2 seen (vs ++ ws) b'' := by
  obtain ⟨a1, a2, a3, ⟨cs, a4, a5, a6⟩, a7, a8, a10, a11, a9⟩ := h
  obtain ⟨c1, c2, c3, ⟨ds, c4, c5, c6⟩, c7, c8, c10, c11, c9⟩ := h'
  refine ⟨by rw [← List.append_assoc]; exact c1, by rw [← List.append_assoc]; exact c2, c3.trans a3, ⟨cs ++ ds, ?_, ran_append a5 c5, ?_⟩, ?_, ?_, ?_, fun hh => (a11 (hb hh).1).trans (c11 (hb hh).2), ?_⟩
  · rw [c4, a4, List.append_assoc]
  · intro op ho
    rcases List.mem_append.1 ho with h | h
    · exact a6 op h
    · exact c6 op h
  · intro hf; exact ⟨(c7 hf).1.trans (a7 hf).1, (c7 hf).2.trans (a7 hf).2⟩
  · intro ho n hn
    rw [← List.append_assoc]
    apply c8 ho n
    rcases hn with hn | ⟨v, hv, h1, h2⟩
    · exact Or.inl (a8 ho n (Or.inl hn))
    · rcases List.mem_append.1 hv with hv | hv
      · exact Or.inl (a8 ho n (Or.inr ⟨v, hv, h1, h2⟩))
      · exact Or.inr ⟨v, hv, h1, h2⟩
  · intro m p pid hp hv
    rw [← List.append_assoc] at hv
    exact (a10 m p pid hp (value_none_left hv)).trans (c10 m p pid hp hv)
  · intro hh q
    rw [c9 (hb hh).2 q, a9 (hb hh).1 q]

/-- One node is read. -/
theorem walked_visit (hE : EnvOk E) {s : SC V A M σ} {seen : List (Visit V)} (h : NodesOk E s.nodes seen) (ht : SeenTyped seen) (only : Bool)
    {id : NodeId} (hid : id ≠ .nop) {ops : List (COp V)} (ho : ∀ op ∈ ops, OpOk id op) :
    ∃ c' f' s' b, applyOps E id only ops ((s.nodes.lookup id).getD NodeConfig.new) ⟨false, false, []⟩ = (c', f', none) ∧
      f'.later = sources ops ∧ (if only && f'.changed then ({ s with nodes := Map.insert s.nodes id c' } : SC V A M σ).updateNodeParams T a0 run E id
        else some ({ s with nodes := Map.insert s.nodes id c' }, .ok false)) = some (s', .ok b) ∧
      Walked T a0 run E only s s' seen [⟨id, ops, only⟩] (f'.rebuild || b) := by
  obtain ⟨c', f', e, k1, k2, k3, k4⟩ := nodesOk_visit h id only ops ho
  have ht' : SeenTyped (seen ++ [⟨id, ops, only⟩]) := by
    intro v hv
    rcases List.mem_append.1 hv with hv | hv
    · exact ht v hv
    · rw [List.mem_singleton.1 hv]; exact ⟨hid, ho⟩
  by_cases hc : (only && f'.changed) = true
  · obtain ⟨s', b, h1, h2, h3, h4, h5, h6⟩ := updateNodeParams_spec (T := T) (a0 := a0) (run := run) hE
      (s := { s with nodes := Map.insert s.nodes id c' }) k2 ht' id
    simp only [Bool.and_eq_true] at hc
    refine ⟨c', f', s', b, e, k1, by simp [hc.1, hc.2, h1], ⟨by rw [h2.nodes]; exact k2, ht', h2.ordering, h2.calls, ?_, ?_, ?_,
      fun hb => by simp only [Bool.or_eq_false_iff] at hb; exact h6 hb.2, ?_⟩⟩
    · intro hf; rw [hc.1] at hf; cases hf
    · rintro _ n hn
      by_cases hni : n = id
      · subst hni; exact h3
      · rcases hn with hn | ⟨v, hv, hv1, _⟩
        · intro p a ma pid hv hp
          rw [valueOf_snoc, if_neg (fun hx => hni hx.symm)] at hv
          exact (hn p a ma pid hv hp).same (h4 _ (fun p' pid' hp' _ hx => hni (engineParam_inj hp hp' hx).1))
        · rw [List.mem_singleton.1 hv] at hv1
          exact absurd hv1.symm hni
    · intro m p pid hp hv
      refine h4 _ (fun p' pid' hp' hv' hx => hv' ?_)
      obtain ⟨rfl, rfl⟩ := engineParam_inj hp hp' hx
      exact hv
    · intro hb q
      simp only [Bool.or_eq_false_iff] at hb
      exact h5 hb.2 q
  · refine ⟨c', f', { s with nodes := Map.insert s.nodes id c' }, false, e, k1, by rw [if_neg hc], ⟨k2, ht', rfl, ⟨[], by simp, .nil _, by simp⟩, fun _ => ⟨rfl, rfl⟩, ?_, fun _ _ _ _ _ => .refl _ _,
      fun _ => ⟨[], by simp, .nil _⟩, fun _ _ => rfl⟩⟩
    rintro ho' n hn
    subst ho'
    have hns : HasSet ops = false := by
      simp only [Bool.true_and, Bool.not_eq_true] at hc
      rw [k3] at hc
      exact hc
    have hn' : InSync E s.world.conf seen n := by
      rcases hn with hn | ⟨v, hv, _, hv2⟩
      · exact hn
      · rw [List.mem_singleton.1 hv] at hv2
        simp only at hv2
        rw [hns] at hv2
        cases hv2
    intro p a ma pid hv hp
    rw [valueOf_snoc] at hv
    refine hn' p a ma pid ?_ hp
    split at hv
    · rwa [value_input ops hns] at hv
    · exact hv

/-- Reading a network. -/
theorem walk_spec (hE : EnvOk E) (only : Bool) {st : Store V} {own : Nat → NodeId} (hst : Typed own st) : ∀ (fuel : Nat) (s : SC V A M σ) (r : Nat)
    (seen : List (Visit V)), NodesOk E s.nodes seen → SeenTyped seen →
    (visits st only fuel (own r, r) = none → walkUpload T a0 run E st only fuel s (own r, r) = none) ∧
    ∀ vs, visits st only fuel (own r, r) = some vs → ∃ s' b, walkUpload T a0 run E st only fuel s (own r, r) = some (s', .ok b) ∧
      Walked T a0 run E only s s' seen vs b := by
  intro fuel
  induction fuel with
  | zero => intro s r seen _ _; exact ⟨fun _ => rfl, fun vs h => by simp [visits] at h⟩
  | succ fuel ih =>
    intro s r seen h ht
    obtain ⟨c', f', s1, b1, e1, e2, e3, w1⟩ := walked_visit (T := T) (a0 := a0) (run := run) hE h ht only (hst.node r) (hst.ops r)
    have hlist : ∀ (l : List (NodeId × Nat)) (s : SC V A M σ) (seen : List (Visit V)) (b : Bool), (∀ m ∈ l, m.1 = own m.2) →
        NodesOk E s.nodes seen → SeenTyped seen →
        (l.mapM (visits st only fuel) = none → walkList (walkUpload T a0 run E st only fuel) l s b = none) ∧
        ∀ vss, l.mapM (visits st only fuel) = some vss → ∃ s' b', walkList (walkUpload T a0 run E st only fuel) l s b = some (s', .ok (b || b')) ∧
          Walked T a0 run E only s s' seen vss.flatten b' := by
      intro l
      induction l with
      | nil =>
        intro s seen b _ h ht
        refine ⟨fun hh => by simp at hh, fun vss hh => ?_⟩
        simp only [List.mapM_nil, Option.pure_def, Option.some.injEq] at hh
        subst hh
        exact ⟨s, false, by simp [walkList], walked_nil h ht⟩
      | cons m l ihl =>
        intro s seen b hm h ht
        have hm1 : m = (own m.2, m.2) := by rw [← hm m List.mem_cons_self]
        obtain ⟨g1, g2⟩ := ih s m.2 seen h ht
        rw [← hm1] at g1 g2
        rw [List.mapM_cons]
        cases hv : visits st only fuel m with
        | none => refine ⟨fun _ => by simp only [walkList, g1 hv], fun vss hh => by simp at hh⟩
        | some vs =>
          obtain ⟨s1, b1, q1, q2⟩ := g2 vs hv
          obtain ⟨t1, t2⟩ := ihl s1 (seen ++ vs) (b || b1) (fun m' hm' => hm m' (List.mem_cons_of_mem _ hm')) q2.nodes q2.typed
          simp only [Option.bind_eq_bind, Option.bind_some, Option.pure_def, walkList, q1]
          cases hl : l.mapM (visits st only fuel) with
          | none => exact ⟨fun _ => t1 hl, fun vss hh => by simp at hh⟩
          | some vss' =>
            refine ⟨fun hh => by simp at hh, fun vss hh => ?_⟩
            simp only [Option.bind_some, Option.some.injEq] at hh
            subst hh
            obtain ⟨s2, b2, x1, x2⟩ := t2 vss' hl
            exact ⟨s2, b1 || b2, by rw [x1, Bool.or_assoc], by
              rw [List.flatten_cons]; exact walked_append q2 x2 (fun hx => by simpa using hx)⟩
    have hsrc : ∀ m ∈ sources (st r), m.1 = own m.2 := by
      intro m hm
      obtain ⟨p, out, hop⟩ := mem_sources.1 hm
      exact hst.src r p m out hop
    obtain ⟨l1, l2⟩ := hlist (sources (st r)) s1 (seen ++ [⟨own r, st r, only⟩]) (f'.rebuild || b1) hsrc w1.nodes w1.typed
    simp only [visits, walkUpload, e1, e2]
    rw [e3]
    refine ⟨fun hh => ?_, fun vs hh => ?_⟩
    · simp only [Option.map_eq_none_iff] at hh
      exact l1 hh
    · obtain ⟨vss, hv, rfl⟩ := Option.map_eq_some_iff.1 hh
      obtain ⟨s', b', x1, x2⟩ := l2 vss hv
      refine ⟨s', (f'.rebuild || b1) || b', x1, ?_⟩
      have := walked_append (b'' := (f'.rebuild || b1) || b') w1 x2 (fun hx => by simpa using hx)
      simpa using this

end

/-- The sources of what was read were read too. -/
theorem visits_closed {st : Store V} {only : Bool} : ∀ (fuel : Nat) (n : NodeId × Nat) (vs : List (Visit V)), visits st only fuel n = some vs →
    n.1 ∈ known vs ∧ ∀ v ∈ vs, ∀ m ∈ sources v.ops, m.1 ∈ known vs := by
  intro fuel
  induction fuel with
  | zero => intro n vs h; simp [visits] at h
  | succ fuel ih =>
    intro n vs h
    simp only [visits] at h
    obtain ⟨vss, hm, rfl⟩ := Option.map_eq_some_iff.1 h
    have hl : ∀ (l : List (NodeId × Nat)) (vss : List (List (Visit V))), l.mapM (visits st only fuel) = some vss →
        (∀ m ∈ l, m.1 ∈ known vss.flatten) ∧ ∀ v ∈ vss.flatten, ∀ m ∈ sources v.ops, m.1 ∈ known vss.flatten := by
      intro l
      induction l with
      | nil =>
        intro vss hh
        simp only [List.mapM_nil, Option.pure_def, Option.some.injEq] at hh
        subst hh
        simp
      | cons a l ihl =>
        intro vss hh
        rw [List.mapM_cons] at hh
        cases hv : visits st only fuel a with
        | none => simp [hv] at hh
        | some va =>
          cases hr : l.mapM (visits st only fuel) with
          | none => simp [hv, hr] at hh
          | some vr =>
            simp only [hv, hr, Option.bind_eq_bind, Option.bind_some, Option.pure_def, Option.some.injEq] at hh
            subst hh
            obtain ⟨a1, a2⟩ := ih a va hv
            obtain ⟨b1, b2⟩ := ihl vr hr
            have hk : known (va :: vr).flatten = known va ++ known vr.flatten := by simp [known]
            refine ⟨?_, ?_⟩
            · intro m hm
              rw [hk, List.mem_append]
              rcases List.mem_cons.1 hm with rfl | hm
              · exact Or.inl a1
              · exact Or.inr (b1 m hm)
            · intro v hv m hm
              rw [hk, List.mem_append]
              rw [List.flatten_cons, List.mem_append] at hv
              rcases hv with hv | hv
              · exact Or.inl (a2 v hv m hm)
              · exact Or.inr (b2 v hv m hm)
    obtain ⟨c1, c2⟩ := hl _ _ hm
    have hk : known (⟨n.1, st n.2, only⟩ :: vss.flatten) = n.1 :: known vss.flatten := by simp [known]
    rw [hk]
    refine ⟨List.mem_cons_self, ?_⟩
    intro v hv m hm
    apply List.mem_cons_of_mem
    rcases List.mem_cons.1 hv with rfl | hv
    · exact c1 m hm
    · exact c2 v hv m hm

theorem closed_append {seen : List (Visit V)} (hc : Closed seen) {st : Store V} {only : Bool} {fuel : Nat} {n : NodeId × Nat}
    {vs : List (Visit V)} (h : visits st only fuel n = some vs) : Closed (seen ++ vs) := by
  intro v hv m hm
  simp only [known, List.map_append, List.mem_append] at hv ⊢
  rcases hv with hv | hv
  · exact Or.inl (hc v hv m hm)
  · exact Or.inr ((visits_closed fuel n vs h).2 v hv m hm)

/-! ## The order -/

theorem successors_addEdge (g : Graph NodeId) (a b : NodeId) :
    ((g.apply (.addEdge a b)).successors a).length ≤ (g.successors a).length + 1 ∧
    ∀ c, c ≠ a → (g.apply (.addEdge a b)).successors c = g.successors c := by
  have hs : ∀ l : List (NodeId × NodeId), GraphOrdering.insertNew l (a, b) = l ∨ GraphOrdering.insertNew l (a, b) = l ++ [(a, b)] := by
    intro l; unfold GraphOrdering.insertNew; split <;> simp
  simp only [Graph.apply, Graph.successors]
  split
  · rcases hs g.edges with h | h
    · rw [h]; exact ⟨by omega, fun c _ => rfl⟩
    · rw [h]
      refine ⟨by simp, fun c hc => ?_⟩
      simp [hc.symm]
  · exact ⟨by omega, fun c _ => rfl⟩

theorem edges_addEdge (g : Graph NodeId) (a b : NodeId) (ha : a ∈ g.nodes) :
    (∀ c, c ∈ (g.apply (.addEdge a b)).nodes ↔ c ∈ g.nodes ∨ c = b) ∧
    ∀ c d, (c, d) ∈ (g.apply (.addEdge a b)).edges ↔ (c, d) ∈ g.edges ∨ (c = a ∧ d = b) := by
  have hm : ∀ {α : Type} [DecidableEq α] (l : List α) (x y : α), y ∈ GraphOrdering.insertNew l x ↔ y ∈ l ∨ y = x := by
    intro α _ l x y
    unfold GraphOrdering.insertNew
    split
    · rename_i h; exact ⟨Or.inl, fun hh => hh.elim id (fun e => e ▸ h)⟩
    · simp
  have ha' : a ∈ GraphOrdering.insertNew g.nodes b := (hm _ _ _).2 (Or.inl ha)
  simp only [Graph.apply, ha', if_true]
  refine ⟨fun c => hm _ _ _, fun c d => ?_⟩
  rw [hm, Prod.mk.injEq]

/-- The edges of one node. -/
theorem orderEdges_spec (n : NodeId) : ∀ (es : List (String × (NodeId × String))) (o : Ordering NodeId) (g : Graph NodeId),
    GraphOrdering.Rep o g → n ∈ g.nodes → (g.successors n).length + es.length ≤ 64 →
    ∃ o' g', es.foldlM (fun o ed => o.addEdge n ed.2.1) o = some o' ∧ GraphOrdering.Rep o' g' ∧
      (∀ c, c ∈ g'.nodes ↔ c ∈ g.nodes ∨ ∃ e ∈ es, e.2.1 = c) ∧
      ∀ c d, (c, d) ∈ g'.edges ↔ (c, d) ∈ g.edges ∨ (c = n ∧ ∃ e ∈ es, e.2.1 = d) := by
  intro es
  induction es with
  | nil => intro o g h _ _; exact ⟨o, g, rfl, h, by simp, by simp⟩
  | cons e es ih =>
    intro o g h hn hl
    obtain ⟨s1, _⟩ := successors_addEdge g n e.2.1
    obtain ⟨e1, e2⟩ := edges_addEdge g n e.2.1 hn
    simp only [List.length_cons] at hl
    obtain ⟨o1, ho1, h1⟩ := GraphOrdering.rep_addEdge h n e.2.1 (by unfold GraphOrdering.maxNodeEdges; omega)
    obtain ⟨o2, g2, ho2, h2, h3, h4⟩ := ih o1 _ h1 ((e1 n).2 (Or.inl hn)) (by omega)
    refine ⟨o2, g2, by simp [List.foldlM_cons, ho1, ho2], h2, ?_, ?_⟩
    · intro c
      rw [h3, e1, List.exists_mem_cons_iff]
      constructor
      · rintro ((h | h) | h)
        · exact Or.inl h
        · exact Or.inr (Or.inl h.symm)
        · exact Or.inr (Or.inr h)
      · rintro (h | h | h)
        · exact Or.inl (Or.inl h)
        · exact Or.inl (Or.inr h.symm)
        · exact Or.inr h
    · intro c d
      rw [h4, e2, List.exists_mem_cons_iff]
      constructor
      · rintro ((h | h) | h)
        · exact Or.inl h
        · exact Or.inr ⟨h.1, Or.inl h.2.symm⟩
        · exact Or.inr ⟨h.1, Or.inr h.2⟩
      · rintro (h | ⟨h, h' | h'⟩)
        · exact Or.inl (Or.inl h)
        · exact Or.inl (Or.inr ⟨h, h'.symm⟩)
        · exact Or.inr ⟨h, h'⟩

theorem mem_addNode (g : Graph NodeId) (a c : NodeId) : c ∈ GraphOrdering.insertNew g.nodes a ↔ c ∈ g.nodes ∨ c = a := by
  unfold GraphOrdering.insertNew
  split
  · rename_i h; exact ⟨Or.inl, fun hh => hh.elim id (fun e => e ▸ h)⟩
  · simp

/-- The edges of all nodes. -/
theorem orderAll_spec (sh : List (String × (NodeId × String)) → List (String × (NodeId × String))) (hsh : ∀ l, (sh l).Perm l) :
    ∀ (ns : List (NodeId × NodeConfig V A)) (o : Ordering NodeId) (g : Graph NodeId),
    GraphOrdering.Rep o g → (ns.map (·.1)).Nodup → (∀ e ∈ ns, ∀ c, (e.1, c) ∉ g.edges) → (∀ e ∈ ns, e.2.edges.length ≤ 64) →
    ∃ o' g', ns.foldlM (fun o e => (sh e.2.edges).foldlM (fun o ed => o.addEdge e.1 ed.2.1) (o.addNode e.1).1) o = some o' ∧
      GraphOrdering.Rep o' g' ∧ (∀ c, c ∈ g'.nodes ↔ c ∈ g.nodes ∨ ∃ e ∈ ns, e.1 = c ∨ ∃ ed ∈ e.2.edges, ed.2.1 = c) ∧
      ∀ c d, (c, d) ∈ g'.edges ↔ (c, d) ∈ g.edges ∨ ∃ e ∈ ns, e.1 = c ∧ ∃ ed ∈ e.2.edges, ed.2.1 = d := by
  intro ns
  induction ns with
  | nil => intro o g h _ _ _; exact ⟨o, g, rfl, h, by simp, by simp⟩
  | cons e ns ih =>
    intro o g h hn hfresh hlen
    rw [List.map_cons, List.nodup_cons] at hn
    obtain ⟨h1, _⟩ := GraphOrdering.rep_addNode h e.1
    have hsucc : (Graph.successors ⟨GraphOrdering.insertNew g.nodes e.1, g.edges⟩ e.1) = [] := by
      simp only [Graph.successors, List.map_eq_nil_iff, List.filter_eq_nil_iff, decide_eq_true_eq]
      rintro ⟨x, y⟩ hxy rfl
      exact hfresh e List.mem_cons_self y hxy
    obtain ⟨o1, g1, ho1, h2, h3, h4⟩ := orderEdges_spec e.1 (sh e.2.edges) _ _ h1 ((mem_addNode g e.1 e.1).2 (Or.inr rfl))
      (by rw [hsucc, (hsh _).length_eq]; have := hlen e List.mem_cons_self; simpa using this)
    obtain ⟨o2, g2, ho2, k1, k2, k3⟩ := ih o1 g1 h2 hn.2 (by
      intro e' he' c hc
      rcases (h4 _ _).1 hc with hc | hc
      · exact hfresh e' (List.mem_cons_of_mem _ he') c hc
      · exact hn.1 (List.mem_map.2 ⟨e', he', hc.1⟩)) (fun e' he' => hlen e' (List.mem_cons_of_mem _ he'))
    refine ⟨o2, g2, by simp [List.foldlM_cons, ho1, ho2], k1, ?_, ?_⟩
    · intro c
      rw [k2, h3, mem_addNode, List.exists_mem_cons_iff]
      simp only [(hsh e.2.edges).mem_iff]
      constructor
      · rintro (((h | h) | h) | h)
        · exact Or.inl h
        · exact Or.inr (Or.inl (Or.inl h.symm))
        · exact Or.inr (Or.inl (Or.inr h))
        · exact Or.inr (Or.inr h)
      · rintro (h | (h | h) | h)
        · exact Or.inl (Or.inl (Or.inl h))
        · exact Or.inl (Or.inl (Or.inr h.symm))
        · exact Or.inl (Or.inr h)
        · exact Or.inr h
    · intro c d
      rw [k3, h4, List.exists_mem_cons_iff]
      simp only [(hsh e.2.edges).mem_iff]
      constructor
      · rintro ((h | h) | h)
        · exact Or.inl h
        · exact Or.inr (Or.inl ⟨h.1.symm, h.2⟩)
        · exact Or.inr (Or.inr h)
      · rintro (h | h | h)
        · exact Or.inl (Or.inl h)
        · exact Or.inl (Or.inr ⟨h.1.symm, h.2⟩)
        · exact Or.inr h

theorem edges_few {E : Env V A} {nodes : List (NodeId × NodeConfig V A)} {seen : List (Visit V)} (h : NodesOk E nodes seen) (ht : SeenTyped seen)
    {n : NodeId} {nc : NodeConfig V A} (hl : nodes.lookup n = some nc) : nc.edges.length ≤ 32 := by
  obtain ⟨h1, h2⟩ := h.edges n nc hl
  have hsub : nc.edges.map (·.1) ⊆ inpNames n := by
    intro p hp
    obtain ⟨e, he, rfl⟩ := List.mem_map.1 hp
    have := lookup_of_mem h1 (k := e.1) (v := e.2) he
    rw [h2] at this
    exact mem_inpNames (wire_typed ht (m := e.2.1) (out := e.2.2) this).1
  have := (List.subperm_of_subset h1 hsub).length_le
  have hk := inpNames_length n
  rw [List.length_map] at this
  omega

/-- The graph that is ordered is the graph of what was read. -/
theorem orderingOf_spec {E : Env V A} (hE : EnvOk E) {nodes : List (NodeId × NodeConfig V A)} {seen : List (Visit V)} (h : NodesOk E nodes seen)
    (ht : SeenTyped seen) (hc : Closed seen) {o : Ordering NodeId} (ho : o.nodes.length = o.inDegree.length) :
    ∃ o' g, orderingOf E o nodes = some o' ∧ GraphOrdering.Rep o' g ∧ (∀ a, a ∈ g.nodes ↔ a ∈ known seen) ∧
      ∀ a b, g.Edge a b ↔ Reads seen a b := by
  have hperm := hE.shN nodes
  have hlook : ∀ e ∈ E.shN nodes, nodes.lookup e.1 = some e.2 := fun e he => lookup_of_mem h.keys (hperm.mem_iff.1 he)
  obtain ⟨o', g, h1, h2, h3, h4⟩ := orderAll_spec E.shE hE.shE (E.shN nodes) o.clear ⟨[], []⟩ (GraphOrdering.rep_empty o ho)
    ((hperm.map Prod.fst).nodup_iff.2 h.keys) (by simp) (fun e he => by have := edges_few h ht (hlook e he); omega)
  have hedge : ∀ a b, g.Edge a b ↔ Reads seen a b := by
    intro a b
    unfold Graph.Edge
    rw [h4]
    constructor
    · rintro (hh | ⟨e, he, rfl, ed, hed, rfl⟩)
      · simp at hh
      · obtain ⟨k1, k2⟩ := h.edges e.1 e.2 (hlook e he)
        exact ⟨ed.1, ed.2.2, by rw [← k2]; exact lookup_of_mem k1 hed⟩
    · rintro ⟨p, out, hw⟩
      have hk := (h.mem a).2 (wire_known hc hw).1
      obtain ⟨nc, hnc⟩ := Option.isSome_iff_exists.1 hk
      obtain ⟨k1, k2⟩ := h.edges a nc hnc
      rw [← k2] at hw
      exact Or.inr ⟨(a, nc), hperm.mem_iff.2 (mem_of_lookup hnc), rfl, (p, b, out), mem_of_lookup hw, rfl⟩
  refine ⟨o', g, h1, h2, ?_, hedge⟩
  intro a
  rw [h3]
  constructor
  · rintro (hh | ⟨e, he, rfl | ⟨ed, hed, rfl⟩⟩)
    · simp at hh
    · exact (h.mem e.1).1 (by rw [hlook e he]; rfl)
    · obtain ⟨k1, k2⟩ := h.edges e.1 e.2 (hlook e he)
      have hw := lookup_of_mem k1 (k := ed.1) (v := ed.2) hed
      rw [k2] at hw
      exact (wire_known hc (m := ed.2.1) (out := ed.2.2) hw).2
  · intro ha
    obtain ⟨nc, hnc⟩ := Option.isSome_iff_exists.1 ((h.mem a).2 ha)
    exact Or.inr ⟨(a, nc), hperm.mem_iff.2 (mem_of_lookup hnc), Or.inl rfl⟩

/-! ## The connections -/

theorem inp_inj {n : NodeId} {p q : String} {i : Nat} (hp : n.inp p = some i) (hq : n.inp q = some i) : p = q := by
  obtain ⟨a, ha, _, ha'⟩ := inp_param hp
  obtain ⟨b, hb, _, hb'⟩ := inp_param hq
  exact (engineParam_inj ha hb (ha'.trans hb'.symm)).2

theorem wiresOf_spec (id : NodeId) : ∀ (es : List (String × (NodeId × String))),
    (∀ e ∈ es, (id.inp e.1).isSome ∧ (e.2.1.out e.2.2).isSome) → (es.map (·.1)).Nodup →
    ∃ ws, wiresOf id es = .ok ws ∧ (ws.map (·.dstIn)).Nodup ∧
      ∀ c, c ∈ ws ↔ c.dst = id ∧ ∃ e ∈ es, id.inp e.1 = some c.dstIn ∧ e.2.1 = c.src ∧ c.src.out e.2.2 = some c.srcOut := by
  intro es
  induction es with
  | nil => intro _ _; exact ⟨[], rfl, by simp, by simp⟩
  | cons e es ih =>
    intro h hn
    rw [List.map_cons, List.nodup_cons] at hn
    obtain ⟨p, src, out⟩ := e
    obtain ⟨hi, ho⟩ := h _ List.mem_cons_self
    obtain ⟨i, hi⟩ := Option.isSome_iff_exists.1 hi
    obtain ⟨o, ho⟩ := Option.isSome_iff_exists.1 ho
    obtain ⟨ws, h1, h2, h3⟩ := ih (fun e he => h e (List.mem_cons_of_mem _ he)) hn.2
    simp only at hi ho
    refine ⟨⟨id, i, src, o⟩ :: ws, by simp [wiresOf, hi, ho, h1], ?_, ?_⟩
    · rw [List.map_cons, List.nodup_cons]
      refine ⟨?_, h2⟩
      intro hm
      obtain ⟨c, hc, he⟩ := List.mem_map.1 hm
      obtain ⟨-, e', he', h4, -, -⟩ := (h3 c).1 hc
      rw [he] at h4
      have := inp_inj hi h4
      exact hn.1 (List.mem_map.2 ⟨e', he', this.symm⟩)
    · intro c
      rw [List.mem_cons, h3, List.exists_mem_cons_iff]
      constructor
      · rintro (rfl | ⟨h4, h5⟩)
        · exact ⟨rfl, Or.inl ⟨hi, rfl, ho⟩⟩
        · exact ⟨h4, Or.inr h5⟩
      · rintro ⟨h4, ⟨h5, h6, h7⟩ | h5⟩
        · left
          obtain ⟨cd, ci, cs, co⟩ := c
          simp only at h4 h5 h6 h7
          subst h4 h6
          rw [hi] at h5
          rw [ho] at h7
          simp only [Option.some.injEq] at h5 h7
          subst h5 h7
          rfl
        · exact Or.inr ⟨h4, h5⟩

theorem nodeWires_spec {E : Env V A} (hE : EnvOk E) {nodes : List (NodeId × NodeConfig V A)} {seen : List (Visit V)} (h : NodesOk E nodes seen)
    (ht : SeenTyped seen) (id : NodeId) :
    ∃ ws, nodeWires E nodes id = .ok ws ∧ (ws.map (·.dstIn)).Nodup ∧ ∀ c, c ∈ ws ↔ c.dst = id ∧ Wired seen c := by
  unfold nodeWires
  cases hl : nodes.lookup id with
  | none =>
    have hu : id ∉ known seen := fun hm => by have := (h.mem id).2 hm; simp [hl] at this
    refine ⟨[], rfl, by simp, ?_⟩
    intro c
    simp only [List.not_mem_nil, false_iff, not_and]
    rintro rfl ⟨p, out, hw, _⟩
    rw [wireOf_unknown hu] at hw
    cases hw
  | some nc =>
    obtain ⟨k1, k2⟩ := h.edges id nc hl
    have hperm := hE.shE nc.edges
    have hw : ∀ e, e ∈ E.shE nc.edges ↔ wireOf seen id e.1 = some e.2 := by
      intro e
      rw [hperm.mem_iff, ← k2]
      exact ⟨fun he => lookup_of_mem k1 he, fun he => mem_of_lookup he⟩
    obtain ⟨ws, h1, h2, h3⟩ := wiresOf_spec id (E.shE nc.edges) (fun e he => wire_typed ht (m := e.2.1) (out := e.2.2) ((hw e).1 he))
      ((hperm.map Prod.fst).nodup_iff.2 k1)
    refine ⟨ws, h1, h2, ?_⟩
    intro c
    rw [h3]
    constructor
    · rintro ⟨rfl, e, he, h4, h5, h6⟩
      refine ⟨rfl, e.1, e.2.2, ?_, h4, h6⟩
      rw [← h5]; exact (hw e).1 he
    · rintro ⟨rfl, p, out, h4, h5, h6⟩
      exact ⟨rfl, (p, c.src, out), (hw _).2 h4, h5, rfl, h6⟩

theorem allWires_spec {E : Env V A} (hE : EnvOk E) {nodes : List (NodeId × NodeConfig V A)} {seen : List (Visit V)} (h : NodesOk E nodes seen)
    (ht : SeenTyped seen) : ∀ (ids : List NodeId), ids.Nodup →
    ∃ ws, allWires E nodes ids = .ok ws ∧ (ws.map (fun c => (c.dst, c.dstIn))).Nodup ∧ ∀ c, c ∈ ws ↔ c.dst ∈ ids ∧ Wired seen c := by
  intro ids
  induction ids with
  | nil => intro _; exact ⟨[], rfl, by simp, by simp⟩
  | cons id ids ih =>
    intro hn
    rw [List.nodup_cons] at hn
    obtain ⟨ws, h1, h2, h3⟩ := nodeWires_spec hE h ht id
    obtain ⟨ws', k1, k2, k3⟩ := ih hn.2
    refine ⟨ws ++ ws', by simp [allWires, h1, k1], ?_, ?_⟩
    · rw [List.map_append, List.nodup_append]
      refine ⟨?_, k2, ?_⟩
      · have : ws.map (fun c => (c.dst, c.dstIn)) = (ws.map (·.dstIn)).map (fun i => (id, i)) := by
          rw [List.map_map]
          apply List.map_congr_left
          intro c hc
          simp [((h3 c).1 hc).1]
        rw [this]
        exact h2.map (fun a b hab => by simpa using hab)
      · intro x hx y hy hxy
        obtain ⟨c, hc, rfl⟩ := List.mem_map.1 hx
        obtain ⟨d, hd, rfl⟩ := List.mem_map.1 hy
        have e1 := ((h3 c).1 hc).1
        have e2 := ((k3 d).1 hd).1
        simp only [Prod.mk.injEq] at hxy
        exact hn.1 (by rw [← e1, hxy.1]; exact e2)
    · intro c
      rw [List.mem_append, h3, k3, List.mem_cons]
      tauto

end HexoDSP.Synth
