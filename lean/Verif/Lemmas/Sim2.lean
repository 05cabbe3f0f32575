import Verif.Lemmas.Sim
/-! The engine follows the reference machine: polling, the tables of the configurator, blocks. -/

set_option linter.unusedSectionVars false

namespace HexoDSP.Engine
open EngineSpec

variable {N V A M σ : Type} [DecidableEq N]

section
variable [Sub V] [Div V] [NatCast V]

theorem Match1.shape {T : NodeTable N V A} {l l' : Layout N V} {m : List (Msg N V A M)} {u : List (Update N V A)}
    {now : Playing N V A} (h : Match1 T l now m u l') : m = [] ∨ ∃ x, m = [x] := by
  cases h <;> first | exact Or.inl rfl | exact Or.inr ⟨_, rfl⟩

/-- A message that matches never makes the audio thread panic. -/
theorem Plays.apply_some {T : NodeTable N V A} {l l' : Layout N V} {now : Playing N V A} {e : Exec N V A M}
    (s : Shared N V A) {m : Msg N V A M} {u : List (Update N V A)} (h : Plays T l now e.prog)
    (hm : Match1 T l now [m] u l') (hu : ∀ p, m.prog? = some p → Unlinked p)
    (hdisj : (m.owned ++ e.prog.owned).Nodup) : ∃ r, e.apply s m = some r := by
  cases hm with
  | param v hn hi => exact ⟨_, rfl⟩
  | atom a hn hi =>
    have hlt := (h.carries.setAtom a hn hi).1
    simp only [Exec.apply, if_pos hlt]
    exact ⟨_, rfl⟩
  | amount v hn hi hsome => exact ⟨_, rfl⟩
  | @program _ _ pl p co hc hpar hpre hsame hmon =>
    have hu' := hu _ rfl
    simp only [Exec.apply]
    cases hx : (if co then p.swapPrevious e.prog else (p, e.prog)) with
    | mk q prev =>
      have hq : Carries T l' pl q ∧ q.owned.Nodup := by
        cases co with
        | false =>
          simp only [Bool.false_eq_true, if_false, Prod.mk.injEq] at hx
          obtain ⟨rfl, rfl⟩ := hx
          exact ⟨hc, (List.nodup_append.1 hdisj).1⟩
        | true =>
          simp only [if_true] at hx
          obtain ⟨h1, h2, h3, h4, h5, h6, h7, h8, h9, h10⟩ := swapPrevious_spec (prev := e.prog) hu'
          rw [hx] at h1 h2 h3 h4 h5 h6 h7 h8 h9 h10
          simp only at h1 h2 h3 h4 h5 h6 h7 h8 h9 h10
          refine ⟨hc.congr (by rw [h6]) (by rw [h7]; exact (swapZip_perm _ _).2.2) h5 h8 (by rw [h4]) (by rw [h9]) h3 ?_, ?_⟩
          · have := congrArg (List.map Prod.fst) h10
            simpa [List.map_map, Function.comp_def] using this
          · exact (List.nodup_append.1 (h2.nodup_iff.2 hdisj)).1
      obtain ⟨r1, a1, a2, a3, a4⟩ := assignOutputs_spec (hq.1.ok hq.2)
      rw [a1]
      exact ⟨_, rfl⟩
  | clear => exact ⟨_, rfl⟩
  | monitor hn hi ho => exact ⟨_, rfl⟩
  | midi ev => exact ⟨_, rfl⟩

theorem nodup_of_count_le {l : List Nat} (h : ∀ b : Nat, l.count b ≤ 1) : l.Nodup := by
  rw [List.nodup_iff_count]
  exact h

/-- Polling applies the pending updates. -/
theorem applyAll_plays {T : NodeTable N V A} {l l' : Layout N V} {q : List (Msg N V A M)} {us : List (Update N V A)}
    {now : Playing N V A} (hm : Match T l now q us l') : ∀ {e : Exec N V A M} {s : Shared N V A},
    Plays T l now e.prog → RefsOwn e.prog → QueueFresh q →
    (∀ b, cnt e s b + (q.flatMap Msg.owned).count b ≤ 1) →
    ∃ e' s', e.applyAll s q = some (e', s') ∧ Plays T l' (us.foldl Playing.update now) e'.prog := by
  induction hm with
  | nil l now => intro e s h _ _ _; exact ⟨e, s, rfl, h⟩
  | @cons l l1 l2 now m q u us h1 _ ih =>
    intro e s h hr hf hc
    rcases h1.shape with rfl | ⟨x, rfl⟩
    · obtain ⟨rfl, h'⟩ := h.skip h1
      obtain ⟨e', s', r1, r2⟩ := ih h' hr hf hc
      exact ⟨e', s', r1, by rw [List.foldl_append]; exact r2⟩
    · have hfx := hf x (by simp)
      have hdisj : (x.owned ++ e.prog.owned).Nodup := by
        apply nodup_of_count_le
        intro b
        have := hc b
        simp only [List.singleton_append, List.flatMap_cons, List.count_append, cnt] at this ⊢
        omega
      obtain ⟨⟨e1, s1⟩, ha⟩ := h.apply_some s h1 hfx hdisj
      obtain ⟨o1, o2, o3⟩ := apply_owner hr hfx ha
      have h' := h.apply h1 hfx hdisj ha
      obtain ⟨e', s', r1, r2⟩ := ih (e := e1) (s := s1) h' o1 (fun m' hm' => hf m' (by simp [hm'])) (by
        intro b
        have := hc b
        simp only [List.singleton_append, List.flatMap_cons, List.count_append] at this
        rw [o3]
        omega)
      refine ⟨e', s', ?_, by rw [List.foldl_append]; exact r2⟩
      simp only [List.singleton_append, Exec.applyAll, ha]
      exact r1

end

/-! ### The tables of the configurator -/

theorem confLay_new (T : NodeTable N V A) : ConfLay T Layout.empty (Conf.new : Conf N V A) := by
  refine ⟨fun n i => by simp [Conf.new, Layout.empty], fun n i => by simp [Conf.new, Layout.empty], ?_,
    fun n hn => by simp [Layout.empty] at hn, List.nil_prefix⟩
  intro n ni h
  simp [Conf.instanceOf, Conf.uniqueIndexFor, Conf.new] at h

theorem instanceOf_congr {c c' : Conf N V A} (hn : c'.nodes = c.nodes) (hi : c'.node2idx = c.node2idx) (n : N) :
    c'.instanceOf n = c.instanceOf n := by
  unfold Conf.instanceOf Conf.uniqueIndexFor
  rw [hn, hi]

theorem ConfLay.create {T : NodeTable N V A} {l : Layout N V} {c : Conf N V A} (h : ConfLay T l c) (hw : ConfWF c) (n : N)
    (hn : ¬ Allocated c n) : ConfLay T l (c.createNode n) := by
  have hold : ∀ m, m ≠ n → (c.createNode n).instanceOf m = c.instanceOf m := by
    intro m he
    unfold Conf.instanceOf Conf.uniqueIndexFor
    simp only [Conf.createNode]
    rw [lookup_insert, show (m == n) = false by simpa using he]
    simp only [Bool.false_eq_true, if_false]
    cases hl : c.node2idx.lookup m with
    | none => rfl
    | some i =>
      have hi := (hw.idx m i).1 hl
      have hlt : i < c.nodes.length := by
        have := (List.getElem?_eq_some_iff.1 hi).1
        simpa [Conf.ids] using this
      simp only [List.getElem?_append_left hlt]
  have hnone : c.instanceOf n = none := by
    unfold Conf.instanceOf
    cases hx : c.uniqueIndexFor n with
    | none => rfl
    | some i => exact absurd (show Allocated c n by unfold Allocated; rw [hx]; rfl) hn
  refine ⟨h.par, h.at_, fun m ni hm => ?_, fun m hm => ?_, ?_⟩
  rotate_left
  rotate_left
  · have : (c.createNode n).ids = c.ids ++ [n] := by simp [Conf.ids, Conf.createNode]
    rw [this]
    exact h.pre.trans (List.prefix_append _ _)
  rotate_left
  · have hne : m ≠ n := by
      rintro rfl
      have := h.has m hm
      rw [hnone] at this
      cases this
    rw [hold m hne]
    exact h.has m hm
  by_cases he : m = n
  · subst he
    unfold Conf.instanceOf Conf.uniqueIndexFor at hm
    simp [Conf.createNode, lookup_insert] at hm
  · rw [hold m he] at hm
    exact h.inst m ni hm

theorem ConfLay.congr {T : NodeTable N V A} {l : Layout N V} {c c' : Conf N V A} (h : ConfLay T l c)
    (hp : c'.params = c.params) (ha : c'.atoms = c.atoms) (hn : c'.nodes = c.nodes) (hi : c'.node2idx = c.node2idx) :
    ConfLay T l c' :=
  ⟨fun n i => by rw [hp]; exact h.par n i, fun n i => by rw [ha]; exact h.at_ n i,
    fun n ni hx => h.inst n ni (by rw [← instanceOf_congr hn hi]; exact hx),
    fun n hx => by rw [instanceOf_congr hn hi]; exact h.has n hx, by
      unfold Conf.ids; rw [hn]; exact h.pre⟩

theorem ConfLay.parNone {T : NodeTable N V A} {l : Layout N V} {c : Conf N V A} (h : ConfLay T l c) {n : N} {i : Nat}
    (hn : c.params.lookup (n, i) = none) : ¬ (n ∈ l.ids ∧ i < T.inCount n) := by
  intro hc
  have := h.par n i
  rw [hn, if_pos hc] at this
  cases this

theorem ConfLay.parSome {T : NodeTable N V A} {l : Layout N V} {c : Conf N V A} (h : ConfLay T l c) {n : N} {i : Nat}
    {np : NodeInputParam V} (hn : c.params.lookup (n, i) = some np) :
    n ∈ l.ids ∧ i < T.inCount n ∧ np.inputIdx = l.inIdx T n i ∧
    np.modamt.map (fun m => m.1) = if (amtOf l.amts n i).isSome then some (l.modIdx T n i) else none := by
  have := h.par n i
  rw [hn] at this
  split at this
  · rename_i hc
    simp only [Option.map_some, Option.some.injEq, Prod.mk.injEq] at this
    exact ⟨hc.1, hc.2, this.1, this.2⟩
  · cases this

theorem ConfLay.atNone {T : NodeTable N V A} {l : Layout N V} {c : Conf N V A} (h : ConfLay T l c) {n : N} {i : Nat}
    (hn : c.atoms.lookup (n, i) = none) : ¬ (n ∈ l.ids ∧ i < T.atCount n) := by
  intro hc
  have := h.at_ n i
  rw [hn, if_pos hc] at this
  cases this

theorem ConfLay.atSome {T : NodeTable N V A} {l : Layout N V} {c : Conf N V A} (h : ConfLay T l c) {n : N} {i : Nat}
    {na : NodeInputAtom A} (hn : c.atoms.lookup (n, i) = some na) :
    n ∈ l.ids ∧ i < T.atCount n ∧ na.atIdx = l.atIdx T n i := by
  have := h.at_ n i
  rw [hn] at this
  split at this
  · rename_i hc
    simp only [Option.map_some, Option.some.injEq] at this
    exact ⟨hc.1, hc.2, this⟩
  · cases this

theorem ConfLay.insertPar {T : NodeTable N V A} {l : Layout N V} {c c' : Conf N V A} (h : ConfLay T l c) {n : N} {i : Nat}
    {np np' : NodeInputParam V} (hn : c.params.lookup (n, i) = some np)
    (hp : c'.params = Map.insert c.params (n, i) np') (ha : c'.atoms = c.atoms)
    (hi : np'.inputIdx = np.inputIdx) (hm : np'.modamt.map (fun m => m.1) = np.modamt.map (fun m => m.1))
    (hno : c'.nodes = c.nodes) (hix : c'.node2idx = c.node2idx) : ConfLay T l c' := by
  refine ⟨fun m j => ?_, fun m j => by rw [ha]; exact h.at_ m j,
    fun n ni hx => h.inst n ni (by rw [← instanceOf_congr hno hix]; exact hx),
    fun n hx => by rw [instanceOf_congr hno hix]; exact h.has n hx, by
      unfold Conf.ids; rw [hno]; exact h.pre⟩
  rw [hp, lookup_insert, ← h.par m j]
  by_cases he : (m, j) = (n, i)
  · cases he
    simp only [BEq.rfl, if_true]
    rw [hn]
    simp [hi, hm]
  · have : ((m, j) == (n, i)) = false := by simpa using he
    simp [this]

theorem ConfLay.insertAt {T : NodeTable N V A} {l : Layout N V} {c c' : Conf N V A} (h : ConfLay T l c) {n : N} {i : Nat}
    {na na' : NodeInputAtom A} (hn : c.atoms.lookup (n, i) = some na)
    (ha : c'.atoms = Map.insert c.atoms (n, i) na') (hp : c'.params = c.params) (hi : na'.atIdx = na.atIdx)
    (hno : c'.nodes = c.nodes) (hix : c'.node2idx = c.node2idx) : ConfLay T l c' := by
  refine ⟨fun m j => by rw [hp]; exact h.par m j, fun m j => ?_,
    fun n ni hx => h.inst n ni (by rw [← instanceOf_congr hno hix]; exact hx),
    fun n hx => by rw [instanceOf_congr hno hix]; exact h.has n hx, by
      unfold Conf.ids; rw [hno]; exact h.pre⟩
  rw [ha, lookup_insert, ← h.at_ m j]
  by_cases he : (m, j) = (n, i)
  · cases he
    simp only [BEq.rfl, if_true]
    rw [hn]
    simp [hi]
  · have : ((m, j) == (n, i)) = false := by simpa using he
    simp [this]

/-- The layout of a configuration: what the next program will have. -/
def Conf.layout (c : Conf N V A) : Layout N V := ⟨c.ids, c.paramModamt⟩

theorem confLay_build [OfNat V 0] {T : NodeTable N V A} {a0 : A} {c c' : Conf N V A} {h h' : Heap V} {order : List N}
    {es : List (Conn N)} {p : NodeProg N V A} (hw : ConfWF c)
    (hb : c.buildProg T a0 h order es = some (c', p, h')) : ConfLay T c.layout c' := by
  have hst := tables_buildProg hb
  have hs := rebuildLoop_spec T c hw.nodup
  have hpar : c'.params = (c.rebuildLoop T).params := hst.params
  have hat : c'.atoms = (c.rebuildLoop T).atoms := hst.atoms
  have hreb := rebuilt_buildProg hw hb
  refine ⟨?_, ?_, fun n ni hx => ?_, fun n hn => ?_, by rw [hreb.ids]; exact List.prefix_rfl⟩
  · intro n i
    rw [hpar]
    split
    · rename_i hc
      rw [hs.par _ n (idxOf_get hc.1) i hc.2]
      simp only [Option.map_some, paramEntry, Layout.inIdx, Layout.modIdx, Conf.layout, base]
      rw [Option.map_map]
      rcases Option.eq_none_or_eq_some (amtOf c.paramModamt n i) with h1 | ⟨a, h1⟩ <;> simp [h1]
    · rename_i hc
      cases hl : (c.rebuildLoop T).params.lookup (n, i) with
      | none => rfl
      | some np => exact absurd (hs.parNone n i (by rw [hl]; simp)) hc
  · intro n i
    rw [hat]
    split
    · rename_i hc
      rw [hs.ats _ n (idxOf_get hc.1) i hc.2]
      rfl
    · rename_i hc
      cases hl : (c.rebuildLoop T).atoms.lookup (n, i) with
      | none => rfl
      | some np => exact absurd (hs.atNone n i (by rw [hl]; simp)) hc
  · have hmem : n ∈ c.ids := by
      by_contra hc
      rw [← hreb.ids] at hc
      unfold Conf.instanceOf at hx
      rw [(uniqueIndexFor_none hreb.wf n).2 hc] at hx
      cases hx
    obtain ⟨u, hu⟩ := instanceOf_eq hreb hmem
    rw [hu] at hx
    cases hx
    exact ⟨hmem, rfl, rfl⟩
  · obtain ⟨u, hu⟩ := instanceOf_eq hreb (n := n) hn
    rw [hu]
    rfl

/-- What a `sync` asks for. -/
def syncPlaying (T : NodeTable N V A) (c : Conf N V A) (order : List N) (es : List (Conn N)) : Playing N V A :=
  { order := order, wires := es, amt := fun n i => c.getModamt (.input n i), atom := atomIn T c, param := paramIn T c }

theorem atomIn_eq (T : NodeTable N V A) (c : Conf N V A) (n : N) (i : Nat) :
    atomIn T c n i = (c.atomValues.lookup (n, i)).getD (T.atomDef n i) := by
  simp only [atomIn, Conf.getParam]
  rcases Option.eq_none_or_eq_some (c.atomValues.lookup (n, i)) with h | ⟨a, h⟩ <;> simp [h]

theorem paramIn_eq (T : NodeTable N V A) (c : Conf N V A) (n : N) (i : Nat) :
    paramIn T c n i = (c.paramValues.lookup (n, i)).getD (T.normDef n i) := by
  simp only [paramIn, Conf.getParam]
  rcases Option.eq_none_or_eq_some (c.paramValues.lookup (n, i)) with h | ⟨a, h⟩ <;> simp [h]

theorem carries_build [OfNat V 0] {T : NodeTable N V A} (hT : ∀ n, T.inCount n ≤ 32) {a0 : A} {c c' : Conf N V A} {h h' : Heap V}
    {order : List N} {es : List (Conn N)} {p : NodeProg N V A} (hw : ConfWF c) (hl : Legal c order es)
    (hb : c.buildProg T a0 h order es = some (c', p, h')) :
    Carries T c.layout (syncPlaying T c order es) (c'.fillProg p) ∧
    ParamsAre T c.layout (syncPlaying T c order es) (c'.fillProg p) := by
  have hids : ∀ n ∈ order, n ∈ c.ids := by
    intro n hn
    by_contra hc
    have h1 := hl.alloc n hn
    unfold Allocated at h1
    rw [(uniqueIndexFor_none hw n).2 hc] at h1
    cases h1
  obtain ⟨hB, _⟩ := fill_built hT hw (by simpa [Conf.ids] using hl.small) hl.nodup hids hb
  refine ⟨⟨hB.outLen, hB.inLen, hB.atLen, hB.modLen, hB.curLen, hB.parLen, hB.fbLen, hB.prog, hl.nodup, hids, hl.before,
    ?_, ?_, ?_, by simpa [Conf.ids, Conf.layout] using hl.small, hw.nodup⟩, ?_⟩
  · intro n hn k hk
    show _ = some (atomIn T c n k)
    rw [atomIn_eq]
    exact hB.atoms n hn k hk
  · intro n hn k hk a ha
    exact hB.mods n hn k hk a ha
  · intro n hn k hk
    rfl
  · intro n hn k hk
    show _ = some (paramIn T c n k)
    rw [paramIn_eq]
    exact hB.params n hn k hk

end HexoDSP.Engine
