import Verif.Spec.ChainBuilder
import Verif.Lemmas.ChainBuilder

set_option linter.unusedSectionVars false
set_option linter.dupNamespace false

namespace HexoDSP.ChainProps
open HexoDSP.Chain HexoDSP.Matrix HexoDSP.Table
open CellDir (Pos walk)

variable {V : Type}

theorem outputDir_eq {d : CellDir} (hd : d ≠ .C) (ch : Chain V) (h : ch.dir = d) : ch.outputDir = outSide d ∧ ch.inputDir = inSide d := by
  unfold Chain.outputDir Chain.inputDir
  rw [h]
  cases d <;> first | exact absurd rfl hd | decide

theorem inp_lt {id : NodeId} {s : String} {k : Nat} (h : id.inp s = some k) : k < 256 := by
  cases id with
  | nop => cases h
  | node t i =>
    simp only [NodeId.inp] at h
    obtain ⟨p, hp, rfl⟩ := Option.map_eq_some_iff.mp h
    have hm := List.mem_of_find?_eq_some hp
    have : ∀ t, ∀ p ∈ (row t).params, p.idx < 256 := by decide +kernel
    exact this t p hm

theorem out_lt {id : NodeId} {s : String} {k : Nat} (h : id.out s = some k) : k < 256 := by
  cases id with
  | nop => cases h
  | node t i =>
    simp only [NodeId.out] at h
    obtain ⟨p, hp, rfl⟩ := Option.map_eq_some_iff.mp h
    have hm := List.mem_of_find?_eq_some hp
    have : ∀ t, ∀ p ∈ (row t).outs, p.idx < 256 := by decide +kernel
    exact this t p hm

theorem port_setIoDir (c : Cell TNode) {d : CellDir} (hd : d ≠ .C) (e : CellDir) {k : Nat} (hk : k < 256) :
    (c.setIoDir d k).localPortIdx e = if e = d then some k else c.localPortIdx e := by
  have hk' := Nat.mod_eq_of_lt hk
  cases d <;> cases e <;> first | exact absurd rfl hd | simp [Cell.setIoDir, Cell.localPortIdx, hk']

theorem id_setIoDir (c : Cell TNode) (d : CellDir) (k : Nat) : (c.setIoDir d k).nodeId = c.nodeId := by cases d <;> rfl

theorem sides {d : CellDir} (hd : d ≠ .C) : inSide d ≠ .C ∧ outSide d ≠ .C ∧ inSide d ≠ outSide d := by
  cases d <;> first | exact absurd rfl hd | decide

theorem ofOpt_toOpt (id : NodeId) : ofOpt (toOpt id) = id := by cases id <;> rfl

theorem eqVariant_refl (id : NodeId) : id.eqVariant id = true := by cases id <;> simp [NodeId.eqVariant]

theorem applyInp_keeps (ch : Chain V) (c : Cell TNode) (o : Option String) : (ch.applyInp c o).1.dir = ch.dir ∧ (ch.applyInp c o).1.links = ch.links := by
  cases o with
  | none => exact ⟨rfl, rfl⟩
  | some o => simp only [Chain.applyInp]; split <;> exact ⟨rfl, rfl⟩

theorem applyOut_keeps (ch : Chain V) (c : Cell TNode) (o : Option String) : (ch.applyOut c o).1.dir = ch.dir ∧ (ch.applyOut c o).1.links = ch.links := by
  cases o with
  | none => exact ⟨rfl, rfl⟩
  | some o => simp only [Chain.applyOut]; split <;> exact ⟨rfl, rfl⟩

/-- What one call of `node`, `node_inp`, `node_out`, `node_io` does. -/
theorem node_spec {d : CellDir} (hd : d ≠ .C) (ch : Chain V) (h : ch.dir = d) (name : String) (inp out : Option String) :
    (NamesKnown name inp out ∧ ∃ c, ofOpt c.nodeId = NodeId.fromStr name ∧ PortsAre d name inp out c ∧ ch.node name inp out = ch.addLink c) ∨
    (¬ NamesKnown name inp out ∧ (ch.node name inp out).error.isSome ∧ (ch.node name inp out).dir = d) := by
  obtain ⟨s1, s2, s3⟩ := sides hd
  unfold Chain.node
  by_cases hn : NodeId.fromStr name = .nop ∧ name ≠ "nop"
  · right
    have hs : spawnCell name = none := by unfold spawnCell; rw [if_pos hn]
    rw [hs]
    exact ⟨fun hk => hn.2 (hk.1 hn.1), rfl, h⟩
  · have hs : spawnCell name = some (Cell.empty (toOpt (NodeId.fromStr name))) := by unfold spawnCell; rw [if_neg hn]
    rw [hs]
    simp only
    have hid : ofOpt (Cell.empty (toOpt (NodeId.fromStr name))).nodeId = NodeId.fromStr name := ofOpt_toOpt _
    have hp0 : ∀ e, (Cell.empty (toOpt (NodeId.fromStr name))).localPortIdx e = none := by intro e; cases e <;> rfl
    generalize Cell.empty (toOpt (NodeId.fromStr name)) = c0 at hid hp0
    -- the input
    generalize hr1 : ch.applyInp c0 inp = r1
    have hI : (∃ c1, r1 = (ch, c1) ∧ ofOpt c1.nodeId = NodeId.fromStr name ∧
          (∀ i, inp = some i → ∃ k, (NodeId.fromStr name).inp i = some k) ∧
          c1.localPortIdx (inSide d) = inp.bind (NodeId.fromStr name).inp ∧ ∀ e, e ≠ inSide d → c1.localPortIdx e = none) ∨
        (∃ i, inp = some i ∧ (NodeId.fromStr name).inp i = none ∧ ∃ er, r1 = ({ ch with error := some er }, c0)) := by
      subst hr1
      cases inp with
      | none => left; exact ⟨c0, rfl, hid, by simp, hp0 _, fun e _ => hp0 e⟩
      | some i =>
        simp only [Chain.applyInp, setInputByName, hid, (outputDir_eq hd ch h).2]
        cases hk : (NodeId.fromStr name).inp i with
        | none => right; exact ⟨i, rfl, hk, _, rfl⟩
        | some k =>
          left
          refine ⟨c0.setIoDir (inSide d) k, rfl, by rw [id_setIoDir]; exact hid, ?_, ?_, ?_⟩
          · rintro i' ⟨⟩; exact ⟨k, hk⟩
          · rw [port_setIoDir _ s1 _ (inp_lt hk), if_pos rfl]; exact hk.symm
          · intro e he
            rw [port_setIoDir _ s1 _ (inp_lt hk), if_neg he]; exact hp0 e
    rcases hI with ⟨c1, e1, hid1, k1, p1, p2⟩ | ⟨i, hi, hk, er, e1⟩
    · rw [e1]
      cases out with
      | none =>
        left
        refine ⟨⟨fun hx => by by_contra hy; exact hn ⟨hx, hy⟩, k1, by simp⟩, c1, hid1, ⟨p1, p2 _ (Ne.symm s3), fun e he _ => p2 e he⟩, rfl⟩
      | some o =>
        simp only [Chain.applyOut, setOutputByName, hid1, (outputDir_eq hd ch h).1]
        cases hk : (NodeId.fromStr name).out o with
        | none =>
          right
          refine ⟨fun hx => ?_, rfl, h⟩
          obtain ⟨k, hk'⟩ := hx.2.2 o rfl
          rw [hk] at hk'; cases hk'
        | some k =>
          left
          refine ⟨⟨fun hx => by by_contra hy; exact hn ⟨hx, hy⟩, k1, by rintro o' ⟨⟩; exact ⟨k, hk⟩⟩,
            c1.setIoDir (outSide d) k, by rw [id_setIoDir]; exact hid1, ⟨?_, ?_, ?_⟩, rfl⟩
          · rw [port_setIoDir _ s2 _ (out_lt hk), if_neg s3]; exact p1
          · rw [port_setIoDir _ s2 _ (out_lt hk), if_pos rfl]; exact hk.symm
          · intro e he he'
            rw [port_setIoDir _ s2 _ (out_lt hk), if_neg he']; exact p2 e he
    · right
      rw [e1]
      refine ⟨fun hx => ?_, ?_, ?_⟩
      · obtain ⟨k, hk'⟩ := hx.2.1 i hi
        rw [hk] at hk'; cases hk'
      · cases out with
        | none => rfl
        | some o => simp only [Chain.applyOut]; split <;> rfl
      · cases out with
        | none => exact h
        | some o => simp only [Chain.applyOut]; split <;> exact h

theorem step_dir {d : CellDir} (hd : d ≠ .C) {ch ch' : Chain V} (h : ch.dir = d) {op : BuildOp V} (hs : ch.step op = some ch') : ch'.dir = d := by
  cases op with
  | node n i o =>
    simp only [Chain.step, Option.some.injEq] at hs
    subst hs
    rcases node_spec hd ch h n i o with ⟨_, c, _, _, he⟩ | ⟨_, _, he⟩
    · rw [he]; exact h
    · exact he
  | link c => simp only [Chain.step, Option.some.injEq] at hs; subst hs; exact h
  | set p v =>
    simp only [Chain.step, Chain.set] at hs
    split at hs
    · cases hs
    · split at hs <;> (simp only [Option.some.injEq] at hs; subst hs; exact h)
  | paramsForIdx i => simp only [Chain.step, Option.some.injEq] at hs; subst hs; exact h

/-- An error stays. -/
theorem step_error {d : CellDir} (hd : d ≠ .C) {ch ch' : Chain V} (h : ch.dir = d) {op : BuildOp V} (hs : ch.step op = some ch')
    (he : ch.error.isSome) : ch'.error.isSome := by
  cases op with
  | node n i o =>
    simp only [Chain.step, Option.some.injEq] at hs
    subst hs
    rcases node_spec hd ch h n i o with ⟨_, c, _, _, e⟩ | ⟨_, e, _⟩
    · rw [e]; exact he
    · exact e
  | link c => simp only [Chain.step, Option.some.injEq] at hs; subst hs; exact he
  | set p v =>
    simp only [Chain.step, Chain.set] at hs
    split at hs
    · cases hs
    · split at hs <;> (simp only [Option.some.injEq] at hs; subst hs)
      · exact he
      · rfl
  | paramsForIdx i => simp only [Chain.step, Option.some.injEq] at hs; subst hs; exact he

theorem fromStr_name {n : String} (h : NodeId.fromStr n = .nop → n = "nop") : (NodeId.fromStr n).name = n := by
  cases hf : NodeId.fromStr n with
  | nop => exact (h hf).symm
  | node t i =>
    unfold NodeId.fromStr at hf
    split at hf
    · cases hf
    · split at hf
      · rename_i k hk
        simp only [NodeId.node.injEq] at hf
        obtain ⟨rfl, _⟩ := hf
        have := List.find?_some hk
        simpa [NodeId.name] using this
      · cases hf

/-- The link made by a call. -/
def Made (d : CellDir) (op : BuildOp V) (l : Link V) : Prop :=
  op.Asks d l.cell ∧ (∀ n i o, op = .node n i o → ofOpt l.cell.nodeId = NodeId.fromStr n) ∧ (ofOpt l.cell.nodeId).name = op.nodeName

/-- The chain built so far matches the calls. -/
structure Built (d : CellDir) (ops : List (BuildOp V)) (ch : Chain V) : Prop where
  dir : ch.dir = d
  ldir : ∀ l ∈ ch.links, l.dir = d
  cells : ch.error = none → List.Forall₂ (Made d) (cellOps ops) ch.links
  known : ch.error = none → ∀ n i o, BuildOp.node n i o ∈ ops → NamesKnown n i o

theorem forall₂_set {α β : Type} {R : α → β → Prop} : ∀ {as : List α} {bs : List β} (i : Nat) (b b' : β), List.Forall₂ R as bs → bs[i]? = some b →
    (∀ a, R a b → R a b') → List.Forall₂ R as (bs.set i b')
  | [], _, i, b, b', .nil, h, _ => by simp at h
  | _ :: _, _ :: _, 0, b, b', .cons h1 h2, h, hh => by
    simp only [List.getElem?_cons_zero, Option.some.injEq] at h
    subst h
    exact .cons (hh _ h1) h2
  | _ :: _, _ :: _, i + 1, b, b', .cons h1 h2, h, hh => .cons h1 (forall₂_set i b b' h2 (by simpa using h) hh)

theorem built_step {d : CellDir} (hd : d ≠ .C) {ops : List (BuildOp V)} {ch ch' : Chain V} (hb : Built d ops ch) (op : BuildOp V)
    (hs : ch.step op = some ch') : Built d (ops ++ [op]) ch' := by
  have hdir := step_dir hd hb.dir hs
  have herr : ch'.error = none → ch.error = none := by
    intro h
    by_contra hc
    have := step_error hd hb.dir hs (Option.isSome_iff_ne_none.mpr hc)
    rw [h] at this; cases this
  have hadd : ∀ c, op.addsCell = true → (ch'.error = none → ch' = ch.addLink c ∧ Made d op (⟨c, ch.dir, []⟩ : Link V)) →
      (ch'.error = none → List.Forall₂ (Made d) (cellOps (ops ++ [op])) ch'.links) := by
    intro c ha hc he
    obtain ⟨h1, h2⟩ := hc he
    have hcl := hb.cells (herr he)
    subst h1
    unfold cellOps at hcl ⊢
    rw [List.filter_append, List.filter_cons_of_pos (by exact ha), List.filter_nil]
    exact List.rel_append hcl (.cons h2 .nil)
  cases op with
  | node n i o =>
    simp only [Chain.step, Option.some.injEq] at hs
    rcases node_spec hd ch hb.dir n i o with ⟨hk, c, c1, c2, e⟩ | ⟨_, e, _⟩
    · rw [hs] at e
      refine ⟨hdir, ?_, hadd c rfl (fun _ => ⟨e, ?_⟩), ?_⟩
      · intro l hl
        rw [e, Chain.addLink] at hl
        simp only [List.mem_append, List.mem_singleton] at hl
        rcases hl with hl | rfl
        · exact hb.ldir l hl
        · exact hb.dir
      · exact ⟨⟨by rw [c1]; exact eqVariant_refl _, c2⟩, by rintro _ _ _ ⟨⟩; exact c1, by rw [c1]; exact fromStr_name hk.1⟩
      · intro he n' i' o' hm
        rcases List.mem_append.mp hm with hm | hm
        · exact hb.known (herr he) _ _ _ hm
        · simp only [List.mem_singleton, BuildOp.node.injEq] at hm
          obtain ⟨rfl, rfl, rfl⟩ := hm
          exact hk
    · rw [hs] at e
      have hne : ch'.error ≠ none := Option.isSome_iff_ne_none.mp e
      refine ⟨hdir, ?_, fun h => absurd h hne, fun h => absurd h hne⟩
      intro l hl
      subst hs
      have : ∀ (ch0 : Chain V), ch0.dir = d → ch0.links = ch.links → ∀ c, ∀ l ∈ (ch0.addLink c).links, l.dir = d := by
        intro ch0 h0 h1 c l hl
        rw [Chain.addLink] at hl
        simp only [List.mem_append, List.mem_singleton] at hl
        rcases hl with hl | rfl
        · rw [h1] at hl; exact hb.ldir l hl
        · exact h0
      unfold Chain.node at hl
      split at hl
      · exact hb.ldir l hl
      · refine this _ ?_ ?_ _ l hl
        · rw [(applyOut_keeps _ _ _).1, (applyInp_keeps _ _ _).1]; exact hb.dir
        · rw [(applyOut_keeps _ _ _).2, (applyInp_keeps _ _ _).2]
  | link c =>
    simp only [Chain.step, Option.some.injEq] at hs
    refine ⟨hdir, ?_, hadd c rfl (fun _ => ⟨hs.symm, ⟨eqVariant_refl _, fun _ => rfl⟩, by rintro _ _ _ ⟨⟩, rfl⟩), ?_⟩
    · intro l hl
      rw [← hs, Chain.addLink] at hl
      simp only [List.mem_append, List.mem_singleton] at hl
      rcases hl with hl | rfl
      · exact hb.ldir l hl
      · exact hb.dir
    · intro he n' i' o' hm
      rcases List.mem_append.mp hm with hm | hm
      · exact hb.known (herr he) _ _ _ hm
      · simp at hm
  | set p v =>
    have hc : cellOps (ops ++ [BuildOp.set p v]) = cellOps ops := by
      unfold cellOps; rw [List.filter_append]; simp [BuildOp.addsCell]
    simp only [Chain.step, Chain.set] at hs
    have hkn : ch'.error = none → ∀ n i o, BuildOp.node n i o ∈ ops ++ [BuildOp.set p v] → NamesKnown n i o := by
      intro he n' i' o' hm
      rcases List.mem_append.mp hm with hm | hm
      · exact hb.known (herr he) _ _ _ hm
      · simp at hm
    split at hs
    · cases hs
    · rename_i l hl
      split at hs
      · simp only [Option.some.injEq] at hs
        subst hs
        refine ⟨hdir, ?_, ?_, hkn⟩
        · intro l' hl'
          rcases List.mem_or_eq_of_mem_set hl' with h | rfl
          · exact hb.ldir l' h
          · exact hb.ldir l (List.mem_of_getElem? hl)
        · intro he
          rw [hc]
          exact forall₂_set _ l _ (hb.cells (herr he)) hl (fun a h => h)
      · simp only [Option.some.injEq] at hs
        subst hs
        exact ⟨hdir, hb.ldir, (fun he => nomatch he), hkn⟩
  | paramsForIdx i =>
    have hc : cellOps (ops ++ [(BuildOp.paramsForIdx i : BuildOp V)]) = cellOps ops := by
      unfold cellOps; rw [List.filter_append]; simp [BuildOp.addsCell]
    simp only [Chain.step, Option.some.injEq] at hs
    subst hs
    refine ⟨hdir, hb.ldir, fun he => by rw [hc]; exact hb.cells he, ?_⟩
    intro he n' i' o' hm
    rcases List.mem_append.mp hm with hm | hm
    · exact hb.known (herr he) _ _ _ hm
    · simp at hm

theorem build_snoc (ch0 : Chain V) (ops : List (BuildOp V)) (op : BuildOp V) :
    ch0.build (ops ++ [op]) = (ch0.build ops).bind (fun ch => ch.step op) := by
  unfold Chain.build
  rw [List.foldlM_append]
  simp only [List.foldlM_cons, List.foldlM_nil]
  cases List.foldlM Chain.step ch0 ops with
  | none => rfl
  | some c => simp

theorem built {d : CellDir} (hd : d ≠ .C) (ops : List (BuildOp V)) : ∀ (ch : Chain V), (Chain.new d).build ops = some ch → Built d ops ch := by
  induction ops using List.reverseRecOn with
  | nil =>
    intro ch h
    simp only [Chain.build, List.foldlM_nil, Option.pure_def, Option.some.injEq] at h
    subst h
    exact ⟨rfl, by intro l hl; simp [Chain.new] at hl, fun _ => by exact .nil, by intro _ n i o hm; simp at hm⟩
  | append_singleton ops op ih =>
    intro ch h
    rw [build_snoc] at h
    obtain ⟨ch1, h1, h2⟩ := Option.bind_eq_some_iff.mp h
    exact built_step hd (ih ch1 h1) op h2

theorem forall₂_get {α β : Type} {R : α → β → Prop} : ∀ {as : List α} {bs : List β}, List.Forall₂ R as bs → ∀ (k : Nat) (a : α), as[k]? = some a →
    ∃ b, bs[k]? = some b ∧ R a b
  | [], _, .nil, k, a, h => by simp at h
  | _ :: _, b :: _, .cons h1 h2, 0, a, h => by
    simp only [List.getElem?_cons_zero, Option.some.injEq] at h
    subst h
    exact ⟨b, by simp, h1⟩
  | _ :: _, _ :: _, .cons h1 h2, k + 1, a, h => by
    obtain ⟨b, hb, hr⟩ := forall₂_get h2 k a (by simpa using h)
    exact ⟨b, by simpa using hb, hr⟩

/-- **C36** The cells asked for, one after the other, lie along the direction of the chain, starting at the position given: every one that
is on the grid is there, with a node of the type named, with the named input and output at the facing edges and no other ports. All other
cells of the grid are as before, and so are its sizes. -/
theorem chain_laid_out {unused : NodeId → Option NodeId} (hu : SameType unused) {d : CellDir} (hd : d ≠ .C) {ops : List (BuildOp V)} {ch ch' : Chain V}
    {m m' : Patch V} {x y : Nat} (hr : m.grid.Reachable) (hb : (Chain.new d).build ops = some ch)
    (hp : ch.place unused m x y = some (ch', m', .ok ())) :
    m'.grid.w = m.grid.w ∧ m'.grid.h = m.grid.h ∧
    (∀ (k : Nat) (op : BuildOp V) (p : Pos), (cellOps ops)[k]? = some op → PlaceOf d x y k p → m.grid.InGrid p →
      ∃ c, m'.grid.get p.1 p.2 = some c ∧ op.Asks d c) ∧
    (∀ p : Pos, (∀ k, k < (cellOps ops).length → ¬ PlaceOf d x y k p) → m'.grid.get p.1 p.2 = m.grid.get p.1 p.2) := by
  have hbu := built hd ops ch hb
  unfold Chain.place at hp
  cases he : ch.error with
  | some e =>
    rw [he] at hp
    simp only [Option.some.injEq, Prod.mk.injEq] at hp
    exact absurd hp.2.2 (by simp)
  | none =>
    rw [he] at hp
    simp only at hp
    cases hl : ch.links.foldlM (placeLink unused) ⟨m.grid, ((x : Int), (y : Int)), []⟩ with
    | none => rw [hl] at hp; cases hp
    | some s =>
      rw [hl] at hp
      simp only [Option.some.injEq, Prod.mk.injEq] at hp
      obtain ⟨_, rfl, _⟩ := hp
      obtain ⟨ids, a1, a2, a3, _, a5, a6⟩ := place_loop hd ch.links _ s hbu.ldir hr hl
      have hf := hbu.cells he
      simp only at a1 a2 a3 a5 a6
      refine ⟨a2, a3, ?_, ?_⟩
      · intro k op p hk hpo hin
        obtain ⟨l, hlk, has, _⟩ := forall₂_get hf k op hk
        have hlen := assign_length _ _ _ a1
        have hkl : k < ids.length := by rw [hlen]; exact (List.getElem?_eq_some_iff.mp hlk).1
        have hid : ids[k]? = some ids[k] := List.getElem?_eq_getElem hkl
        refine ⟨_, a5 k l ids[k] p hlk hid ((walk_iff d (x, y) p k).mp hpo) hin, ?_⟩
        have hv := assign_variant hu _ _ _ a1 k l _ hlk hid
        cases op with
        | node n i o =>
          refine ⟨?_, has.2⟩
          have hv1 := has.1
          revert hv hv1
          simp only [Cell.setNodeIdKeepIos, ofOpt_toOpt]
          generalize NodeId.fromStr n = A
          generalize ofOpt l.cell.nodeId = B
          generalize ids[k] = C
          cases A <;> cases B <;> cases C <;> simp +contextual [NodeId.eqVariant]
        | link c0 =>
          refine ⟨?_, fun e => has.2 e⟩
          have hv1 := has.1
          revert hv hv1
          simp only [Cell.setNodeIdKeepIos, ofOpt_toOpt]
          generalize ofOpt c0.nodeId = A
          generalize ofOpt l.cell.nodeId = B
          generalize ids[k] = C
          cases A <;> cases B <;> cases C <;> simp +contextual [NodeId.eqVariant]
        | set _ _ => exact has
        | paramsForIdx _ => exact has
      · intro p hpo
        refine a6 p ?_
        intro k hk hc
        refine hpo k (by rw [hf.length_eq]; exact hk) ((walk_iff d (x, y) p k).mpr hc)

/-- **C36** Neighbouring cells of the chain are wired: the cell nearer to the source (the earlier one for a chain going to the right or down,
the later one otherwise) sends its named output to the named input of the other one. -/
theorem chain_wired {unused : NodeId → Option NodeId} (hu : SameType unused) {d : CellDir} (hd : d ≠ .C) {ops : List (BuildOp V)} {ch ch' : Chain V}
    {m m' : Patch V} {x y : Nat} (hr : m.grid.Reachable) (hb : (Chain.new d).build ops = some ch)
    (hp : ch.place unused m x y = some (ch', m', .ok ())) {a b : Nat} {pa pb : Pos} (hab : if d ∈ outDirs then b = a + 1 else a = b + 1)
    {na nb out inp : String} {ia ob : Option String} (ha : (cellOps ops)[a]? = some (.node na ia (some out)))
    (hbn : (cellOps ops)[b]? = some (.node nb (some inp) ob)) (hna : na ≠ "nop") (hnb : nb ≠ "nop")
    (hpa : PlaceOf d x y a pa) (hpb : PlaceOf d x y b pb) (hia : m.grid.InGrid pa) (hib : m.grid.InGrid pb) :
    ∃ e, m'.grid.Wire pa (outSide d) e ∧ (NodeId.fromStr na).eqVariant (ofOpt (some e.src)) = true ∧ (NodeId.fromStr na).out out = some e.srcOut ∧
      (NodeId.fromStr nb).eqVariant (ofOpt (some e.dst)) = true ∧ (NodeId.fromStr nb).inp inp = some e.dstInput := by
  obtain ⟨_, _, h1, _⟩ := chain_laid_out hu hd hr hb hp
  obtain ⟨ca, ga, va, pa1, pa2, pa3⟩ := h1 a _ pa ha hpa hia
  obtain ⟨cb, gb, vb, pb1, pb2, pb3⟩ := h1 b _ pb hbn hpb hib
  have hbu := built hd ops ch hb
  have he : ch.error = none := by
    by_contra hc
    obtain ⟨e, he⟩ := Option.ne_none_iff_exists'.mp hc
    unfold Chain.place at hp
    rw [he] at hp
    simp only [Option.some.injEq, Prod.mk.injEq] at hp
    exact absurd hp.2.2 (by simp)
  have hma : BuildOp.node na ia (some out) ∈ ops := List.mem_of_mem_filter (List.mem_of_getElem? ha)
  have hmb : BuildOp.node nb (some inp) ob ∈ ops := List.mem_of_mem_filter (List.mem_of_getElem? hbn)
  obtain ⟨ka1, ka2, ka3⟩ := hbu.known he _ _ _ hma
  obtain ⟨kb1, kb2, kb3⟩ := hbu.known he _ _ _ hmb
  obtain ⟨jo, hjo⟩ := ka3 out rfl
  obtain ⟨ji, hji⟩ := kb2 inp rfl
  have hsa : ∃ n, ca.nodeId = some n := by
    cases hc : ca.nodeId with
    | some n => exact ⟨n, rfl⟩
    | none =>
      exfalso
      rw [hc] at va
      refine hna (ka1 ?_)
      cases hf : NodeId.fromStr na with
      | nop => rfl
      | node t i => rw [hf] at va; simp [ofOpt, NodeId.eqVariant] at va
  have hsb : ∃ n, cb.nodeId = some n := by
    cases hc : cb.nodeId with
    | some n => exact ⟨n, rfl⟩
    | none =>
      exfalso
      rw [hc] at vb
      refine hnb (kb1 ?_)
      cases hf : NodeId.fromStr nb with
      | nop => rfl
      | node t i => rw [hf] at vb; simp [ofOpt, NodeId.eqVariant] at vb
  obtain ⟨sa, hsa⟩ := hsa
  obtain ⟨sb, hsb⟩ := hsb
  have hstep : (outSide d).offsPos pa = some pb := by
    unfold outSide
    unfold PlaceOf at hpa hpb
    by_cases hdo : d ∈ outDirs
    · rw [if_pos hdo] at hab ⊢
      subst hab
      rw [walk_snoc, hpa] at hpb
      exact hpb
    · rw [if_neg hdo] at hab ⊢
      subst hab
      rw [walk_snoc, hpb] at hpa
      exact CellDir.offsPos_flip d hd pb pa hpa
  refine ⟨⟨sa, jo, sb, ji⟩, ⟨?_, pb, ca, cb, hstep, ga, gb, hsa, ?_, hsb, ?_⟩, by rw [hsa] at va; exact va, hjo, by rw [hsb] at vb; exact vb, hji⟩
  · unfold outSide
    cases d <;> first | exact absurd rfl hd | decide
  · rw [pa2]; exact hjo
  · have : (outSide d).flip = inSide d := by cases d <;> first | exact absurd rfl hd | decide
    rw [this, pb1]; exact hji

/-- **C36** If a name of a node, an input or an output is not known, or the parameter of a cell, `place` returns an error, and the
matrix is as before: no cell and no parameter is changed. -/
theorem bad_names_change_nothing {unused : NodeId → Option NodeId} {d : CellDir} (hd : d ≠ .C) {ops : List (BuildOp V)} {ch ch' : Chain V}
    {m m' : Patch V} {x y : Nat} {r : Except ChainError Unit} (hb : (Chain.new d).build ops = some ch) (hp : ch.place unused m x y = some (ch', m', r)) :
    ((∃ n i o, BuildOp.node n i o ∈ ops ∧ ¬ NamesKnown n i o) → ∃ e, r = .error e) ∧ (∀ e, r = .error e → m' = m) := by
  have hbu := built hd ops ch hb
  unfold Chain.place at hp
  constructor
  · rintro ⟨n, i, o, hm, hk⟩
    cases he : ch.error with
    | none => exact absurd (hbu.known he n i o hm) hk
    | some e =>
      rw [he] at hp
      simp only [Option.some.injEq, Prod.mk.injEq] at hp
      exact ⟨e, hp.2.2.symm⟩
  · intro e hre
    cases he : ch.error with
    | some e' =>
      rw [he] at hp
      simp only [Option.some.injEq, Prod.mk.injEq] at hp
      exact hp.2.1.symm
    | none =>
      rw [he] at hp
      simp only at hp
      split at hp
      · cases hp
      · simp only [Option.some.injEq, Prod.mk.injEq] at hp
        rw [hre] at hp
        exact absurd hp.2.2 (by simp)

/-! ## Nodes and parameters -/

theorem build_error {d : CellDir} (hd : d ≠ .C) : ∀ {ops : List (BuildOp V)} {ch ch' : Chain V}, ch.dir = d → ch.build ops = some ch' → ch'.error = none → ch.error = none
  | [], ch, ch', _, h, he => by
    simp only [Chain.build, List.foldlM_nil, Option.pure_def, Option.some.injEq] at h
    rw [h]; exact he
  | op :: ops, ch, ch', hdir, h, he => by
    unfold Chain.build at h
    rw [List.foldlM_cons] at h
    obtain ⟨ch1, h1, h2⟩ := Option.bind_eq_some_iff.mp h
    have := build_error hd (ops := ops) (step_dir hd hdir h1) h2 he
    by_contra hc
    have h3 := step_error hd hdir h1 (Option.isSome_iff_ne_none.mpr hc)
    rw [this] at h3; cases h3

theorem place_ok {unused : NodeId → Option NodeId} {ch ch' : Chain V} {m m' : Patch V} {x y : Nat} (hp : ch.place unused m x y = some (ch', m', .ok ())) :
    ch.error = none ∧ ch' = ch ∧ ∃ s, ch.links.foldlM (placeLink unused) ⟨m.grid, ((x : Int), (y : Int)), []⟩ = some s ∧
      m' = ⟨s.grid, setParams m.params (ch.links.flatMap (·.params))⟩ := by
  unfold Chain.place at hp
  cases he : ch.error with
  | some e =>
    rw [he] at hp
    simp only [Option.some.injEq, Prod.mk.injEq] at hp
    exact absurd hp.2.2 (by simp)
  | none =>
    rw [he] at hp
    simp only at hp
    cases hl : ch.links.foldlM (placeLink unused) ⟨m.grid, ((x : Int), (y : Int)), []⟩ with
    | none => rw [hl] at hp; cases hp
    | some s =>
      rw [hl] at hp
      simp only [Option.some.injEq, Prod.mk.injEq] at hp
      exact ⟨rfl, hp.1.symm, s, rfl, hp.2.1.symm⟩

/-- The cell of the `k`-th call and the link behind it. -/
theorem placed_cell {unused : NodeId → Option NodeId} {d : CellDir} (hd : d ≠ .C) {ops : List (BuildOp V)} {ch ch' : Chain V}
    {m m' : Patch V} {x y : Nat} (hr : m.grid.Reachable) (hb : (Chain.new d).build ops = some ch)
    (hp : ch.place unused m x y = some (ch', m', .ok ())) :
    ∃ ids, assign unused [] ch.links = some ids ∧ List.Forall₂ (Made d) (cellOps ops) ch.links ∧
      ∀ (k : Nat) (op : BuildOp V) (p : Pos), (cellOps ops)[k]? = some op → PlaceOf d x y k p → m.grid.InGrid p →
      ∃ c l id, m'.grid.get p.1 p.2 = some c ∧ ch.links[k]? = some l ∧ ids[k]? = some id ∧ c.nodeId = toOpt id ∧ Made d op l := by
  have hbu := built hd ops ch hb
  obtain ⟨he, _, s, hl, rfl⟩ := place_ok hp
  obtain ⟨ids, a1, _, _, _, a5, _⟩ := place_loop hd ch.links _ s hbu.ldir hr hl
  have hf := hbu.cells he
  refine ⟨ids, a1, hf, ?_⟩
  intro k op p hk hpo hin
  obtain ⟨l, hlk, has⟩ := forall₂_get hf k op hk
  have hlen := assign_length _ _ _ a1
  have hkl : k < ids.length := by rw [hlen]; exact (List.getElem?_eq_some_iff.mp hlk).1
  have hid : ids[k]? = some ids[k] := List.getElem?_eq_getElem hkl
  exact ⟨_, l, ids[k], a5 k l ids[k] p hlk hid ((walk_iff d (x, y) p k).mp hpo) hin, hlk, hid, rfl, has⟩

/-- **C73** The first cell of each type of node gets the unused node that the matrix gives out. -/
theorem first_gets_unused {unused : NodeId → Option NodeId} {d : CellDir} (hd : d ≠ .C) {ops : List (BuildOp V)} {ch ch' : Chain V}
    {m m' : Patch V} {x y : Nat} (hr : m.grid.Reachable) (hb : (Chain.new d).build ops = some ch)
    (hp : ch.place unused m x y = some (ch', m', .ok ())) {k : Nat} {n : String} {i o : Option String} {p : Pos}
    (hk : (cellOps ops)[k]? = some (.node n i o)) (hfirst : ∀ j op, j < k → (cellOps ops)[j]? = some op → op.nodeName ≠ n)
    (hpo : PlaceOf d x y k p) (hin : m.grid.InGrid p) :
    ∃ c id, m'.grid.get p.1 p.2 = some c ∧ ofOpt c.nodeId = id ∧ unused (NodeId.fromStr n) = some id := by
  obtain ⟨ids, a1, hf, h⟩ := placed_cell hd hr hb hp
  obtain ⟨c, l, id, h1, h2, h3, h4, h5⟩ := h k _ p hk hpo hin
  refine ⟨c, id, h1, by rw [h4]; exact ofOpt_toOpt id, ?_⟩
  have hn := h5.2.2
  have := (assign_inst ch.links [] ids a1 k l id h2 h3).2 rfl
  rw [← h5.2.1 n i o rfl]
  refine this.1 ?_
  unfold sameName
  rw [List.length_eq_zero_iff, List.filter_eq_nil_iff]
  intro l' hl'
  obtain ⟨j, hj, rfl⟩ := List.mem_iff_getElem.mp hl'
  have hjk : j < k := by simp at hj; omega
  have hjl : j < ch.links.length := by simp at hj; omega
  have hjo : j < (cellOps ops).length := by rw [hf.length_eq]; exact hjl
  obtain ⟨lj, e1, e2⟩ := forall₂_get hf j _ (List.getElem?_eq_getElem hjo)
  have : ch.links[j] = lj := by rw [List.getElem?_eq_getElem hjl] at e1; exact Option.some.inj e1
  simp only [List.getElem_take, this, decide_eq_true_eq]
  rw [e2.2.2, hn]
  exact hfirst j _ hjk (List.getElem?_eq_getElem hjo)

theorem inst_toInstance (t : Fin nodeTable.length) (q : Fin 256) {i : Nat} (h : i < 256) : ((NodeId.node t q).toInstance i).inst = i := Nat.mod_eq_of_lt h

/-- **C73** No two cells of a chain get the same node, as long as the instance numbers do not reach 256 (they are kept in 8 bits). Missing
from the full claim: see `second_node_in_use` (only the first one of a type is known to be unused in the matrix) and `params_on_other_node`. -/
theorem own_nodes_partial {unused : NodeId → Option NodeId} {d : CellDir} (hd : d ≠ .C) {ops : List (BuildOp V)} {ch ch' : Chain V}
    {m m' : Patch V} {x y : Nat} (hr : m.grid.Reachable) (hb : (Chain.new d).build ops = some ch)
    (hp : ch.place unused m x y = some (ch', m', .ok ())) (hmax : ∀ id id', unused id = some id' → id'.inst + (cellOps ops).length ≤ 256)
    (hu : SameType unused) {j k : Nat} {opj opk : BuildOp V} {pj pk : Pos} {cj ck : Cell TNode} (hjk : j < k) (hj : (cellOps ops)[j]? = some opj) (hk : (cellOps ops)[k]? = some opk)
    (hpj : PlaceOf d x y j pj) (hpk : PlaceOf d x y k pk) (hij : m.grid.InGrid pj) (hik : m.grid.InGrid pk)
    (hcj : m'.grid.get pj.1 pj.2 = some cj) (hck : m'.grid.get pk.1 pk.2 = some ck) {n : TNode} (hn : cj.nodeId = some n) : ck.nodeId ≠ some n := by
  intro hn'
  obtain ⟨ids, a1, hf, h⟩ := placed_cell hd hr hb hp
  obtain ⟨_, lj, idj, b1, b2, b3, b4, b5⟩ := h j _ pj hj hpj hij
  obtain ⟨_, lk, idk, d1, d2, d3, d4, d5⟩ := h k _ pk hk hpk hik
  rw [hcj] at b1
  rw [hck] at d1
  cases b1; cases d1
  have ej : idj = .node n.1 n.2 := by rw [← ofOpt_toOpt idj, ← b4, hn]; rfl
  have ek : idk = .node n.1 n.2 := by rw [← ofOpt_toOpt idk, ← d4, hn']; rfl
  -- both of the same name
  have vj := assign_variant hu _ _ _ a1 j lj idj b2 b3
  have vk := assign_variant hu _ _ _ a1 k lk idk d2 d3
  have hname : ∀ (a b : NodeId), a.eqVariant b = true → a.name = b.name := by
    intro a b hab
    cases a <;> cases b <;> simp [NodeId.eqVariant, NodeId.name] at hab ⊢
    rw [hab]
  have hnm : (ofOpt lj.cell.nodeId).name = (ofOpt lk.cell.nodeId).name := by
    rw [hname _ _ vj, hname _ _ vk, ej, ek]
  have hlt := sameName_lt ch.links hjk b2 hnm
  have hle : sameName ch.links k (ofOpt lk.cell.nodeId).name ≤ k := sameName_le _ _ _
  have hkl : k < ch.links.length := (List.getElem?_eq_some_iff.mp d2).1
  rw [← hf.length_eq] at hkl
  -- the first one of the name
  obtain ⟨k0, l0, id0, f1, f2, f3, f4, f5⟩ := first_of_name ch.links ids (assign_length _ _ _ a1) b2
  have g0 := ((assign_inst ch.links [] ids a1 k0 l0 id0 f1 f2).2 rfl).1 (by rw [f3]; exact f4)
  have hm := hmax _ _ g0
  have hj' : idj.inst = id0.inst + sameName ch.links j (ofOpt lj.cell.nodeId).name := by
    by_cases hz : j = k0
    · subst hz
      rw [f2] at b3
      cases b3
      rw [f4]; simp
    · have := ((assign_inst ch.links [] ids a1 j lj idj b2 b3).2 rfl).2 k0 l0 id0 (by omega) f1 f2 f3 f4
      rw [this]
      have hv := vj
      rw [ej] at hv
      cases hx : ofOpt lj.cell.nodeId with
      | nop => rw [hx] at hv; simp [NodeId.eqVariant] at hv
      | node t q =>
        have : sameName ch.links j (ofOpt lj.cell.nodeId).name ≤ j := sameName_le _ _ _
        rw [hx] at this
        exact inst_toInstance t q (by omega)
  have hk' : idk.inst = id0.inst + sameName ch.links k (ofOpt lk.cell.nodeId).name := by
    have := ((assign_inst ch.links [] ids a1 k lk idk d2 d3).2 rfl).2 k0 l0 id0 (by omega) f1 f2 (f3.trans hnm) (by rw [← hnm]; exact f4)
    rw [this]
    have hv := vk
    rw [ek] at hv
    cases hx : ofOpt lk.cell.nodeId with
    | nop => rw [hx] at hv; simp [NodeId.eqVariant] at hv
    | node t q =>
      rw [hx] at hle
      exact inst_toInstance t q (by omega)
  rw [ej] at hj'
  rw [ek] at hk'
  rw [hnm] at hj' hlt
  omega

/-- **C73** Parameters that were not given for any cell of the chain keep their values, and a parameter given by one call for the cell just added
is set: on the first node of the type of the cell (instance 0), whatever node the cell got. Missing: see `params_on_other_node`. -/
theorem params_set_partial {unused : NodeId → Option NodeId} {d : CellDir} (hd : d ≠ .C) {pre post : List (BuildOp V)} {n : String} {i o : Option String}
    {s : String} {v : ParamId → V} {ch ch' : Chain V} {m m' : Patch V} {x y : Nat}
    (hb : (Chain.new d).build (pre ++ [.node n i o, .set s v] ++ post) = some ch) (hp : ch.place unused m x y = some (ch', m', .ok ()))
    (hother : ∀ w, BuildOp.set s w ∉ pre ++ post) :
    ∃ pid, (NodeId.fromStr n).inpParam s = some pid ∧ m'.params pid = some (v pid) := by
  obtain ⟨he, _, st, _, rfl⟩ := place_ok hp
  obtain ⟨ch1, h1, ch2, h2, ch3, h3, h4⟩ := build_split hb
  simp only [Chain.step, Option.some.injEq] at h2
  have hbu := built hd pre ch1 h1
  have herr3 : ch3.error = none := build_error hd (by
    rw [step_dir hd (step_dir hd hbu.dir (op := .node n i o) (by simp only [Chain.step, h2])) h3]) h4 he
  have herr2 : ch2.error = none := by
    by_contra hc
    have := step_error hd (step_dir hd hbu.dir (op := .node n i o) (by simp only [Chain.step, h2])) h3 (Option.isSome_iff_ne_none.mpr hc)
    rw [herr3] at this; cases this
  rcases node_spec hd ch1 hbu.dir n i o with ⟨hk, c, c1, c2, e⟩ | ⟨_, e, _⟩
  · rw [h2] at e
    subst e
    simp only [Chain.step, Chain.set, Chain.addLink, List.getElem?_append_right (Nat.le_refl _), Nat.sub_self, List.getElem?_cons_zero, c1] at h3
    cases hpid : (NodeId.fromStr n).inpParam s with
    | none =>
      rw [hpid] at h3
      simp only [Option.some.injEq] at h3
      subst h3
      cases herr3
    | some pid =>
      rw [hpid] at h3
      simp only [Option.some.injEq] at h3
      refine ⟨pid, rfl, ?_⟩
      have hpn := inpParam_name hpid
      -- nothing before
      have hno : ∀ e ∈ ch1.links.flatMap (·.params), e.1.name ≠ s :=
        build_params_name h1 (by simp [Chain.new]) (fun w hw => hother w (by simp [hw]))
      have hl3 : ch3.links.flatMap (·.params) = ch1.links.flatMap (·.params) ++ [(pid, v pid)] := by
        rw [← h3]
        simp [List.set_append_right]
      have hq := build_params_sub h4 (s := s) (fun w hw => hother w (by simp [hw]))
      refine setParams_eq ?_ ?_
      · intro e hm hep
        have := (hq e (by rw [hep]; exact hpn)).mp hm
        rw [hl3] at this
        rcases List.mem_append.mp this with h | h
        · exact absurd (by rw [hep]; exact hpn) (hno e h)
        · simp only [List.mem_singleton] at h
          rw [h]
      · exact ⟨(pid, v pid), (hq _ hpn).mpr (by rw [hl3]; simp), rfl⟩
  · rw [h2] at e
    rw [herr2] at e; cases e

/-- **C73** Parameters of nodes that no cell of the chain has by name keep their values. -/
theorem other_params_kept {unused : NodeId → Option NodeId} {ch ch' : Chain V} {m m' : Patch V} {x y : Nat} {ops : List (BuildOp V)} {d : CellDir}
    {r : Except ChainError Unit} (hb : (Chain.new d).build ops = some ch) (hp : ch.place unused m x y = some (ch', m', r)) {pid : ParamId}
    (hne : ∀ w, BuildOp.set pid.name w ∉ ops) : m'.params pid = m.params pid := by
  unfold Chain.place at hp
  split at hp
  · simp only [Option.some.injEq, Prod.mk.injEq] at hp
    rw [← hp.2.1]
  · split at hp
    · cases hp
    · simp only [Option.some.injEq, Prod.mk.injEq] at hp
      rw [← hp.2.1]
      refine setParams_other ?_
      intro e hm he
      exact build_params_name hb rfl hne e hm (by rw [he])

/-! ## Findings -/

/-- A chain of two oscillators. -/
def twoSines : List (BuildOp Nat) := [.node "sin" none (some "sig"), .set "freq" (fun _ => 7), .node "sin" (some "pm") none]

/-- The first oscillator is in use, the second is not, the third is in use. -/
def freeIsOne (id : NodeId) : Option NodeId := some (id.toInstance 1)

theorem freeIsOne_same : SameType freeIsOne := by
  intro id id' h
  simp only [freeIsOne, Option.some.injEq] at h
  subst h
  exact eqVariant_toInstance _ _

def empty : Patch Nat := ⟨Matrix.new 4 4, fun _ => none⟩

/-- The result of placing `ops` on an empty grid of 4 by 4. -/
def run (unused : NodeId → Option NodeId) (d : CellDir) (ops : List (BuildOp Nat)) (x y : Nat) : Option (Chain Nat × Patch Nat × Bool) :=
  ((Chain.new d).build ops).bind (fun ch => (ch.place unused empty x y).map (fun r => (r.1, r.2.1, match r.2.2 with | .ok _ => true | .error _ => false)))

/-- The node at a position after placing. -/
def nodeAt (r : Option (Chain Nat × Patch Nat × Bool)) (x y : Nat) : Option (NodeId × Bool) :=
  r.bind (fun r => (r.2.1.grid.get x y).map (fun c => (ofOpt c.nodeId, r.2.2)))

/-- **C73** does not hold in full: the frequency given for a cell is set on another node. The first oscillator is in use, so the cell gets the second
one; but the frequency is set on the first, the one in use, and the second keeps its own. -/
theorem params_on_other_node :
    nodeAt (run freeIsOne .BR twoSines 0 0) 0 0 = some ((NodeId.fromStr "sin").toInstance 1, true) ∧
    ((run freeIsOne .BR twoSines 0 0).map (fun r => (((NodeId.fromStr "sin").inpParam "freq").bind r.2.1.params,
      (((NodeId.fromStr "sin").toInstance 1).inpParam "freq").bind r.2.1.params))) = some (some 7, none) := by
  decide +kernel

/-- **C73** does not hold in full: only the first cell of a type gets an unused node. The second one gets the next instance, in use or not; `unused`
gives out instance 1, as long as instance 1 is free, also if instance 2 is in use. -/
theorem second_node_in_use : nodeAt (run freeIsOne .BR twoSines 0 0) 1 0 = some ((NodeId.fromStr "sin").toInstance 2, true) := by
  decide +kernel

/-- **C73** does not hold in full: which node is unused is looked up in the engine, and placing does not tell the engine (`sync` does). Two chains
placed one after the other without `sync` share their nodes: the same node sits at both places. -/
theorem chains_share_nodes {unused : NodeId → Option NodeId} {d : CellDir} (hd : d ≠ .C) {n : String} {i o : Option String} {chA chA' chB chB' : Chain V}
    {m m1 m2 : Patch V} {x y x' y' : Nat} (hr : m.grid.Reachable) (hA : (Chain.new d).build [.node n i o] = some chA) (hB : (Chain.new d).build [.node n i o] = some chB)
    (hpA : chA.place unused m x y = some (chA', m1, .ok ())) (hpB : chB.place unused m1 x' y' = some (chB', m2, .ok ()))
    (hin : m.grid.InGrid (x, y)) (hin' : m.grid.InGrid (x', y')) (hne : (x, y) ≠ (x', y')) :
    ∃ c c', m2.grid.get x y = some c ∧ m2.grid.get x' y' = some c' ∧ c.nodeId = c'.nodeId := by
  have hbA := built hd _ chA hA
  obtain ⟨_, _, s, hl, rfl⟩ := place_ok hpA
  obtain ⟨_, _, hw, hh, hr1, _, _⟩ := place_loop hd chA.links _ s hbA.ldir hr hl
  have hfirst : ∀ (j : Nat) (op : BuildOp V), j < 0 → (cellOps [BuildOp.node n i o])[j]? = some op → op.nodeName ≠ n := by omega
  obtain ⟨c, id, h1, h2, h3⟩ := first_gets_unused hd hr hA hpA (k := 0) (n := n) (p := (x, y)) rfl hfirst rfl hin
  have hin1 : s.grid.InGrid (x', y') := by unfold Matrix.InGrid at hin' ⊢; simp only at hw hh; rw [hw, hh]; exact hin'
  obtain ⟨c', id', g1, g2, g3⟩ := first_gets_unused hd hr1 hB hpB (k := 0) (n := n) (p := (x', y')) rfl hfirst rfl hin1
  have hbB := built hd _ chB hB
  obtain ⟨_, _, s2, hl2, rfl⟩ := place_ok hpB
  have hbe := hbB.cells (by assumption)
  obtain ⟨_, _, _, _, _, _, k2⟩ := place_loop hd chB.links ⟨s.grid, ((x' : Int), (y' : Int)), []⟩ s2 hbB.ldir hr1 hl2
  refine ⟨c, c', ?_, g1, ?_⟩
  · rw [k2 (x, y) ?_]
    · exact h1
    · intro k hk
      have : chB.links.length = 1 := by rw [← hbe.length_eq]; rfl
      have hk0 : k = 0 := by omega
      subst hk0
      simp only [posFrom]
      intro he
      apply hne
      simp only [Prod.mk.injEq, Nat.cast_inj] at he ⊢
      exact ⟨he.1.symm, he.2.symm⟩
  · have : id = id' := Option.some.inj (h3.symm.trans g3)
    subst this
    have hto : ∀ a b : Option TNode, ofOpt a = ofOpt b → a = b := by
      intro a b hab
      cases a <;> cases b <;> simp [ofOpt] at hab ⊢
      exact Prod.ext hab.1 hab.2
    exact hto _ _ (h2.trans g2.symm)

/-- **C36** A wrong name of a node followed by a parameter panics while building: the error is not returned by `place`. -/
theorem unknown_node_then_param_panics {d : CellDir} (n s : String) (v : ParamId → V) (h : NodeId.fromStr n = .nop) (hn : n ≠ "nop") :
    (Chain.new d).build [.node n none none, .set s v] = none := by
  have : spawnCell n = none := by unfold spawnCell; rw [if_pos ⟨h, hn⟩]
  simp only [Chain.build, List.foldlM_cons, Chain.step, Chain.node, this, Option.bind_eq_bind, Option.bind_some]
  rfl

/-- **C36** The error of a chain is returned once: placing the same chain again places what is there of it and reports success. -/
theorem error_returned_once : ∃ (ops : List (BuildOp Nat)) (ch ch' ch'' : Chain Nat) (m'' : Patch Nat) (e : ChainError),
    (Chain.new .BR).build ops = some ch ∧ ch.place freeIsOne empty 0 0 = some (ch', empty, .error e) ∧
    ch'.place freeIsOne empty 0 0 = some (ch'', m'', .ok ()) ∧ (∃ n i o, BuildOp.node n i o ∈ ops ∧ ¬ NamesKnown n i o) := by
  refine ⟨[.node "sin" none none, .node "nosuch" none none], _, _, _, _, _, rfl, rfl, rfl, "nosuch", none, none, by simp, ?_⟩
  intro h
  exact absurd (h.1 (by decide +kernel)) (by decide)

/-- **C36** A chain in the direction `C` puts all its cells at one place: only the last one is left. -/
theorem centre_chain_collapses : nodeAt (run freeIsOne .C [.node "sin" none none, .node "amp" none none] 1 1) 1 1 = some ((NodeId.fromStr "amp").toInstance 1, true) ∧
    nodeAt (run freeIsOne .C [.node "sin" none none, .node "amp" none none] 1 1) 2 1 = some (.nop, true) := by
  decide +kernel

/-! ## The hypotheses are met -/

/-- The chain of the documentation, in the direction `BR`. -/
def docChain : List (BuildOp Nat) :=
  [.node "sin" none (some "sig"), .set "freq" (fun _ => 220), .node "amp" (some "inp") (some "sig"), .set "att" (fun _ => 5), .node "out" (some "ch1") none]

theorem empty_reachable : empty.grid.Reachable := ⟨4, 4, [], rfl⟩

example : ∃ ch ch' m', (Chain.new .BR).build docChain = some ch ∧ ch.place freeIsOne empty 0 1 = some (ch', m', .ok ()) ∧
    PlaceOf .BR 0 1 0 (0, 1) ∧ PlaceOf .BR 0 1 1 (1, 1) ∧ PlaceOf .BR 0 1 2 (2, 2) ∧ empty.grid.InGrid (2, 2) := by
  refine ⟨_, _, _, rfl, rfl, ?_⟩
  unfold PlaceOf Matrix.InGrid
  decide +kernel

example : ∃ ch ch' m', (Chain.new .BR).build docChain = some ch ∧ ch.place freeIsOne empty 0 1 = some (ch', m', .ok ()) ∧
    ∃ e, m'.grid.Wire (1, 1) .BR e ∧ (NodeId.fromStr "out").inp "ch1" = some e.dstInput := by
  refine ⟨_, _, _, rfl, rfl, ?_⟩
  obtain ⟨e, h1, _, _, _, h2⟩ := chain_wired freeIsOne_same (d := .BR) (by decide) (ops := docChain) (m := empty) (x := 0) (y := 1) empty_reachable rfl rfl
    (a := 1) (b := 2) (pa := (1, 1)) (pb := (2, 2)) (by decide) (na := "amp") (nb := "out") rfl rfl (by decide) (by decide) (by unfold PlaceOf; decide +kernel)
    (by unfold PlaceOf; decide +kernel) (by unfold Matrix.InGrid; decide +kernel) (by unfold Matrix.InGrid; decide +kernel)
  exact ⟨e, h1, h2⟩

example : ∃ ch ch' m', (Chain.new .BR).build docChain = some ch ∧ ch.place freeIsOne empty 0 1 = some (ch', m', .ok ()) ∧
    ∃ pid, (NodeId.fromStr "amp").inpParam "att" = some pid ∧ m'.params pid = some 5 := by
  refine ⟨_, _, _, rfl, rfl, ?_⟩
  refine params_set_partial (d := .BR) (by decide) (pre := [.node "sin" none (some "sig"), .set "freq" (fun _ => 220)]) (post := [.node "out" (some "ch1") none])
    (i := some "inp") (o := some "sig") (v := fun _ => 5) (unused := freeIsOne) (m := empty) (x := 0) (y := 1) rfl rfl ?_
  intro w hw
  simp at hw

end HexoDSP.ChainProps
