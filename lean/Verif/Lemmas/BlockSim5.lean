import Verif.Lemmas.BlockSim4
/-! The compiled program does what the diagram says: all blocks, all effects, the whole program. -/

set_option linter.unusedSectionVars false
set_option linter.dupNamespace false

namespace HexoDSP.Block

section
variable {F S : Type} {a : Area} {L : Lang} {parse : String → Option F} {M : Machine F S} {ss : List Sink}

/-- Any block. -/
theorem block_sim (hS : Setup a L parse M) {k : Nat} (hV : VProp a L parse M ss k) {o : Pos} {b : Block} (hk : rank a o < k + 1)
    {nm : String} {P : Pos → Prop} {cs : CS}
    {D : Nat → Prop} {W : Pos → Prop} (h : EHyp a L o b nm P cs D W) {n m : Nat} (hn : k + 1 ≤ n) (hm : k ≤ m) :
    EProp a L parse M ss o b (n + 1) (m + 1) nm P cs D W := by
  obtain ⟨t, hB⟩ := hS.blocks o b h.mem
  by_cases h1 : b.typ = "zero" ∨ b.typ = "value" ∨ b.typ = "get"
  · exact leaf_sim hS hB h h1
  by_cases h2 : b.typ = "->"
  · exact wire_sim hS hV hk hB h hn hm h2
  by_cases h3 : b.typ = "set"
  · exact set_sim hS hV hk hB h hn hm h3
  by_cases h4 : b.typ = "->2" ∨ b.typ = "->3"
  · exact fan_sim hS hV hk hB h hn hm h4
  have hs : ¬ Special b.typ := by
    have := hB.shape.inner
    unfold Special
    tauto
  have hz : b.typ ≠ "zero" := by tauto
  by_cases h5 : 2 ≤ (outNames L b.typ).length
  · exact multi_sim hS hV hk hB h hn hm hs hz h5
  · exact op_sim hS hV hk hB h hn hm hs hz (by omega)

theorem Step.use {X : Int} {p : Pos} (hX : p.1 = X) {cs : CS} {D : Nat → Prop} {W : Pos → Prop} (h : CInv a L cs D W)
    (hp : ∀ q, W q → q.1 < X → Settled a D q) : Step a L X (fun q => q = p) (fun _ => False) cs D W cs D (fun q => W q ∨ q = p) := by
  refine ⟨h.wmono (fun q hq => .inl hq), fun _ h => h, fun _ h => .inl h, Nat.le_refl _, fun _ h => .inl h, ?_, ?_, fun _ h => .inl h⟩
  · rintro q (hq | hq) hlt
    · exact hp q hq hlt
    · rw [hq] at hlt; omega
  · rintro q (hq | hq)
    · exact .inl hq
    · exact .inr (.inl hq)

/-- A slot without an output. -/
theorem zero_sim (hS : Setup a L parse M) {p : Pos} {inp : String} (ht : target a inp p = (inp, "", .zero))
    (hw : ∀ (run : Pos → Run F S → (String → F) × Run F S) r, wireFrom a M.zero run p r = (M.zero, r)) {n m : Nat}
    {cs : CS} {D : Nat → Prop} {W : Pos → Prop} (hc : CInv a L cs D W)
    (hp : ∀ q, W q → q.1 < p.1 → Settled a D q) :
    Sim a L M (Block.trans L parse (keyGraph a "zero" ss) (n + 1) (target a inp p).2.2 (portOpt (target a inp p).2.1) cs)
      (fun r => wireFrom a M.zero (runAt M L parse a m) p r) True p.1 (fun q => q = p) (fun _ => False) cs D W := by
  obtain ⟨t, z1, z2, z3⟩ := hS.zero
  have hon : outNames L "zero" = [""] := by
    unfold outNames; rw [z1]; simp only; rw [(z2.leaf (.inl rfl)).2]; rfl
  have hinfo : (keyGraph a "zero" ss).info .zero = (0, "zero", "") := rfl
  have hkids : (keyGraph a "zero" ss).kids .zero = [] := rfl
  refine ⟨.node 0 (portOpt "") "zero" "" [] [], .literal M.zero, cs, D, _, ?_, ?_, Step.use rfl hc hp, fun _ h => h.elim, ?_⟩
  · rw [ht]
    simp only
    rw [trans_op hinfo (hc.var_zero _) (by unfold Special; decide), hkids]
    simp only [List.map_nil, transKids, transOp, hon]
  · simp only [toJit, jitNode]; rfl
  · intro env r hr
    refine ⟨M.zero, env, by simp only [exec], ?_, ?_⟩
    · intro _; simp only [hw]
    · simp only [hw]; exact hr

/-- All wires. -/
theorem v_all (hS : Setup a L parse M) : ∀ k, VProp a L parse M ss k := by
  intro k
  induction k with
  | zero =>
    intro p inp hr n m hn hm cs D W hc hp hw
    obtain ⟨n, rfl⟩ : ∃ n', n = n' + 1 := ⟨n - 1, by omega⟩
    have hnone : a.refAtOrigin p = none := by
      cases h : a.refAtOrigin p with
      | none => rfl
      | some bo => exact absurd (hr bo.2 bo.1 h) (Nat.not_lt_zero _)
    exact zero_sim hS (by simp only [target, hnone]) (by intro run r; simp only [wireFrom, hnone]) hc hp
  | succ k ih =>
    intro p inp hr n m hn hm cs D W hc hp hw
    obtain ⟨n, rfl⟩ : ∃ n', n = n' + 1 := ⟨n - 1, by omega⟩
    obtain ⟨m, rfl⟩ : ∃ m', m = m' + 1 := ⟨m - 1, by omega⟩
    cases href : a.refAtOrigin p with
    | none => exact zero_sim hS (by simp only [target, href]) (by intro run r; simp only [wireFrom, href]) hc hp
    | some bo =>
      obtain ⟨b, o⟩ := bo
      cases hname : b.outputs.getD (p.2 - o.2).toNat none with
      | none => exact zero_sim hS (by simp only [target, href, hname]) (by intro run r; simp only [wireFrom, href, hname]) hc hp
      | some name =>
        have htg : target a inp p = (inp, name, .block o) := by simp only [target, href, hname]
        have hwf : ∀ r, wireFrom a M.zero (runAt M L parse a (m + 1)) p r =
            ((runAt M L parse a (m + 1) o r).1 name, (runAt M L parse a (m + 1) o r).2) := by
          intro r; simp only [wireFrom, href, hname]
        obtain ⟨hmem, row, hrow, hpr, hnm⟩ := IsOut.row hS.area (p := p) (o := o) (b := b) (name := name) ⟨href, hname⟩
        have hlk := (mem_iff_lookup hS.area.load.keys o b).1 hmem
        obtain ⟨t, hB⟩ := hS.blocks o b hmem
        have hcol : p.1 = o.1 := by rw [hpr]
        have hne : b.outputRows ≠ [] := by intro h; rw [h] at hrow; cases hrow
        have hon : name ∈ outNames L b.typ := by rw [← hnm]; exact out_name hB hrow
        rw [htg]
        simp only [hwf]
        by_cases hd : D b.id
        · by_cases hcd : Cached L b
          · obtain ⟨v, hv⟩ := hc.kept o b hmem hd hcd name hon
            refine ⟨.get 0 v, .var v, cs, D, _, ?_, by simp only [toJit], Step.use rfl hc hp, fun _ h => h.elim, ?_⟩
            · have hinfo := block_info (ss := ss) hlk
              simp only [Block.trans, hinfo, portOpt_getD, hv]
            · intro env r hrel
              obtain ⟨outs, ho⟩ := Option.isSome_iff_exists.1 ((hrel.done b.id).2 hd)
              have hrun : runAt M L parse a (m + 1) o r = (outs, r) := by simp only [runAt, hlk, ho]
              refine ⟨env.vars v, env, by simp only [exec], ?_, ?_⟩
              · intro _
                simp only [hrun]
                exact hrel.outs _ _ _ _ ho hv
              · simp only [hrun]; exact hrel
          · exact absurd (by rw [hpr]; exact hc.once o b hmem hd hcd row hrow) hw
        · have hE : EHyp a L o b name (fun q => q = p) cs D W := by
            refine ⟨hmem, hc, by rw [← hcol]; exact hp, hd, by intro q (hq : q = p); rw [hq]; exact hcol, ?_, .inr hon⟩
            intro hcd r' hr'
            rw [hpr, out_single hB (by unfold Cached at hcd; simp only [not_or] at hcd; omega) hr' hrow]
          obtain ⟨blk, j, cs', D', W', h1, h2, h3, h4, h5⟩ := block_sim hS ih (hr o b href) hE (n := n) (m := m) (by omega) (by omega)
          refine ⟨blk, j, cs', D', W', h1, h2, ?_, fun _ h => h.elim, ?_⟩
          · rw [hcol]
            refine ⟨h3.inv, h3.dmono, h3.wmono, h3.cnt, h3.ents, h3.pre, h3.neww, ?_⟩
            intro i hi
            rcases h3.newd i hi with g | ⟨o', b', g1, g2, g3, g4⟩
            · exact .inl g
            · refine .inr ⟨o', b', g1, g2, g3, .inl ?_⟩
              rcases g4 with g4 | g4
              · exact g4
              · rw [(hS.same hmem g1 (g2.trans g4)).2]; exact hne
          · intro env r hrel
            obtain ⟨v, env', e1, e2, e3⟩ := h5 env r hrel
            exact ⟨v, env', e1, fun _ => e2 hne, e3⟩

/-! ## The effects -/

/-- After the effects `seen`. -/
structure SInv (a : Area) (L : Lang) (cs : CS) (D : Nat → Prop) (W : Pos → Prop) (seen : Sink → Prop) : Prop where
  inv : CInv a L cs D W
  settled : ∀ q, W q → Settled a D q
  used : ∀ q, W q → (∃ o b, Consumes a q o b) ∨ ∃ r, seen (q.1, q.2, some r)
  ran : ∀ o b, (o, b) ∈ a.blocks → D b.id → b.outputRows = [] → seen (o.1, o.2, none)

theorem sink_sim (hS : Setup a L parse M) {n : Nat} (hn : a.blocks.length + 1 ≤ n) {s : Sink} (hs : a.HasSink s) {cs : CS} {D : Nat → Prop}
    {W : Pos → Prop} {seen : Sink → Prop} (h : SInv a L cs D W seen)
    (hseen : ∀ t, seen t → ¬ (t.1 = s.1 ∧ t.2.1 = s.2.1)) :
    ∃ blk j cs' D' W', Block.trans L parse (keyGraph a "zero" ss) (n + 1) (sinkKid s).2.2 (portOpt (sinkKid s).2.1) cs = .ok (blk, cs') ∧
      toJit L M.zero blk = .ok j ∧ SInv a L cs' D' W' (fun t => seen t ∨ t = s) ∧
      ∀ (env : Env F S) (r : Run F S), Rel cs D env r → ∃ v env', exec M j env = (v, env') ∧ Rel cs' D' env' (runSink M L parse a s r) := by
  obtain ⟨x, y, kind⟩ := s
  obtain ⟨o, b, hb, hx, hs⟩ := hs
  simp only at hx hs hseen
  rcases hs with ⟨hrows, hy, rfl⟩ | ⟨row, hrow, hy, rfl, hun⟩
  · obtain ⟨ox, oy⟩ := o
    simp only at hx hy
    subst hx hy
    have hE : EHyp a L (x, y) b "" (fun _ => False) cs D W := by
      refine ⟨hb, h.inv, fun q hq _ => h.settled q hq, ?_, fun _ h => h.elim, ?_, .inl ⟨hrows, rfl⟩⟩
      · intro hd
        exact hseen _ (h.ran _ b hb hd hrows) ⟨rfl, rfl⟩
      · intro _ r hr
        rw [hrows] at hr; cases hr
    obtain ⟨blk, j, cs', D', W', h1, h2, h3, h4, h5⟩ := block_sim hS (v_all (ss := ss) hS a.blocks.length)
      (Nat.lt_succ_of_lt (rank_lt_length hb)) hE (n := n) (m := a.blocks.length) hn (Nat.le_refl _)
    refine ⟨blk, j, cs', D', W', h1, h2, ⟨h3.inv, ?_, ?_, ?_⟩, ?_⟩
    · intro q hq
      rcases h3.neww q hq with g | g | ⟨g, -⟩
      · exact Settled.mono h3.dmono (h.settled q g)
      · exact g.elim
      · exact h3.pre q hq g
    · intro q hq
      rcases h3.neww q hq with g | g | ⟨-, g⟩
      · rcases h.used q g with g | ⟨r, g⟩
        · exact .inl g
        · exact .inr ⟨r, .inl g⟩
      · exact g.elim
      · exact .inl g
    · intro o' b' hb' hd hr
      rcases h3.newd _ hd with g | ⟨o2, b2, g1, g2, g3, g4⟩
      · exact .inl (h.ran o' b' hb' g hr)
      · have he := hS.same hb' g1 g2
        rcases g4 with g4 | g4
        · rw [he.2] at g4; exact absurd hr g4
        · have := hS.same hb hb' g4
          rw [this.1]
          exact .inr rfl
    · intro env r hr
      obtain ⟨v, env', e1, -, e3⟩ := h5 env r hr
      exact ⟨v, env', e1, e3⟩
  · have hnocons : ¬ ∃ o' b', Consumes a (x, y) o' b' := by
      rintro ⟨o', b', hb', r', hr', g1, g2⟩
      simp only at g1 g2
      exact hun o' b' r' hb' hr' ⟨by omega, by omega⟩
    have hnw : ¬ W (x, y) := by
      intro hw
      rcases h.used _ hw with g | ⟨r, g⟩
      · exact hnocons g
      · exact hseen _ g ⟨rfl, rfl⟩
    obtain ⟨blk, j, cs', D', W', h1, h2, h3, -, h5⟩ := v_all (ss := ss) hS a.blocks.length (x, y) ""
      (fun o' b' hr => rank_lt_length (refAtOrigin_mem hS.area hr).1) n (a.blocks.length + 1) hn (by omega) cs D W h.inv
      (fun q hq _ => h.settled q hq) hnw
    have hinfo : (keyGraph a "zero" ss).info (.res (x, y)) = (0, "<res>", "") := rfl
    have hkids : (keyGraph a "zero" ss).kids (.res (x, y)) = [target a "" (x, y)] := rfl
    refine ⟨.set "_res_" blk, .assign "_res_" j, cs', D', W', ?_, ?_, ⟨h3.inv, ?_, ?_, ?_⟩, ?_⟩
    · show Block.trans L parse (keyGraph a "zero" ss) (n + 1) (.res (x, y)) (portOpt "") cs = _
      rw [trans_res hinfo (h.inv.var_zero _) hkids, h1]
      rfl
    · simp only [toJit, h2]; rfl
    · intro q hq
      rcases h3.neww q hq with g | g | ⟨g, -⟩
      · exact Settled.mono h3.dmono (h.settled q g)
      · intro o' b' hc
        rw [g] at hc
        exact absurd ⟨o', b', hc⟩ hnocons
      · exact h3.pre q hq g
    · intro q hq
      rcases h3.neww q hq with g | g | ⟨-, g⟩
      · rcases h.used q g with g | ⟨r, g⟩
        · exact .inl g
        · exact .inr ⟨r, .inl g⟩
      · rw [g]; exact .inr ⟨row, .inr rfl⟩
      · exact .inl g
    · intro o' b' hb' hd hr
      rcases h3.newd _ hd with g | ⟨o2, b2, g1, g2, g3, g4⟩
      · exact .inl (h.ran o' b' hb' g hr)
      · rcases g4 with g4 | g4
        · rw [(hS.same hb' g1 g2).2] at g4; exact absurd hr g4
        · exact g4.elim
    · intro env r hr
      obtain ⟨v, env', e1, e2, e3⟩ := h5 env r hr
      refine ⟨v, ⟨upd env'.vars "_res_" v, env'.mem⟩, by rw [exec, e1], ?_⟩
      have e2 := e2 trivial
      simp only at e2 e3
      simp only [runSink]
      generalize wireFrom a M.zero (runAt M L parse a (a.blocks.length + 1)) (x, y) r = q at e2 e3
      refine ⟨e3.done, ?_, ?_, e3.mem, ?_⟩
      · intro i outs nm u g1 g2
        obtain ⟨jj, e, g3, -⟩ := h3.inv.var_tmp g2
        show upd env'.vars "_res_" v u = _
        unfold upd
        rw [if_neg (by rw [g3]; exact tmpName_ne_res _ _)]
        exact e3.outs i outs nm u g1 g2
      · intro z hz
        show upd env'.vars "_res_" v z = _
        unfold upd
        rw [if_neg (by rintro rfl; exact hz.1 res_head)]
        exact e3.user z hz
      · intro w hw
        simp only [Option.some.injEq] at hw
        show upd env'.vars "_res_" v "_res_" = _
        unfold upd
        rw [if_pos rfl, e2, hw]

theorem sinks_sim (hS : Setup a L parse M) {n : Nat} (hn : a.blocks.length + 1 ≤ n) : ∀ (l : List Sink), (∀ s ∈ l, a.HasSink s) →
    l.Pairwise (fun s t => ¬ (s.1 = t.1 ∧ s.2.1 = t.2.1)) → ∀ {cs : CS} {D : Nat → Prop}
    {W : Pos → Prop} {seen : Sink → Prop}, SInv a L cs D W seen → (∀ s ∈ l, ∀ t, seen t → ¬ (t.1 = s.1 ∧ t.2.1 = s.2.1)) →
    ∃ blks js cs' D', transKids (Block.trans L parse (keyGraph a "zero" ss) (n + 1)) (l.map sinkKid) cs = .ok (blks, cs') ∧
      toJits L M.zero blks = js.map .ok ∧
      ∀ (env : Env F S) (r : Run F S) (v0 : F), Rel cs D env r → ∃ v env', execStmts M js v0 env = (v, env') ∧
        Rel cs' D' env' (runSinks M L parse a l r) := by
  intro l
  induction l with
  | nil =>
    intro _ _ cs D W seen _ _
    refine ⟨[], [], cs, D, rfl, rfl, ?_⟩
    intro env r v0 hr
    exact ⟨v0, env, by simp only [execStmts], hr⟩
  | cons s l ih =>
    intro hall hpw cs D W seen h hseen
    rw [List.pairwise_cons] at hpw
    obtain ⟨blk, j, cs1, D1, W1, h1, h2, h3, h4⟩ := sink_sim (ss := ss) hS hn (hall s List.mem_cons_self) h (hseen s List.mem_cons_self)
    obtain ⟨blks, js, cs2, D2, g1, g2, g3⟩ := ih (fun t ht => hall t (List.mem_cons_of_mem _ ht)) hpw.2 h3 (by
      rintro t ht u (hu | rfl)
      · exact hseen t (List.mem_cons_of_mem _ ht) u hu
      · exact hpw.1 t ht)
    refine ⟨blk :: blks, j :: js, cs2, D2, ?_, ?_, ?_⟩
    · rw [List.map_cons, transKids, h1]
      simp only
      rw [g1]
    · rw [toJits, h2, g2]; rfl
    · intro env r v0 hr
      obtain ⟨v, env1, e1, e2⟩ := h4 env r hr
      obtain ⟨v', env2, f1, f2⟩ := g3 env1 _ v e2
      refine ⟨v', env2, ?_, f2⟩
      rw [execStmts, e1]
      exact f1

/-- The whole tree. -/
theorem root_sim (hS : Setup a L parse M) (hss : a.SinkOrder ss) {n : Nat} (hn : a.blocks.length + 1 ≤ n) :
    ∃ blk j cs', Block.trans L parse (keyGraph a "zero" ss) (n + 3) .root none ⟨[], 0⟩ = .ok (blk, cs') ∧ toJit L M.zero blk = .ok j ∧
      ∀ (vars : String → F) (mem : S), ∃ D' env', exec M j ⟨vars, mem⟩ = (env'.vars "_res_", env') ∧
        Rel cs' D' env' (runSinks M L parse a ss (Run.start vars mem)) := by
  have h0 : SInv a L ⟨[], 0⟩ (fun _ => False) (fun _ => False) (fun _ => False) := by
    refine ⟨⟨?_, ?_, ?_⟩, fun _ h => h.elim, fun _ h => h.elim, fun _ _ _ h => h.elim⟩
    · intro e he; cases he
    · intro _ _ _ h; exact h.elim
    · intro _ _ _ h; exact h.elim
  obtain ⟨blks, js, cs', D', h1, h2, h3⟩ := sinks_sim (ss := ss) hS hn ss (fun s hs => (hss.1 s).1 hs)
    (hss.2.imp (by intro s t h1 h2; omega)) h0 (fun _ _ _ h => h.elim)
  have hA : Block.trans L parse (keyGraph a "zero" ss) (n + 2) .area none ⟨[], 0⟩ = .ok (.area blks, cs') := by
    have hi : (keyGraph a "zero" ss).info .area = (0, "<a>", "") := rfl
    have hk : (keyGraph a "zero" ss).kids .area = ss.map sinkKid := rfl
    have hv : (CS.mk [] 0).var 0 ((none : Option String).getD "") = none := rfl
    simp only [Block.trans, hi, hv, hk]
    rw [if_pos trivial]
    simp only [Block.trans] at h1
    rw [h1]
    rfl
  refine ⟨.area [.area blks, .get 0 "_res_"], .stmts [.stmts js, .var "_res_"], cs', ?_, ?_, ?_⟩
  · have hi : (keyGraph a "zero" ss).info .root = (0, "<r>", "") := rfl
    have hk : (keyGraph a "zero" ss).kids .root = [("", "", .area)] := rfl
    have hv : (CS.mk [] 0).var 0 ((none : Option String).getD "") = none := rfl
    rw [Block.trans]
    simp only [hi, hv, hk]
    rw [if_neg (by decide), if_pos trivial]
    have : portOpt "" = none := rfl
    rw [this, hA]
    rfl
  · simp only [toJit, toJits, h2, sequence_ok]
    rfl
  · intro vars mem
    have hr0 : Rel ⟨[], 0⟩ (fun _ => False) (⟨vars, mem⟩ : Env F S) (Run.start vars mem) := by
      refine ⟨?_, ?_, fun _ _ => rfl, rfl, ?_⟩
      · intro i; simp [Run.start]
      · intro i outs nm v h; cases h
      · intro v h; cases h
    obtain ⟨v, env', e1, e2⟩ := h3 ⟨vars, mem⟩ _ M.zero hr0
    refine ⟨D', env', ?_, e2⟩
    simp only [exec, execStmts, e1]

end

/-- A machine that does nothing. -/
def idle {F : Type} (L : Lang) (zero : F) : Machine F Unit :=
  ⟨fun _ x _ => x, fun typ _ _ s => (zero, match L typ with
    | none => []
    | some t => List.replicate t.outputs.length zero, s), zero⟩

theorem idle_delivers {F : Type} (L : Lang) (zero : F) : (idle L zero).Delivers L := by
  intro typ t ht id args s
  simp only [idle, ht, List.length_replicate]
  omega

/-- The compiler. -/
theorem compile_sim {F : Type} {a : Area} {L : Lang} {parse : String → Option F} {zero : F} {f : BlockFun}
    (hS : ∀ (S : Type) (M : Machine F S), M.Delivers L → Setup a L parse M)
    (hf : a.Flat) (hfa : f.areas[0]? = some a) :
    ∃ N, ∀ n ≥ N, ∃ j, compile L parse zero n f = .ok j ∧
      ∀ (S : Type) (M : Machine F S) (ss : List Sink) (vars : String → F) (mem : S), M.zero = zero → M.Delivers L → a.SinkOrder ss →
        ∃ env', exec M j ⟨vars, mem⟩ = (env'.vars "_res_", env') ∧
        env'.mem = (runSinks M L parse a ss (Run.start vars mem)).mem ∧
        (∀ x, UserVar x → env'.vars x = (runSinks M L parse a ss (Run.start vars mem)).vars x) ∧
        ∀ v, (runSinks M L parse a ss (Run.start vars mem)).res = some v → env'.vars "_res_" = v := by
  have hS0 := hS Unit (idle L zero) (idle_delivers L zero)
  obtain ⟨t, z1, z2, z3⟩ := hS0.zero
  obtain ⟨N, hN⟩ := generateTree_ok hS0.area hf hfa z1
  have hord := collectSinks_order hS0.area
  refine ⟨max N (a.blocks.length + 4), ?_⟩
  intro n hn
  obtain ⟨heap, κ, h1, h2⟩ := hN n (by omega)
  obtain ⟨n', rfl⟩ : ∃ n', n = n' + 3 := ⟨n - 3, by omega⟩
  rw [z3] at h2
  have hroot : κ.getD 0 .zero = .root := by rw [List.getD_eq_getElem?_getD, h2.root]; rfl
  have hpos : 0 < heap.length := by
    have := h2.len
    cases κ with
    | nil => cases h2.root
    | cons x l => rw [← this]; exact Nat.succ_pos _
  have hcomp : ∀ {S : Type} (M : Machine F S), M.zero = zero → ∀ {blk j cs'},
      Block.trans L parse (keyGraph a "zero" a.collectSinks.reverse) (n' + 3) .root none ⟨[], 0⟩ = .ok (blk, cs') →
      toJit L M.zero blk = .ok j → compile L parse zero (n' + 3) f = .ok j := by
    intro S M hz blk j cs' g1 g2
    unfold compile
    rw [h1]
    simp only
    rw [trans_hom h2 L parse (n' + 3) 0 hpos none ⟨[], 0⟩, hroot, g1]
    simp only
    rw [← hz]
    exact g2
  obtain ⟨blk, j, cs', g1, g2, -⟩ := root_sim hS0 hord (n := n') (by omega)
  have hj := hcomp (idle L zero) rfl g1 g2
  refine ⟨j, hj, ?_⟩
  intro S M ss vars mem hz hM hss
  have hsu := sinkOrder_unique hss hord
  subst hsu
  obtain ⟨blk', j', cs2, k1, k2, k3⟩ := root_sim (hS S M hM) hord (n := n') (by omega)
  have hj' := hcomp M hz k1 k2
  rw [hj] at hj'
  cases hj'
  obtain ⟨D', env', e1, e2⟩ := k3 vars mem
  exact ⟨env', e1, e2.mem, e2.user, e2.res⟩

end HexoDSP.Block
