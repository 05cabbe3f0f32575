import Verif.Lemmas.BlockSim3
/-! The compiled program does what the diagram says: operators and nodes of the library, and all blocks together. -/

set_option linter.unusedSectionVars false
set_option linter.dupNamespace false

namespace HexoDSP.Block

section
variable {F S : Type} {a : Area} {L : Lang} {parse : String → Option F} {M : Machine F S} {ss : List Sink}

theorem effect_bin {b : Block} {t : BlockType} (hB : BOk L parse b t) (hs : ¬ Special b.typ) (hz : b.typ ≠ "zero") {op : Bin}
    (ho : binOf b.typ = some op) {ins : List (String × F)} (hn : ins.map (·.1) = t.inputs.filterMap (fun o => o)) (r : Run F S) :
    b.effect M L parse ins r = (fun _ => M.bin op ((ins.map (·.2)).getD 0 M.zero) ((ins.map (·.2)).getD 1 M.zero), r) := by
  unfold Special at hs
  simp only [not_or] at hs
  obtain ⟨h1, h2, h3, h4, h5, h6, h7, h8, h9⟩ := hs
  unfold Block.effect
  rw [if_neg hz, if_neg h4, if_neg h7, if_neg (by tauto), if_neg h5]
  simp only [hB.typ, ho, arrange_ok M.zero hB.shape hn]

theorem effect_call {b : Block} {t : BlockType} (hB : BOk L parse b t) (hs : ¬ Special b.typ) (hz : b.typ ≠ "zero")
    (ho : binOf b.typ = none) {ins : List (String × F)} (hn : ins.map (·.1) = t.inputs.filterMap (fun o => o)) (r : Run F S) :
    b.effect M L parse ins r =
      (fun port => ((M.call b.typ b.id (ins.map (·.2)) r.mem).1 :: (M.call b.typ b.id (ins.map (·.2)) r.mem).2.1).getD
          ((outNames L b.typ).idxOf port) M.zero, { r with mem := (M.call b.typ b.id (ins.map (·.2)) r.mem).2.2 }) := by
  unfold Special at hs
  simp only [not_or] at hs
  obtain ⟨h1, h2, h3, h4, h5, h6, h7, h8, h9⟩ := hs
  unfold Block.effect
  rw [if_neg hz, if_neg h4, if_neg h7, if_neg (by tauto), if_neg h5]
  simp only [hB.typ, ho, arrange_ok M.zero hB.shape hn, hB.outNames]

theorem jitNode_bin {b : Block} {t : BlockType} (hB : BOk L parse b t) (hz : b.typ ≠ "zero") {op : Bin} (ho : binOf b.typ = some op)
    {js : List (Jit F)} {names : List String} (hn : names = t.inputs.filterMap (fun o => o)) (hl : js.length = names.length) :
    ∃ x y, js = [x, y] ∧ jitNode L M.zero b.id b.typ (names.map portOpt) (js.map Except.ok) = .ok (.bin op x y) := by
  have h2 := (hB.shape.bin (by rw [ho]; rfl)).1
  obtain ⟨ns, h3, -⟩ := hB.shape.ins
  have h4 : names.length = 2 := by
    rw [hn, h3, map_some_names, ← List.length_map (f := some), ← h3, h2]
  rw [h4] at hl
  match js, hl with
  | [x, y], _ =>
    refine ⟨x, y, rfl, ?_⟩
    unfold jitNode
    have hid := hB.id
    rw [if_neg hB.noIf, if_neg hz, if_neg (by omega), jitArgs_ok hB.typ hB.shape b.id hn (by rw [h4]; rfl)]
    simp only [ho]

theorem jitNode_call {b : Block} {t : BlockType} (hB : BOk L parse b t) (hz : b.typ ≠ "zero") (ho : binOf b.typ = none)
    {js : List (Jit F)} {names : List String} (hn : names = t.inputs.filterMap (fun o => o)) (hl : js.length = names.length) :
    jitNode L M.zero b.id b.typ (names.map portOpt) (js.map Except.ok) = .ok (.call b.typ b.id js) := by
  unfold jitNode
  have hid := hB.id
  rw [if_neg hB.noIf, if_neg hz, if_neg (by omega), jitArgs_ok hB.typ hB.shape b.id hn hl]
  simp only [ho]

theorem exec_bin {op : Bin} {x y : Jit F} {env env' : Env F S} {vals : List F} (h : execArgs M [x, y] env = (vals, env')) :
    exec M (.bin op x y) env = (M.bin op (vals.getD 0 M.zero) (vals.getD 1 M.zero), env') := by
  simp only [execArgs, Prod.mk.injEq] at h
  obtain ⟨h1, h2⟩ := h
  subst h1; subst h2
  simp only [exec]
  rfl

theorem exec_call {typ : String} {id : Nat} {js : List (Jit F)} {env env' : Env F S} {vals : List F} (h : execArgs M js env = (vals, env')) :
    exec M (.call typ id js) env =
      ((M.call typ id vals env'.mem).1, ⟨spread env'.vars 1 (M.call typ id vals env'.mem).2.1, (M.call typ id vals env'.mem).2.2⟩) := by
  simp only [exec, h]

theorem kids_names (ps : List (String × Pos)) :
    (ps.map (fun e => target a e.1 e.2)).map (fun k => portOpt k.1) = (ps.map (·.1)).map portOpt := by
  rw [List.map_map, List.map_map]
  apply List.map_congr_left
  intro e _
  simp only [Function.comp, target_fst]

/-- An operator with at most one output. -/
theorem op_sim (hS : Setup a L parse M) {k : Nat} (hV : VProp a L parse M ss k) {o : Pos} {b : Block} (hk : rank a o < k + 1) {t : BlockType}
    (hB : BOk L parse b t) {nm : String} {P : Pos → Prop} {cs : CS}
    {D : Nat → Prop} {W : Pos → Prop} (h : EHyp a L o b nm P cs D W) {n m : Nat} (hn : k + 1 ≤ n) (hm : k ≤ m)
    (hs : ¬ Special b.typ) (hz : b.typ ≠ "zero") (hl : (outNames L b.typ).length < 2) : EProp a L parse M ss o b (n + 1) (m + 1) nm P cs D W := by
  have hlk := (mem_iff_lookup hS.area.load.keys o b).1 h.mem
  have hun : ¬ Cached L b := by
    unfold Cached
    unfold Special at hs
    have : ¬ 2 ≤ (outNames L b.typ).length := by omega
    tauto
  have hv : cs.var b.id ((portOpt nm).getD "") = none := h.inv.var_none h.fresh _
  have hinfo := block_info (ss := ss) hlk
  have hkids := block_kids (ss := ss) hlk
  obtain ⟨blks, js, cs1, D1, W1, h1, h2, h3, h4, h5⟩ := kids_sim hV hn hm (X := o.1 - 1) (b.sources o) (fun e he => source_col he) source_nodup
    (fun e he => source_rank hS hk he) cs D W h.inv h.pre' (fun e he => h.unused he)
  have hnd := not_done hS h.mem h4 h.fresh
  have hstep := step_block hS h.mem h4 (by
      rintro q ⟨e, he, rfl⟩
      exact source_consumes h.mem he) h.pre h.col
    (h4.inv.finish hS.area hS.ids h.mem hun (h.mark hun)) (Nat.le_refl _) (fun _ h => .inl h)
  have hnames := source_names hB o
  have hlen : js.length = ((b.sources o).map (·.1)).length := by rw [List.length_map, h3]
  have htr : Block.trans L parse (keyGraph a "zero" ss) (n + 1) (.block o) (portOpt nm) cs =
      .ok (.node b.id (portOpt nm) b.typ b.lbl (((b.sources o).map (·.1)).map portOpt) blks, cs1) := by
    rw [trans_op hinfo hv hs, hkids, h1, kids_names]
    simp only [transOp]
    match hoN : outNames L b.typ, hl with
    | [], _ => rfl
    | [x], _ => rfl
  cases hb : binOf b.typ with
  | some op =>
    obtain ⟨x, y, hjs, hjit⟩ := jitNode_bin (M := M) hB hz hb hnames hlen
    refine ⟨_, .bin op x y, cs1, _, _, htr, ?_, hstep, fun i hi => .inr hi, ?_⟩
    · simp only [toJit, h2]
      exact hjit
    · intro env r hr
      obtain ⟨env', e1, e2⟩ := h5 env r hr
      rw [hjs] at e1
      refine ⟨_, env', exec_bin e1, ?_, ?_⟩
      · intro _
        simp only [runAt_fresh hlk (hr.none h.fresh)]
        rw [effect_bin hB hs hz hb (by rw [wiresFrom_fst, hnames])]
      · simp only [runAt_fresh hlk (hr.none h.fresh)]
        rw [effect_bin hB hs hz hb (by rw [wiresFrom_fst, hnames])]
        exact e2.finish h4.inv hnd _
  | none =>
    have hjit := jitNode_call (M := M) hB hz hb hnames hlen
    refine ⟨_, .call b.typ b.id js, cs1, _, _, htr, ?_, hstep, fun i hi => .inr hi, ?_⟩
    · simp only [toJit, h2]
      exact hjit
    · intro env r hr
      obtain ⟨env', e1, e2⟩ := h5 env r hr
      refine ⟨_, _, exec_call e1, ?_, ?_⟩
      · intro hrows
        simp only [runAt_fresh hlk (hr.none h.fresh)]
        rw [effect_call hB hs hz hb (by rw [wiresFrom_fst, hnames]), e2.mem]
        have hnm : nm ∈ outNames L b.typ := by
          rcases h.port with ⟨h6, -⟩ | h6
          · exact absurd h6 hrows
          · exact h6
        match hoN : outNames L b.typ, hl, hnm with
        | [x], _, hnm =>
          rw [List.mem_singleton] at hnm
          rw [hnm]
          simp
      · simp only [runAt_fresh hlk (hr.none h.fresh)]
        rw [effect_call hB hs hz hb (by rw [wiresFrom_fst, hnames]), e2.mem]
        refine Rel.finish h4.inv ?_ hnd _
        have e3 := e2.spread h4.inv 1 (M.call b.typ b.id
          ((wiresFrom a M.zero (runAt M L parse a m) (b.sources o) r).1.map (·.2)) (wiresFrom a M.zero (runAt M L parse a m) (b.sources o) r).2.mem).2.1
        exact ⟨e3.done, e3.outs, e3.user, rfl, e3.res⟩

/-- The variables for the outputs after the first one. -/
theorem storeOuts_ok (id : Nat) : ∀ (ns : List String) (i : Nat) (cs : CS), ns.Nodup →
    ∃ js, toJits L M.zero (storeOuts (F := F) id i ns cs).1 = js.map .ok ∧
      cs.counter ≤ (storeOuts (F := F) id i ns cs).2.counter ∧
      (∀ e ∈ (storeOuts (F := F) id i ns cs).2.map, e ∈ cs.map ∨
        ∃ nm j, e.1 = idout id nm ∧ e.2 = tmpName j nm ∧ cs.counter < j ∧ j ≤ (storeOuts (F := F) id i ns cs).2.counter) ∧
      (∀ id' nm, id' ≠ id ∨ nm ∉ ns → (storeOuts (F := F) id i ns cs).2.var id' nm = cs.var id' nm) ∧
      (∀ (k : Nat) (hk : k < ns.length), ∃ u, (storeOuts (F := F) id i ns cs).2.var id ns[k] = some u) ∧
      ∀ (v : F) (env : Env F S), ∃ v' env', execStmts M js v env = (v', env') ∧ env'.mem = env.mem ∧
        (∀ x, (∀ j e, x = tmpName j e → j ≤ cs.counter) → env'.vars x = env.vars x) ∧
        ∀ (k : Nat) (hk : k < ns.length) (u : String), (storeOuts (F := F) id i ns cs).2.var id ns[k] = some u →
          env'.vars u = env.vars ("%" ++ toString (i + k)) := by
  intro ns
  induction ns with
  | nil =>
    intro i cs _
    refine ⟨[], rfl, Nat.le_refl _, fun e he => .inl he, fun _ _ _ => rfl, fun k hk => absurd hk (Nat.not_lt_zero _), ?_⟩
    intro v env
    exact ⟨v, env, by simp [execStmts], rfl, fun _ _ => rfl, fun k hk => absurd hk (Nat.not_lt_zero _)⟩
  | cons name ns ih =>
    intro i cs hnd
    rw [List.nodup_cons] at hnd
    generalize hcs1 : (CS.mk cs.map (cs.counter + 1)).store id name (tmpName (cs.counter + 1) name) = cs1
    have hcnt1 : cs1.counter = cs.counter + 1 := by rw [← hcs1]; rfl
    have hmap1 : cs1.map = (idout id name, tmpName (cs.counter + 1) name) :: cs.map := by rw [← hcs1]; rfl
    obtain ⟨js, h1, h2, h3, h4, h4', h5⟩ := ih (i + 1) cs1 hnd.2
    have hfirst : (storeOuts (F := F) id (i + 1) ns cs1).2.var id name = some (tmpName (cs.counter + 1) name) := by
      rw [h4 id name (.inr hnd.1)]
      unfold CS.var
      rw [hmap1, List.lookup_cons, beq_self_eq_true]
    have hr : storeOuts (F := F) id i (name :: ns) cs =
        (.set (tmpName (cs.counter + 1) name) (.get 0 ("%" ++ toString i)) :: (storeOuts (F := F) id (i + 1) ns cs1).1,
          (storeOuts (F := F) id (i + 1) ns cs1).2) := by
      rw [← hcs1]; rfl
    rw [hr]
    refine ⟨.assign (tmpName (cs.counter + 1) name) (.var ("%" ++ toString i)) :: js, ?_, ?_, ?_, ?_, ?_, ?_⟩
    · simp only [toJits, toJit, h1]
      rfl
    · simp only
      omega
    · intro e he
      rcases h3 e he with h6 | ⟨nm, j, h6, h7, h8, h9⟩
      · rw [hmap1] at h6
        rcases List.mem_cons.1 h6 with rfl | h6
        · exact .inr ⟨name, cs.counter + 1, rfl, rfl, Nat.lt_succ_self _, by simp only; omega⟩
        · exact .inl h6
      · exact .inr ⟨nm, j, h6, h7, by omega, h9⟩
    · intro id' nm hne
      rw [h4 id' nm (by
        rcases hne with h6 | h6
        · exact .inl h6
        · exact .inr (fun hh => h6 (List.mem_cons_of_mem _ hh)))]
      unfold CS.var
      rw [hmap1, List.lookup_cons, beq_false_of_ne]
      intro hh
      obtain ⟨h6, h7⟩ := idout_inj hh
      rcases hne with h8 | h8
      · exact h8 h6
      · exact h8 (h7 ▸ List.mem_cons_self)
    · intro k hk
      cases k with
      | zero => exact ⟨_, hfirst⟩
      | succ k =>
        obtain ⟨u, g5⟩ := h4' k (by simpa using hk)
        exact ⟨u, by simpa using g5⟩
    · intro v env
      obtain ⟨v', env', g1, g2, g3, g4⟩ := h5 (env.vars ("%" ++ toString i))
        ⟨upd env.vars (tmpName (cs.counter + 1) name) (env.vars ("%" ++ toString i)), env.mem⟩
      refine ⟨v', env', ?_, g2, ?_, ?_⟩
      · simp only [execStmts, exec]
        exact g1
      · intro x hx
        rw [g3 x (by intro j e he; have := hx j e he; omega)]
        show upd env.vars _ _ x = _
        unfold upd
        rw [if_neg]
        intro hh
        have := hx _ _ hh
        omega
      · intro k hk u hu
        cases k with
        | zero =>
          simp only [List.getElem_cons_zero] at hu
          rw [hfirst] at hu
          cases hu
          rw [g3 _ (by intro j e he; have := tmpName_inj he; omega)]
          simp only [upd, if_true, Nat.add_zero]
        | succ k =>
          rw [g4 k (by simpa using hk) u (by simpa using hu)]
          simp only [upd]
          rw [if_neg (fun hh => percent_ne_tmp hh)]
          have : i + 1 + k = i + (k + 1) := by omega
          rw [this]

/-- An operator with many outputs. -/
theorem multi_sim (hS : Setup a L parse M) {k : Nat} (hV : VProp a L parse M ss k) {o : Pos} {b : Block} (hk : rank a o < k + 1) {t : BlockType}
    (hB : BOk L parse b t) {nm : String} {P : Pos → Prop} {cs : CS}
    {D : Nat → Prop} {W : Pos → Prop} (h : EHyp a L o b nm P cs D W) {n m : Nat} (hn : k + 1 ≤ n) (hm : k ≤ m)
    (hs : ¬ Special b.typ) (hz : b.typ ≠ "zero") (hl : 2 ≤ (outNames L b.typ).length) : EProp a L parse M ss o b (n + 1) (m + 1) nm P cs D W := by
  have hlk := (mem_iff_lookup hS.area.load.keys o b).1 h.mem
  have hcd : Cached L b := by
    unfold Cached
    tauto
  have hs' := hs
  unfold Special at hs'
  simp only [not_or] at hs'
  have hlt : 2 ≤ (t.outputs.filterMap (fun o => o)).length := by rw [← hB.outNames]; exact hl
  obtain ⟨hnodup, hne⟩ := hB.shape.outs hs'.2.2.2.2.2.2.2.1 hs'.2.2.2.2.2.2.2.2 hlt
  rw [← hB.outNames] at hnodup hne
  have hb : binOf b.typ = none := by
    cases hbb : binOf b.typ with
    | none => rfl
    | some op =>
      have := (hB.shape.bin (by rw [hbb]; rfl)).2
      rw [this] at hlt
      simp at hlt
  have hdel : (outNames L b.typ).length ≤ t.outputs.length := by
    rw [hB.outNames]; exact List.length_filterMap_le _ _
  have hv : cs.var b.id ((portOpt nm).getD "") = none := h.inv.var_none h.fresh _
  have hinfo := block_info (ss := ss) hlk
  have hkids := block_kids (ss := ss) hlk
  have hnm : nm ∈ outNames L b.typ := by
    rcases h.port with ⟨h6, -⟩ | h6
    · exfalso
      have := hB.outs.length_eq
      rw [h6, ← hB.outNames] at this
      simp at this
      omega
    · exact h6
  obtain ⟨blks, js, cs1, D1, W1, h1, h2, h3, h4, h5⟩ := kids_sim hV hn hm (X := o.1 - 1) (b.sources o) (fun e he => source_col he) source_nodup
    (fun e he => source_rank hS hk he) cs D W h.inv h.pre' (fun e he => h.unused he)
  have hnd := not_done hS h.mem h4 h.fresh
  have hnames := source_names hB o
  have hlen : js.length = ((b.sources o).map (·.1)).length := by rw [List.length_map, h3]
  have hjit := jitNode_call (M := M) hB hz hb hnames hlen
  obtain ⟨name, name2, names, hoN⟩ : ∃ x y l, outNames L b.typ = x :: y :: l := by
    match outNames L b.typ, hl with
    | x :: y :: l, _ => exact ⟨x, y, l, rfl⟩
  generalize htmp : tmpName (cs1.counter + 1) name = tmp
  generalize hcs2 : (CS.mk cs1.map (cs1.counter + 1)).store b.id name tmp = cs2
  have hcnt2 : cs2.counter = cs1.counter + 1 := by rw [← hcs2]; rfl
  have hmap2 : cs2.map = (idout b.id name, tmp) :: cs1.map := by rw [← hcs2]; rfl
  have hnd2 : (name2 :: names).Nodup ∧ name ∉ (name2 :: names) := by
    rw [hoN, List.nodup_cons] at hnodup
    exact ⟨hnodup.2, hnodup.1⟩
  obtain ⟨sts, s1, s2, s3, s4, s4', s5⟩ := storeOuts_ok (L := L) (M := M) b.id (name2 :: names) 1 cs2 hnd2.1
  generalize hst : storeOuts (F := F) b.id 1 (name2 :: names) cs2 = st at s1 s2 s3 s4 s4' s5
  have hvar_first : st.2.var b.id name = some tmp := by
    rw [s4 _ _ (.inr hnd2.2)]
    unfold CS.var
    rw [hmap2, List.lookup_cons, beq_self_eq_true]
  have hvar_all : ∀ x ∈ outNames L b.typ, ∃ u, st.2.var b.id x = some u := by
    intro x hx
    rw [hoN] at hx
    rcases List.mem_cons.1 hx with rfl | hx
    · exact ⟨tmp, hvar_first⟩
    · obtain ⟨kk, hkk, rfl⟩ := List.getElem_of_mem hx
      exact s4' kk hkk
  have k2 : ∀ id' x, id' ≠ b.id → st.2.var id' x = cs1.var id' x := by
    intro id' x hne'
    rw [s4 id' x (.inl hne')]
    unfold CS.var
    rw [hmap2, List.lookup_cons, beq_false_of_ne (fun hh => hne' (idout_inj hh).1)]
  have kn : ∀ x, x ∉ outNames L b.typ → st.2.var b.id x = none := by
    intro x hx
    rw [hoN, List.mem_cons, not_or] at hx
    rw [s4 _ _ (.inr hx.2)]
    unfold CS.var
    rw [hmap2, List.lookup_cons, beq_false_of_ne (fun hh => hx.1 (idout_inj hh).2)]
    exact h4.inv.var_none hnd _
  have kents : ∀ e ∈ st.2.map, e ∈ cs1.map ∨ ∃ nm j x, e.1 = idout b.id nm ∧ e.2 = tmpName j x ∧ j ≤ st.2.counter ∧ cs1.counter < j := by
    intro e he
    rcases s3 e he with g | ⟨nm', j, g1, g2, g3, g4⟩
    · rw [hmap2] at g
      rcases List.mem_cons.1 g with rfl | g
      · exact .inr ⟨name, cs1.counter + 1, name, rfl, htmp.symm, by omega, Nat.lt_succ_self _⟩
      · exact .inl g
    · exact .inr ⟨nm', j, nm', g1, g2, g4, by omega⟩
  have hcnt : cs1.counter ≤ st.2.counter := by omega
  have hstep := step_block hS h.mem h4 (by
      rintro q ⟨e, he, rfl⟩
      exact source_consumes h.mem he) h.pre h.col
    (CInv.keep hS h.mem (P := P) h4.inv hcd (by
      intro e he
      rcases kents e he with g | ⟨nm', j, x, g1, g2, g3, -⟩
      · exact .inl g
      · exact .inr ⟨nm', j, x, g1, g2, g3⟩) k2 hvar_all hcnt) hcnt (by
      intro e he
      rcases kents e he with g | ⟨nm', j, x, g1, g2, g3, g4⟩
      · exact .inl g
      · exact .inr ⟨j, x, g2, Nat.lt_of_le_of_lt h4.cnt g4⟩)
  obtain ⟨u, hu⟩ := hvar_all nm hnm
  have hnm0 : nm ≠ "" := by rintro rfl; exact hne hnm
  have hpo : portOpt nm = some nm := by unfold portOpt; rw [if_neg hnm0]
  have htr : Block.trans L parse (keyGraph a "zero" ss) (n + 1) (.block o) (portOpt nm) cs =
      .ok (.area (.set tmp (.node b.id (portOpt nm) b.typ b.lbl (((b.sources o).map (·.1)).map portOpt) blks) :: st.1 ++ [.get 0 u]), st.2) := by
    rw [trans_op hinfo hv hs, hkids, h1, kids_names]
    simp only [transOp, hoN, htmp, hcs2, hst, hpo, hu]
  refine ⟨_, .stmts (.assign tmp (.call b.typ b.id js) :: sts ++ [.var u]), st.2, _, _, htr, ?_, hstep, fun i hi => .inr hi, ?_⟩
  · have e1 : toJits L M.zero (.set tmp (.node b.id (portOpt nm) b.typ b.lbl (((b.sources o).map (·.1)).map portOpt) blks) :: st.1 ++ [.get 0 u]) =
        (Jit.assign tmp (Jit.call b.typ b.id js) :: sts ++ [Jit.var u]).map Except.ok := by
      rw [toJits_append, toJits, s1]
      simp only [toJit, h2]
      rw [hjit]
      simp only [toJits, toJit, List.map_append, List.map_cons, List.map_nil]
      rfl
    simp only [toJit]
    rw [e1, sequence_ok]
    rfl
  · intro env r hr
    obtain ⟨env1, e1, e2⟩ := h5 env r hr
    generalize hw : wiresFrom a M.zero (runAt M L parse a m) (b.sources o) r = w at e1 e2
    have hq : exec M (.call b.typ b.id js) env = ((M.call b.typ b.id (w.1.map (·.2)) w.2.mem).1,
        ⟨spread env1.vars 1 (M.call b.typ b.id (w.1.map (·.2)) w.2.mem).2.1, (M.call b.typ b.id (w.1.map (·.2)) w.2.mem).2.2⟩) := by
      rw [exec_call e1, e2.mem]
    have hdl := hS.delivers b.typ t hB.typ b.id (w.1.map (·.2)) w.2.mem
    generalize hqq : M.call b.typ b.id (w.1.map (·.2)) w.2.mem = q at hq hdl
    obtain ⟨v', env', g1, g2, g3, g4⟩ := s5 q.1 ⟨upd (spread env1.vars 1 q.2.1) tmp q.1, q.2.2⟩
    have hfst : (runAt M L parse a (m + 1) o r).1 = fun port => (q.1 :: q.2.1).getD ((outNames L b.typ).idxOf port) M.zero := by
      rw [runAt_fresh hlk (hr.none h.fresh), hw, effect_call hB hs hz hb (by rw [← hw, wiresFrom_fst, hnames]), hqq]
    have hsnd : (runAt M L parse a (m + 1) o r).2 =
        doneWith { w.2 with mem := q.2.2 } b.id (fun port => (q.1 :: q.2.1).getD ((outNames L b.typ).idxOf port) M.zero) := by
      rw [runAt_fresh hlk (hr.none h.fresh), hw, effect_call hB hs hz hb (by rw [← hw, wiresFrom_fst, hnames]), hqq]
    have houts : ∀ x v, st.2.var b.id x = some v → env'.vars v = (q.1 :: q.2.1).getD ((outNames L b.typ).idxOf x) M.zero := by
      intro x v hx
      by_cases hmem : x ∈ outNames L b.typ
      · rw [hoN] at hmem ⊢
        rcases List.mem_cons.1 hmem with rfl | hmem
        · rw [hvar_first] at hx
          cases hx
          rw [g3 tmp (by intro j e he; rw [← htmp] at he; have := tmpName_inj he; omega)]
          simp [upd]
        · obtain ⟨kk, hkk, rfl⟩ := List.getElem_of_mem hmem
          rw [g4 kk hkk v hx]
          have hidx : (name :: name2 :: names).idxOf ((name2 :: names)[kk]) = kk + 1 := by
            have hnn : (name :: name2 :: names).Nodup := by rw [← hoN]; exact hnodup
            have := hnn.idxOf_getElem (kk + 1) (by simpa using hkk)
            simpa using this
          rw [hidx, List.getD_cons_succ]
          simp only [upd]
          rw [if_neg (by rw [← htmp]; exact percent_ne_tmp)]
          apply spread_at
          have : (name2 :: names).length + 1 = (outNames L b.typ).length := by rw [hoN]; rfl
          omega
      · rw [kn x hmem] at hx
        cases hx
    refine ⟨env'.vars u, env', ?_, ?_, ?_⟩
    · have hasg : exec M (.assign tmp (.call b.typ b.id js)) env = (q.1, ⟨upd (spread env1.vars 1 q.2.1) tmp q.1, q.2.2⟩) := by
        rw [exec, hq]
      rw [exec, List.cons_append, execStmts, hasg]
      simp only
      rw [execStmts_append, g1]
      simp only [execStmts, exec]
    · intro _
      simp only
      rw [hfst]
      exact houts nm u hu
    · simp only
      rw [hsnd]
      have e3 : Rel cs1 D1 ⟨env1.vars, q.2.2⟩ { w.2 with mem := q.2.2 } := ⟨e2.done, e2.outs, e2.user, rfl, e2.res⟩
      refine Rel.keep h4.inv e3 hnd k2 g2 ?_ houts
      intro x hx
      have hold : (∀ j e, x = tmpName j e → j ≤ cs1.counter) ∧ ∀ nn : Nat, x ≠ "%" ++ toString nn := by
        rcases hx with hx | hx | ⟨i, nm', hx⟩
        · exact ⟨fun j e he => absurd (he ▸ hx) tmp_not_user, fun nn he => percent_not_user (he ▸ hx)⟩
        · exact ⟨fun j e he => absurd (he.symm.trans hx) (tmpName_ne_res _ _), fun nn he => percent_ne_res (he.symm.trans hx)⟩
        · obtain ⟨j', x', g5, g6⟩ := h4.inv.var_tmp hx
          refine ⟨?_, ?_⟩
          · intro j e he
            rw [g5] at he
            rw [← tmpName_inj he]; exact g6
          · intro nn he
            rw [g5] at he
            exact percent_ne_tmp he.symm
      rw [g3 x (by intro j e he; have := hold.1 j e he; omega)]
      simp only [upd]
      rw [if_neg (by
        rintro rfl
        have := hold.1 _ _ htmp.symm
        omega)]
      exact spread_other x _ _ _ hold.2

end

end HexoDSP.Block
