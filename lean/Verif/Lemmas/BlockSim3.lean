import Verif.Lemmas.BlockSim2
/-! The compiled program does what the diagram says: each kind of block. -/

set_option linter.unusedSectionVars false
set_option linter.dupNamespace false

namespace HexoDSP.Block

section
variable {F S : Type} {a : Area} {L : Lang} {parse : String → Option F} {M : Machine F S} {ss : List Sink}

/-- The types with code of their own in `trans2bjit`. -/
def Special (typ : String) : Prop :=
  typ = "<a>" ∨ typ = "<r>" ∨ typ = "->" ∨ typ = "value" ∨ typ = "set" ∨ typ = "<res>" ∨ typ = "get" ∨ typ = "->2" ∨ typ = "->3"

theorem block_info {o : Pos} {b : Block} (h : a.blocks.lookup o = some b) :
    (keyGraph a "zero" ss).info (.block o) = (b.id, b.typ, b.lbl) := by simp only [keyGraph, h]

theorem block_kids {o : Pos} {b : Block} (h : a.blocks.lookup o = some b) :
    (keyGraph a "zero" ss).kids (.block o) = (b.sources o).map (fun e => target a e.1 e.2) := by simp only [keyGraph, h]

theorem trans_op {G : Graph Key} {x : Key} {id : Nat} {typ lbl : String} (hi : G.info x = (id, typ, lbl)) {n : Nat} {myOut : Option String}
    {cs : CS} (hv : cs.var id (myOut.getD "") = none) (hs : ¬ Special typ) :
    Block.trans L parse G (n + 1) x myOut cs = match transKids (Block.trans L parse G n) (G.kids x) cs with
        | .error e => .error e
        | .ok r => transOp L id myOut typ lbl ((G.kids x).map (fun k => portOpt k.1)) r.1 r.2 := by
  unfold Special at hs
  simp only [not_or] at hs
  obtain ⟨h1, h2, h3, h4, h5, h6, h7, h8, h9⟩ := hs
  simp only [Block.trans, hi, hv]
  rw [if_neg h1, if_neg h2, if_neg h3, if_neg h4, if_neg (by tauto), if_neg h7, if_neg (by tauto)]
  cases transKids (Block.trans L parse G n) (G.kids x) cs <;> rfl

theorem trans_wire {G : Graph Key} {x : Key} {id : Nat} {lbl : String} (hi : G.info x = (id, "->", lbl)) {n : Nat} {myOut : Option String}
    {cs : CS} (hv : cs.var id (myOut.getD "") = none) {k : String × String × Key} (hk : G.kids x = [k]) :
    Block.trans L parse G (n + 1) x myOut cs = Block.trans L parse G n k.2.2 (portOpt k.2.1) cs := by
  simp only [Block.trans, hi, hv, hk]
  rw [if_neg (by decide), if_neg (by decide), if_pos trivial]

theorem trans_value {G : Graph Key} {x : Key} {id : Nat} {lbl : String} (hi : G.info x = (id, "value", lbl)) {n : Nat} {myOut : Option String}
    {cs : CS} (hv : cs.var id (myOut.getD "") = none) {v : F} (hp : parse lbl = some v) :
    Block.trans L parse G (n + 1) x myOut cs = .ok (.literal v, cs) := by
  simp only [Block.trans, hi, hv, hp]
  rw [if_neg (by decide), if_neg (by decide), if_neg (by decide), if_pos trivial]

theorem trans_get {G : Graph Key} {x : Key} {id : Nat} {lbl : String} (hi : G.info x = (id, "get", lbl)) {n : Nat} {myOut : Option String}
    {cs : CS} (hv : cs.var id (myOut.getD "") = none) :
    Block.trans L parse G (n + 1) x myOut cs = .ok (.get id lbl, cs) := by
  simp only [Block.trans, hi, hv]
  rw [if_neg (by decide), if_neg (by decide), if_neg (by decide), if_neg (by decide), if_neg (by decide), if_pos trivial]

theorem trans_set {G : Graph Key} {x : Key} {id : Nat} {lbl : String} (hi : G.info x = (id, "set", lbl)) {n : Nat} {myOut : Option String}
    {cs : CS} (hv : cs.var id (myOut.getD "") = none) {k : String × String × Key} (hk : G.kids x = [k]) :
    Block.trans L parse G (n + 1) x myOut cs = (Block.trans L parse G n k.2.2 (portOpt k.2.1) cs).map (fun r => (.set lbl r.1, r.2)) := by
  simp only [Block.trans, hi, hv, hk]
  rw [if_neg (by decide), if_neg (by decide), if_neg (by decide), if_neg (by decide), if_pos (by decide)]
  rfl

theorem trans_res {G : Graph Key} {x : Key} {id : Nat} {lbl : String} (hi : G.info x = (id, "<res>", lbl)) {n : Nat} {myOut : Option String}
    {cs : CS} (hv : cs.var id (myOut.getD "") = none) {k : String × String × Key} (hk : G.kids x = [k]) :
    Block.trans L parse G (n + 1) x myOut cs = (Block.trans L parse G n k.2.2 (portOpt k.2.1) cs).map (fun r => (.set "_res_" r.1, r.2)) := by
  simp only [Block.trans, hi, hv, hk]
  rw [if_neg (by decide), if_neg (by decide), if_neg (by decide), if_neg (by decide), if_pos (by decide)]
  rfl

theorem trans_fan {G : Graph Key} {x : Key} {id : Nat} {typ lbl : String} (hi : G.info x = (id, typ, lbl)) (ht : typ = "->2" ∨ typ = "->3")
    {n : Nat} {myOut : Option String} {cs : CS} (hv : cs.var id (myOut.getD "") = none) {k : String × String × Key} (hk : G.kids x = [k]) :
    Block.trans L parse G (n + 1) x myOut cs = (Block.trans L parse G n k.2.2 (portOpt k.2.1) ⟨cs.map, cs.counter + 1⟩).map
            (fun r => (.area [.set (tmpName (cs.counter + 1) "") r.1, .get 0 (tmpName (cs.counter + 1) "")], r.2.store id "" (tmpName (cs.counter + 1) ""))) := by
  simp only [Block.trans, hi, hv, hk]
  rcases ht with rfl | rfl
  · rw [if_neg (by decide), if_neg (by decide), if_neg (by decide), if_neg (by decide), if_neg (by decide), if_neg (by decide), if_pos (by decide)]
  · rw [if_neg (by decide), if_neg (by decide), if_neg (by decide), if_neg (by decide), if_neg (by decide), if_neg (by decide), if_pos (by decide)]

/-- The wires into a block. -/
theorem source_consumes {o : Pos} {b : Block} (hb : (o, b) ∈ a.blocks) {e : String × Pos} (he : e ∈ b.sources o) : Consumes a e.2 o b := by
  obtain ⟨r, hr, rfl⟩ := List.mem_map.1 he
  exact ⟨hb, r, hr, by simp, rfl⟩

theorem source_col {o : Pos} {b : Block} {e : String × Pos} (he : e ∈ b.sources o) : e.2.1 = o.1 - 1 := by
  obtain ⟨r, hr, rfl⟩ := List.mem_map.1 he
  rfl

theorem source_nodup {o : Pos} {b : Block} : ((b.sources o).map (·.2)).Nodup := by
  unfold Block.sources
  rw [List.map_map]
  have : b.inputRows.Nodup := List.Nodup.filter _ List.nodup_range
  refine List.Nodup.map ?_ this
  intro r r' h
  simp only [Function.comp, Prod.mk.injEq, true_and] at h
  omega

theorem source_rank (hS : Setup a L parse M) {o : Pos} {b : Block} {k : Nat} (hk : rank a o < k + 1) {e : String × Pos} (he : e ∈ b.sources o) :
    ∀ o' b', a.refAtOrigin e.2 = some (b', o') → rank a o' < k := by
  intro o' b' h
  obtain ⟨h1, h2, -, -⟩ := refAtOrigin_mem hS.area h
  have h3 := source_col he
  have : rank a o' < rank a o := rank_lt h1 (by omega)
  omega

theorem source_names {b : Block} {t : BlockType} (h : BOk L parse b t) (o : Pos) : (b.sources o).map (·.1) = t.inputs.filterMap (fun o => o) := by
  rw [← h.ins]
  unfold Block.sources
  rw [List.map_map]
  rfl

theorem source_one {b : Block} {t : BlockType} (h : BOk L parse b t) (ht : t.inputs = [some ""]) (o : Pos) : ∃ p, b.sources o = [("", p)] := by
  have h1 := source_names h o
  rw [ht] at h1
  have h2 : (b.sources o).length = 1 := by
    have := congrArg List.length h1
    simpa using this
  obtain ⟨e, he⟩ := List.length_eq_one_iff.1 h2
  rw [he] at h1
  simp only [List.map_cons, List.map_nil, List.filterMap_cons, List.filterMap_nil, List.cons.injEq, and_true] at h1
  exact ⟨e.2, by rw [he, ← h1]⟩

theorem source_zero {b : Block} {t : BlockType} (h : BOk L parse b t) (ht : t.inputs = []) (o : Pos) : b.sources o = [] := by
  have h1 := source_names h o
  rw [ht] at h1
  exact List.map_eq_nil_iff.1 h1

/-- The rows and names of the outputs. -/
theorem out_single {b : Block} {t : BlockType} (h : BOk L parse b t) (hl : (outNames L b.typ).length ≤ 1) {r r' : Nat} (hr : r ∈ b.outputRows)
    (hr' : r' ∈ b.outputRows) : r = r' := by
  have hlen := h.outs.length_eq
  rw [List.length_map, ← h.outNames] at hlen
  have : b.outputRows.length ≤ 1 := by omega
  match hb : b.outputRows with
  | [] => rw [hb] at hr; cases hr
  | [x] =>
    rw [hb, List.mem_singleton] at hr hr'
    rw [hr, hr']
  | x :: y :: l => rw [hb] at this; simp at this

theorem out_name {b : Block} {t : BlockType} (h : BOk L parse b t) {r : Nat} (hr : r ∈ b.outputRows) :
    (b.outputs.getD r none).getD "" ∈ outNames L b.typ := by
  rw [h.outNames]
  exact h.outs.mem_iff.1 (List.mem_map.2 ⟨r, hr, rfl⟩)

/-- What is to be shown for a block. -/
def EProp (a : Area) (L : Lang) (parse : String → Option F) (M : Machine F S) (ss : List Sink) (o : Pos) (b : Block) (n m : Nat) (nm : String)
    (P : Pos → Prop) (cs : CS) (D : Nat → Prop) (W : Pos → Prop) : Prop :=
  Sim a L M (Block.trans L parse (keyGraph a "zero" ss) n (.block o) (portOpt nm) cs)
    (fun r => ((runAt M L parse a m o r).1 nm, (runAt M L parse a m o r).2)) (b.outputRows ≠ []) o.1 P (fun i => i = b.id) cs D W

/-- What is known about a block when it is compiled. -/
structure EHyp (a : Area) (L : Lang) (o : Pos) (b : Block) (nm : String)
    (P : Pos → Prop) (cs : CS) (D : Nat → Prop) (W : Pos → Prop) : Prop where
  mem : (o, b) ∈ a.blocks
  inv : CInv a L cs D W
  pre : ∀ q, W q → q.1 < o.1 → Settled a D q
  fresh : ¬ D b.id
  col : ∀ q, P q → q.1 = o.1
  mark : ¬ Cached L b → ∀ r ∈ b.outputRows, P (o.1, o.2 + (r : Int))
  port : (b.outputRows = [] ∧ nm = "") ∨ nm ∈ outNames L b.typ

theorem EHyp.pre' {o : Pos} {b : Block} {nm : String} {P : Pos → Prop} {cs : CS} {D : Nat → Prop} {W : Pos → Prop}
    (h : EHyp a L o b nm P cs D W) : ∀ q, W q → q.1 < o.1 - 1 → Settled a D q := fun q h1 h2 => h.pre q h1 (by omega)

theorem EHyp.unused {o : Pos} {b : Block} {nm : String} {P : Pos → Prop} {cs : CS} {D : Nat → Prop} {W : Pos → Prop}
    (h : EHyp a L o b nm P cs D W) {e : String × Pos} (he : e ∈ b.sources o) : ¬ W e.2 := by
  intro hw
  have h1 := source_col he
  exact h.fresh (h.pre _ hw (by omega) o b (source_consumes h.mem he))

theorem runAt_fresh {o : Pos} {b : Block} (hlk : a.blocks.lookup o = some b) {m : Nat} {r : Run F S} (hd : r.done b.id = none) :
    runAt M L parse a (m + 1) o r =
      ((b.effect M L parse (wiresFrom a M.zero (runAt M L parse a m) (b.sources o) r).1 (wiresFrom a M.zero (runAt M L parse a m) (b.sources o) r).2).1,
       doneWith (b.effect M L parse (wiresFrom a M.zero (runAt M L parse a m) (b.sources o) r).1
          (wiresFrom a M.zero (runAt M L parse a m) (b.sources o) r).2).2 b.id
        (b.effect M L parse (wiresFrom a M.zero (runAt M L parse a m) (b.sources o) r).1 (wiresFrom a M.zero (runAt M L parse a m) (b.sources o) r).2).1) := by
  simp only [runAt, hlk, hd]
  rfl

theorem Rel.none {cs : CS} {D : Nat → Prop} {env : Env F S} {r : Run F S} (h : Rel cs D env r) {i : Nat} (hi : ¬ D i) : r.done i = none := by
  cases hd : r.done i with
  | none => rfl
  | some x => exact absurd ((h.done i).1 (by rw [hd]; rfl)) hi

/-- Blocks without inputs: values, zero, variables. -/
theorem leaf_sim (hS : Setup a L parse M) {o : Pos} {b : Block} {t : BlockType} (hB : BOk L parse b t) {nm : String} {P : Pos → Prop} {cs : CS}
    {D : Nat → Prop} {W : Pos → Prop} (h : EHyp a L o b nm P cs D W) {n m : Nat}
    (ht : b.typ = "zero" ∨ b.typ = "value" ∨ b.typ = "get") : EProp a L parse M ss o b (n + 1) (m + 1) nm P cs D W := by
  have hlk := (mem_iff_lookup hS.area.load.keys o b).1 h.mem
  have hsh := hB.shape.leaf ht
  have hsrc := source_zero hB hsh.1 o
  have hon : outNames L b.typ = [""] := by rw [hB.outNames, hsh.2]; rfl
  have hun : ¬ Cached L b := by
    unfold Cached
    rw [hon]
    rcases ht with h1 | h1 | h1 <;> rw [h1] <;> decide
  have hv : cs.var b.id ((portOpt nm).getD "") = none := h.inv.var_none h.fresh _
  have hinfo := block_info (ss := ss) hlk
  have hkids := block_kids (ss := ss) hlk
  rw [hsrc] at hkids
  have hrefl := Step.refl (X := o.1 - 1) h.inv h.pre'
  have hstep := step_block hS h.mem hrefl (fun _ h => h.elim) h.pre h.col
    (h.inv.finish hS.area hS.ids h.mem hun (h.mark hun)) (Nat.le_refl _) (fun _ h => .inl h)
  have key : ∀ (blk : Blk F) (j : Jit F), Block.trans L parse (keyGraph a "zero" ss) (n + 1) (.block o) (portOpt nm) cs = .ok (blk, cs) →
      toJit L M.zero blk = .ok j →
      (∀ (env : Env F S) (r : Run F S), Rel cs D env r → exec M j env = ((b.effect M L parse [] r).1 nm, env) ∧ (b.effect M L parse [] r).2 = r) →
      EProp a L parse M ss o b (n + 1) (m + 1) nm P cs D W := by
    intro blk j h1 h2 h3
    refine ⟨blk, j, cs, _, _, h1, h2, hstep, fun i hi => .inr hi, ?_⟩
    intro env r hr
    obtain ⟨h4, h5⟩ := h3 env r hr
    simp only [runAt_fresh hlk (hr.none h.fresh), hsrc, wiresFrom]
    rw [h5]
    exact ⟨_, env, h4, fun _ => rfl, hr.finish h.inv h.fresh _⟩
  rcases ht with h1 | h1 | h1
  · rw [h1] at hinfo hon
    refine key (.node b.id (portOpt nm) "zero" b.lbl [] []) (.literal M.zero) ?_ ?_ ?_
    · rw [trans_op hinfo hv (by unfold Special; decide), hkids]
      simp only [List.map_nil, transKids, transOp, hon]
    · simp only [toJit, jitNode]; rfl
    · intro env r hr
      simp only [Block.effect, h1, if_true, exec]
      trivial
  · rw [h1] at hinfo
    obtain ⟨v, hpv⟩ := Option.isSome_iff_exists.1 (hB.number h1)
    refine key (.literal v) (.literal v) (trans_value hinfo hv hpv) (by simp only [toJit]) ?_
    intro env r hr
    have e1 : ("value" : String) ≠ "zero" := by decide
    simp only [Block.effect, h1, if_neg e1, if_true, exec, hpv]
    trivial
  · rw [h1] at hinfo
    refine key (.get b.id b.lbl) (.var b.lbl) (trans_get hinfo hv) (by simp only [toJit]) ?_
    intro env r hr
    have e1 : ("get" : String) ≠ "zero" := by decide
    have e2 : ("get" : String) ≠ "value" := by decide
    simp only [Block.effect, h1, if_neg e1, if_neg e2, if_true, exec]
    rw [hr.user _ (hB.name (.inr h1))]
    trivial

/-- One wire into a block. -/
theorem one_wire (hS : Setup a L parse M) {k : Nat} (hV : VProp a L parse M ss k) {o : Pos} {b : Block} (hk : rank a o < k + 1)
    {nm : String} {P : Pos → Prop} {cs : CS} {D : Nat → Prop} {W : Pos → Prop} (h : EHyp a L o b nm P cs D W) {p : Pos}
    (hsrc : b.sources o = [("", p)]) {n m : Nat} (hn : k + 1 ≤ n) (hm : k ≤ m) {c : Nat} (hc : cs.counter ≤ c) :
    Sim a L M (Block.trans L parse (keyGraph a "zero" ss) n (target a "" p).2.2 (portOpt (target a "" p).2.1) ⟨cs.map, c⟩)
    (fun r => wireFrom a M.zero (runAt M L parse a m) p r) True (o.1 - 1) (fun q => q = p) (fun _ => False) ⟨cs.map, c⟩ D W := by
  have hmem : (("", p) : String × Pos) ∈ b.sources o := by rw [hsrc]; exact List.mem_cons_self
  have hcol := source_col hmem
  simp only at hcol
  have := hV p "" (source_rank hS hk hmem) n m hn hm ⟨cs.map, c⟩ D W (h.inv.bump hc) (by
    intro q h1 h2; exact h.pre q h1 (by omega)) (h.unused hmem)
  rw [hcol] at this
  exact this

/-- A wire that is drawn as a block. -/
theorem wire_sim (hS : Setup a L parse M) {k : Nat} (hV : VProp a L parse M ss k) {o : Pos} {b : Block} (hk : rank a o < k + 1) {t : BlockType}
    (hB : BOk L parse b t) {nm : String} {P : Pos → Prop} {cs : CS}
    {D : Nat → Prop} {W : Pos → Prop} (h : EHyp a L o b nm P cs D W) {n m : Nat} (hn : k + 1 ≤ n) (hm : k ≤ m)
    (ht : b.typ = "->") : EProp a L parse M ss o b (n + 1) (m + 1) nm P cs D W := by
  have hlk := (mem_iff_lookup hS.area.load.keys o b).1 h.mem
  have hsh := hB.shape.wire ht
  obtain ⟨p, hsrc⟩ := source_one hB hsh.1 o
  have hon : outNames L b.typ = [""] := by rw [hB.outNames, hsh.2]; rfl
  have hun : ¬ Cached L b := by
    unfold Cached
    rw [hon, ht]
    decide
  have hv : cs.var b.id ((portOpt nm).getD "") = none := h.inv.var_none h.fresh _
  have hinfo := block_info (ss := ss) hlk
  have hkids := block_kids (ss := ss) hlk
  rw [hsrc] at hkids
  rw [ht] at hinfo
  obtain ⟨blk, j, cs1, D1, W1, h1, h2, h3, -, h4⟩ := one_wire hS hV hk h hsrc hn hm (Nat.le_refl _)
  have hnd := not_done hS h.mem h3 h.fresh
  have hstep := step_block hS h.mem h3 (by
      intro q (hq : q = p)
      rw [hq]
      exact source_consumes (e := ("", p)) h.mem (by rw [hsrc]; exact List.mem_cons_self)) h.pre h.col
    (h3.inv.finish hS.area hS.ids h.mem hun (h.mark hun)) (Nat.le_refl _) (fun _ h => .inl h)
  refine ⟨blk, j, cs1, _, _, ?_, h2, hstep, fun i hi => .inr hi, ?_⟩
  · rw [trans_wire hinfo hv hkids]
    exact h1
  · intro env r hr
    obtain ⟨v, env', e1, e2, e3⟩ := h4 env r hr
    refine ⟨v, env', e1, ?_, ?_⟩
    · intro _
      simp only [runAt_fresh hlk (hr.none h.fresh), hsrc, wiresFrom, Block.effect, ht]
      rw [if_neg (by decide), if_neg (by decide), if_neg (by decide), if_pos (by decide)]
      exact e2 trivial
    · simp only [runAt_fresh hlk (hr.none h.fresh), hsrc, wiresFrom, Block.effect, ht]
      rw [if_neg (by decide), if_neg (by decide), if_neg (by decide), if_pos (by decide)]
      exact e3.finish h3.inv hnd _

/-- Writing a variable. -/
theorem set_sim (hS : Setup a L parse M) {k : Nat} (hV : VProp a L parse M ss k) {o : Pos} {b : Block} (hk : rank a o < k + 1) {t : BlockType}
    (hB : BOk L parse b t) {nm : String} {P : Pos → Prop} {cs : CS}
    {D : Nat → Prop} {W : Pos → Prop} (h : EHyp a L o b nm P cs D W) {n m : Nat} (hn : k + 1 ≤ n) (hm : k ≤ m)
    (ht : b.typ = "set") : EProp a L parse M ss o b (n + 1) (m + 1) nm P cs D W := by
  have hlk := (mem_iff_lookup hS.area.load.keys o b).1 h.mem
  have hsh := hB.shape.set ht
  obtain ⟨p, hsrc⟩ := source_one hB hsh.1 o
  have hon : outNames L b.typ = [] := by rw [hB.outNames, hsh.2]; rfl
  have hrows : b.outputRows = [] := by
    cases hr : b.outputRows with
    | nil => rfl
    | cons r l =>
      have := out_name hB (r := r) (by rw [hr]; exact List.mem_cons_self)
      rw [hon] at this
      cases this
  have hun : ¬ Cached L b := by
    unfold Cached
    rw [hon, ht]
    decide
  have hv : cs.var b.id ((portOpt nm).getD "") = none := h.inv.var_none h.fresh _
  have hinfo := block_info (ss := ss) hlk
  have hkids := block_kids (ss := ss) hlk
  rw [hsrc] at hkids
  rw [ht] at hinfo
  obtain ⟨blk, j, cs1, D1, W1, h1, h2, h3, -, h4⟩ := one_wire hS hV hk h hsrc hn hm (Nat.le_refl _)
  have hnd := not_done hS h.mem h3 h.fresh
  have hstep := step_block hS h.mem h3 (by
      intro q (hq : q = p)
      rw [hq]
      exact source_consumes (e := ("", p)) h.mem (by rw [hsrc]; exact List.mem_cons_self)) h.pre h.col
    (h3.inv.finish hS.area hS.ids h.mem hun (h.mark hun)) (Nat.le_refl _) (fun _ h => .inl h)
  have huser := hB.name (.inl ht)
  refine ⟨.set b.lbl blk, .assign b.lbl j, cs1, _, _, ?_, ?_, hstep, fun i hi => .inr hi, ?_⟩
  · rw [trans_set hinfo hv hkids]
    have e : (⟨cs.map, cs.counter⟩ : CS) = cs := rfl
    rw [e] at h1
    simp only at h1 ⊢
    rw [h1]; rfl
  · simp only [toJit, h2]; rfl
  · intro env r hr
    obtain ⟨v, env', e1, e2, e3⟩ := h4 env r hr
    refine ⟨v, ⟨upd env'.vars b.lbl v, env'.mem⟩, ?_, fun hh => absurd hrows hh, ?_⟩
    · simp only [exec, e1]
    · simp only [runAt_fresh hlk (hr.none h.fresh), hsrc, wiresFrom, Block.effect, ht]
      rw [if_neg (by decide), if_neg (by decide), if_neg (by decide), if_neg (by decide), if_pos (by decide)]
      have e4 : Rel cs1 D1 ⟨upd env'.vars b.lbl v, env'.mem⟩
          { (wireFrom a M.zero (runAt M L parse a m) p r).2 with
            vars := upd (wireFrom a M.zero (runAt M L parse a m) p r).2.vars b.lbl (wireFrom a M.zero (runAt M L parse a m) p r).1 } := by
        refine ⟨e3.done, ?_, ?_, e3.mem, ?_⟩
        · intro i outs nm' v' g1 g2
          obtain ⟨j', x, g3, -⟩ := h3.inv.var_tmp g2
          show upd env'.vars b.lbl v v' = _
          unfold upd
          rw [if_neg (by rintro rfl; rw [g3] at huser; exact tmp_not_user huser)]
          exact e3.outs i outs nm' v' g1 g2
        · intro x hx
          show upd env'.vars b.lbl v x = upd _ b.lbl _ x
          unfold upd
          rw [e2 trivial, e3.user x hx]
        · intro v' g1
          show upd env'.vars b.lbl v "_res_" = _
          unfold upd
          rw [if_neg (by intro hh; rw [← hh] at huser; exact huser.1 rfl)]
          exact e3.res v' g1
      exact e4.finish h3.inv hnd _

/-- A wire with many ends. -/
theorem fan_sim (hS : Setup a L parse M) {k : Nat} (hV : VProp a L parse M ss k) {o : Pos} {b : Block} (hk : rank a o < k + 1) {t : BlockType}
    (hB : BOk L parse b t) {nm : String} {P : Pos → Prop} {cs : CS}
    {D : Nat → Prop} {W : Pos → Prop} (h : EHyp a L o b nm P cs D W) {n m : Nat} (hn : k + 1 ≤ n) (hm : k ≤ m)
    (ht : b.typ = "->2" ∨ b.typ = "->3") : EProp a L parse M ss o b (n + 1) (m + 1) nm P cs D W := by
  have hlk := (mem_iff_lookup hS.area.load.keys o b).1 h.mem
  have hsh := hB.shape.fan ht
  obtain ⟨p, hsrc⟩ := source_one hB hsh.1 o
  have hon : ∀ x ∈ outNames L b.typ, x = "" := by
    intro x hx
    rw [hB.outNames, List.mem_filterMap] at hx
    obtain ⟨y, hy, hxy⟩ := hx
    have := hsh.2 y hy
    rw [this] at hxy
    exact (Option.some.inj hxy).symm
  have hcd : Cached L b := by
    unfold Cached
    tauto
  have hv : cs.var b.id ((portOpt nm).getD "") = none := h.inv.var_none h.fresh _
  have hinfo := block_info (ss := ss) hlk
  have hkids := block_kids (ss := ss) hlk
  rw [hsrc] at hkids
  obtain ⟨blk, j, cs1, D1, W1, h1, h2, h3, -, h4⟩ := one_wire hS hV hk h hsrc hn hm (Nat.le_succ cs.counter)
  have hnd := not_done hS h.mem h3 h.fresh
  generalize htmp : tmpName (cs.counter + 1) "" = tmp
  have hcnt : cs.counter + 1 ≤ cs1.counter := h3.cnt
  have k1 : ∀ e ∈ (cs1.store b.id "" tmp).map, e ∈ cs1.map ∨ ∃ nm j x, e.1 = idout b.id nm ∧ e.2 = tmpName j x ∧ j ≤ (cs1.store b.id "" tmp).counter := by
    intro e he
    rcases List.mem_cons.1 he with rfl | he
    · exact .inr ⟨"", cs.counter + 1, "", rfl, htmp.symm, hcnt⟩
    · exact .inl he
  have k2 : ∀ id' nm, id' ≠ b.id → (cs1.store b.id "" tmp).var id' nm = cs1.var id' nm := by
    intro id' nm' hne
    simp only [CS.var, CS.store, List.lookup_cons]
    rw [beq_false_of_ne (fun hh => hne (idout_inj hh).1)]
  have kv : (cs1.store b.id "" tmp).var b.id "" = some tmp := by
    simp only [CS.var, CS.store, List.lookup_cons, beq_self_eq_true]
  have kn : ∀ nm', nm' ≠ "" → (cs1.store b.id "" tmp).var b.id nm' = none := by
    intro nm' hne
    have e : (cs1.store b.id "" tmp).var b.id nm' = cs1.var b.id nm' := by
      simp only [CS.var, CS.store, List.lookup_cons]
      rw [beq_false_of_ne (fun hh => hne (idout_inj hh).2)]
    rw [e]
    exact h3.inv.var_none hnd _
  have k3 : ∀ nm ∈ outNames L b.typ, ∃ v, (cs1.store b.id "" tmp).var b.id nm = some v := by
    intro x hx
    rw [hon x hx]
    exact ⟨tmp, kv⟩
  have hstep0 : Step a L (o.1 - 1) (fun q => q = p) (fun _ => False) cs D W cs1 D1 W1 := by
    refine ⟨h3.inv, h3.dmono, h3.wmono, Nat.le_trans (Nat.le_succ _) h3.cnt, ?_, h3.pre, h3.neww, h3.newd⟩
    intro e he
    rcases h3.ents e he with g | ⟨i, x, g1, g2⟩
    · exact .inl g
    · exact .inr ⟨i, x, g1, Nat.lt_of_succ_lt g2⟩
  have hstep := step_block hS h.mem hstep0 (by
      intro q (hq : q = p)
      rw [hq]
      exact source_consumes (e := ("", p)) h.mem (by rw [hsrc]; exact List.mem_cons_self)) h.pre h.col
    (CInv.keep hS h.mem (P := P) h3.inv hcd k1 k2 k3 (Nat.le_refl _)) (Nat.le_refl _) (by
      intro e he
      rcases List.mem_cons.1 he with rfl | he
      · exact .inr ⟨cs.counter + 1, "", htmp.symm, Nat.lt_succ_self _⟩
      · exact .inl he)
  refine ⟨.area [.set tmp blk, .get 0 tmp], .stmts [.assign tmp j, .var tmp], cs1.store b.id "" tmp, _, _, ?_, ?_, hstep, fun i hi => .inr hi, ?_⟩
  · rw [trans_fan hinfo ht hv hkids, htmp]
    simp only at h1 ⊢
    rw [h1]; rfl
  · simp only [toJit, toJits, h2]; rfl
  · intro env r hr
    have hr' : Rel ⟨cs.map, cs.counter + 1⟩ D env r := ⟨hr.done, hr.outs, hr.user, hr.mem, hr.res⟩
    obtain ⟨v, env', e1, e2, e3⟩ := h4 env r hr'
    have heff : ∀ r', b.effect M L parse [("", (wireFrom a M.zero (runAt M L parse a m) p r).1)] r' =
        (fun _ => (wireFrom a M.zero (runAt M L parse a m) p r).1, r') := by
      intro r'
      unfold Block.effect
      rcases ht with ht | ht
      · rw [ht, if_neg (by decide), if_neg (by decide), if_neg (by decide), if_pos (by decide)]; rfl
      · rw [ht, if_neg (by decide), if_neg (by decide), if_neg (by decide), if_pos (by decide)]; rfl
    refine ⟨v, ⟨upd env'.vars tmp v, env'.mem⟩, ?_, ?_, ?_⟩
    · simp only [exec, execStmts, e1]
      unfold upd
      rw [if_pos rfl]
    · intro _
      simp only [runAt_fresh hlk (hr.none h.fresh), hsrc, wiresFrom, heff]
      exact e2 trivial
    · simp only [runAt_fresh hlk (hr.none h.fresh), hsrc, wiresFrom, heff]
      refine Rel.keep h3.inv e3 hnd k2 rfl ?_ ?_
      · intro x hx
        show upd env'.vars tmp v x = _
        unfold upd
        rw [if_neg]
        rintro rfl
        rcases hx with hx | hx | ⟨i, nm', hx⟩
        · rw [← htmp] at hx
          exact tmp_not_user hx
        · rw [← htmp] at hx
          exact tmpName_ne_res _ _ hx
        · rcases h3.ents _ (lookup_mem' hx) with g | ⟨i, y, g1, g2⟩
          · obtain ⟨_, _, j', y, -, -, -, g3, g4⟩ := h.inv.ents _ g
            simp only at g3
            rw [← htmp] at g3
            have := tmpName_inj g3
            omega
          · simp only at g1 g2
            rw [← htmp] at g1
            have := tmpName_inj g1
            omega
      · intro nm' v' g
        by_cases hnm : nm' = ""
        · rw [hnm, kv] at g
          cases g
          show upd env'.vars tmp v tmp = _
          unfold upd
          rw [if_pos rfl]
          exact e2 trivial
        · rw [kn nm' hnm] at g
          cases g

end

end HexoDSP.Block
