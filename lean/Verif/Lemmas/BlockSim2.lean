import Verif.Lemmas.BlockSim
/-! The compiled program does what the diagram says: blocks and wires. -/

set_option linter.unusedSectionVars false
set_option linter.dupNamespace false

namespace HexoDSP.Block

section
variable {F S : Type}

/-- What is given. -/
structure Setup (a : Area) (L : Lang) (parse : String → Option F) (M : Machine F S) : Prop where
  area : AreaOk a
  ids : ∀ o b o' b', (o, b) ∈ a.blocks → (o', b') ∈ a.blocks → b.id = b'.id → o = o'
  blocks : ∀ o b, (o, b) ∈ a.blocks → ∃ t, BOk L parse b t
  delivers : M.Delivers L
  zero : ∃ t, L "zero" = some t ∧ Shape "zero" t ∧ t.name = "zero"

variable {a : Area} {L : Lang} {parse : String → Option F} {M : Machine F S}

theorem portOpt_getD (s : String) : (portOpt s).getD "" = s := by
  unfold portOpt
  split
  · rename_i h; rw [h]; rfl
  · rfl

theorem Setup.same (h : Setup a L parse M) {o o' : Pos} {b b' : Block} (hb : (o, b) ∈ a.blocks) (hb' : (o', b') ∈ a.blocks)
    (he : b'.id = b.id) : o' = o ∧ b' = b := by
  have := h.ids o' b' o b hb' hb he
  subst this
  have h1 := (mem_iff_lookup h.area.load.keys o' b').1 hb'
  rw [(mem_iff_lookup h.area.load.keys o' b).1 hb] at h1
  exact ⟨rfl, (Option.some.inj h1).symm⟩

theorem Step.refl {X : Int} {cs : CS} {D : Nat → Prop} {W : Pos → Prop} (h : CInv a L cs D W)
    (hp : ∀ q, W q → q.1 < X → Settled a D q) : Step a L X (fun _ => False) (fun _ => False) cs D W cs D W :=
  ⟨h, fun _ h => h, fun _ h => h, Nat.le_refl _, fun _ h => .inl h, hp, fun _ h => .inl h, fun _ h => .inl h⟩

theorem Settled.mono {D D' : Nat → Prop} (h : ∀ i, D i → D' i) {q : Pos} (hs : Settled a D q) : Settled a D' q :=
  fun o b hc => h _ (hs o b hc)

theorem Step.trans {X : Int} {new1 new2 : Pos → Prop} {cs cs1 cs2 : CS} {D D1 D2 : Nat → Prop} {W W1 W2 : Pos → Prop}
    (h1 : Step a L X new1 (fun _ => False) cs D W cs1 D1 W1) (h2 : Step a L X new2 (fun _ => False) cs1 D1 W1 cs2 D2 W2) :
    Step a L X (fun q => new1 q ∨ new2 q) (fun _ => False) cs D W cs2 D2 W2 := by
  refine ⟨h2.inv, fun i h => h2.dmono i (h1.dmono i h), fun q h => h2.wmono q (h1.wmono q h), Nat.le_trans h1.cnt h2.cnt, ?_, h2.pre, ?_, ?_⟩
  · intro e he
    rcases h2.ents e he with h | ⟨i, x, h3, h4⟩
    · exact h1.ents e h
    · exact .inr ⟨i, x, h3, Nat.lt_of_le_of_lt h1.cnt h4⟩
  · intro q hq
    rcases h2.neww q hq with h | h | h
    · rcases h1.neww q h with h | h | h
      · exact .inl h
      · exact .inr (.inl (.inl h))
      · exact .inr (.inr h)
    · exact .inr (.inl (.inr h))
    · exact .inr (.inr h)
  · intro i hi
    rcases h2.newd i hi with h | h
    · exact h1.newd i h
    · exact .inr h

/-- A piece of code does what is specified. -/
def Sim (a : Area) (L : Lang) (M : Machine F S) (code : Except CErr (Blk F × CS)) (spec : Run F S → F × Run F S) (good : Prop) (X : Int)
    (new : Pos → Prop) (sink : Nat → Prop) (cs : CS) (D : Nat → Prop) (W : Pos → Prop) : Prop :=
  ∃ blk j cs' D' W', code = .ok (blk, cs') ∧ toJit L M.zero blk = .ok j ∧ Step a L X new sink cs D W cs' D' W' ∧
    (∀ i, sink i → D' i) ∧
    ∀ (env : Env F S) (r : Run F S), Rel cs D env r → ∃ v env', exec M j env = (v, env') ∧ (good → v = (spec r).1) ∧ Rel cs' D' env' (spec r).2

/-- Wires to blocks of rank less than `k`. -/
def VProp (a : Area) (L : Lang) (parse : String → Option F) (M : Machine F S) (ss : List Sink) (k : Nat) : Prop :=
  ∀ (p : Pos) (inp : String), (∀ o b, a.refAtOrigin p = some (b, o) → rank a o < k) → ∀ n m, k + 1 ≤ n → k ≤ m →
  ∀ cs D W, CInv a L cs D W → (∀ q, W q → q.1 < p.1 → Settled a D q) → ¬ W p →
  Sim a L M (Block.trans L parse (keyGraph a "zero" ss) n (target a inp p).2.2 (portOpt (target a inp p).2.1) cs)
    (fun r => wireFrom a M.zero (runAt M L parse a m) p r) True p.1 (fun q => q = p) (fun _ => False) cs D W

theorem target_fst (inp : String) (p : Pos) : (target a inp p).1 = inp := by
  unfold target
  cases a.refAtOrigin p with
  | none => rfl
  | some bo =>
    simp only
    cases bo.1.outputs.getD (p.2 - bo.2.2).toNat none <;> rfl

theorem wiresFrom_fst (zero : F) (run : Pos → Run F S → (String → F) × Run F S) : ∀ (ps : List (String × Pos)) (r : Run F S),
    (wiresFrom a zero run ps r).1.map (·.1) = ps.map (·.1) := by
  intro ps
  induction ps with
  | nil => intro r; rfl
  | cons p ps ih => intro r; simp only [wiresFrom, List.map_cons, ih]

/-- Many wires, one after the other. -/
theorem kids_sim {ss : List Sink} {k : Nat} (hV : VProp a L parse M ss k) {n m : Nat} (hn : k + 1 ≤ n) (hm : k ≤ m) {X : Int} :
    ∀ (ps : List (String × Pos)), (∀ e ∈ ps, e.2.1 = X) → (ps.map (·.2)).Nodup →
    (∀ e ∈ ps, ∀ o b, a.refAtOrigin e.2 = some (b, o) → rank a o < k) →
    ∀ cs D W, CInv a L cs D W → (∀ q, W q → q.1 < X → Settled a D q) → (∀ e ∈ ps, ¬ W e.2) →
    ∃ blks js cs' D' W', transKids (Block.trans L parse (keyGraph a "zero" ss) n) (ps.map (fun e => target a e.1 e.2)) cs = .ok (blks, cs') ∧
      toJits L M.zero blks = js.map .ok ∧ js.length = ps.length ∧
      Step a L X (fun q => ∃ e ∈ ps, q = e.2) (fun _ => False) cs D W cs' D' W' ∧
      ∀ (env : Env F S) (r : Run F S), Rel cs D env r → ∃ env', execArgs M js env =
        ((wiresFrom a M.zero (runAt M L parse a m) ps r).1.map (·.2), env') ∧
        Rel cs' D' env' (wiresFrom a M.zero (runAt M L parse a m) ps r).2 := by
  intro ps
  induction ps with
  | nil =>
    intro _ _ _ cs D W hc hp _
    refine ⟨[], [], cs, D, W, rfl, rfl, rfl, ?_, ?_⟩
    · have h := Step.refl hc hp
      exact ⟨h.inv, h.dmono, h.wmono, h.cnt, h.ents, h.pre, fun _ h => .inl h, h.newd⟩
    · intro env r hr
      exact ⟨env, by simp [execArgs, wiresFrom], hr⟩
  | cons e ps ih =>
    intro hX hnd hrk cs D W hc hp hW
    have hX1 := hX e List.mem_cons_self
    obtain ⟨blk, j, cs1, D1, W1, h1, h2, h3, -, h4⟩ := hV e.2 e.1 (hrk e List.mem_cons_self) n m hn hm cs D W hc
      (by rw [hX1]; exact hp) (hW e List.mem_cons_self)
    rw [hX1] at h3
    rw [List.map_cons, List.nodup_cons] at hnd
    obtain ⟨blks, js, cs2, D2, W2, g1, g2, g3, g4, g5⟩ := ih (fun e' he' => hX e' (List.mem_cons_of_mem _ he')) hnd.2
      (fun e' he' => hrk e' (List.mem_cons_of_mem _ he')) cs1 D1 W1 h3.inv h3.pre (by
        intro e' he' hw
        rcases h3.neww _ hw with h | h | ⟨h, -⟩
        · exact hW e' (List.mem_cons_of_mem _ he') h
        · exact hnd.1 (List.mem_map.2 ⟨e', he', h⟩)
        · rw [hX e' (List.mem_cons_of_mem _ he')] at h
          omega)
    refine ⟨blk :: blks, j :: js, cs2, D2, W2, ?_, ?_, by simp [g3], ?_, ?_⟩
    · rw [List.map_cons, transKids, h1]
      simp only
      rw [g1]
    · rw [toJits, h2, g2]; rfl
    · have h := h3.trans g4
      refine ⟨h.inv, h.dmono, h.wmono, h.cnt, h.ents, h.pre, ?_, h.newd⟩
      intro q hq
      rcases h.neww q hq with h | (h | ⟨e', he', h⟩) | h
      · exact .inl h
      · exact .inr (.inl ⟨e, List.mem_cons_self, h⟩)
      · exact .inr (.inl ⟨e', List.mem_cons_of_mem _ he', h⟩)
      · exact .inr (.inr h)
    · intro env r hr
      obtain ⟨v, env1, e1, e2, e3⟩ := h4 env r hr
      obtain ⟨env2, f1, f2⟩ := g5 env1 _ e3
      refine ⟨env2, ?_, ?_⟩
      · rw [execArgs, e1]
        simp only
        rw [f1, e2 trivial]
        rfl
      · exact f2

/-- From the sources of a block to the block. -/
theorem step_block (hS : Setup a L parse M) {o : Pos} {b : Block} (hb : (o, b) ∈ a.blocks) {cs cs1 cs2 : CS} {D D1 : Nat → Prop}
    {W W1 P : Pos → Prop} {new : Pos → Prop} (h : Step a L (o.1 - 1) new (fun _ => False) cs D W cs1 D1 W1)
    (hnew : ∀ q, new q → Consumes a q o b) (hp : ∀ q, W q → q.1 < o.1 → Settled a D q) (hP : ∀ q, P q → q.1 = o.1)
    (hc : CInv a L cs2 (fun i => D1 i ∨ i = b.id) (fun q => W1 q ∨ P q)) (hcnt : cs1.counter ≤ cs2.counter)
    (hents : ∀ e ∈ cs2.map, e ∈ cs1.map ∨ ∃ i x, e.2 = tmpName i x ∧ cs.counter < i) :
    Step a L o.1 P (fun i => i = b.id) cs D W cs2 (fun i => D1 i ∨ i = b.id) (fun q => W1 q ∨ P q) := by
  have hcol : ∀ {q}, Consumes a q o b → q.1 = o.1 - 1 := by
    rintro q ⟨-, r, -, h1, -⟩; omega
  refine ⟨hc, fun i h1 => .inl (h.dmono i h1), fun q h1 => .inl (h.wmono q h1), Nat.le_trans h.cnt hcnt, ?_, ?_, ?_, ?_⟩
  · intro e he
    rcases hents e he with h1 | h1
    · exact h.ents e h1
    · exact .inr h1
  · rintro q (hq | hq) hlt
    · rcases h.neww q hq with h1 | h1 | ⟨h1, -⟩
      · exact Settled.mono (fun i hi => .inl (h.dmono i hi)) (hp q h1 hlt)
      · intro o' b' hc'
        rw [(Consumes.unique hS.area hc' (hnew q h1)).2]
        exact .inr rfl
      · exact Settled.mono (fun i hi => .inl hi) (h.pre q hq h1)
    · have := hP q hq
      omega
  · rintro q (hq | hq)
    · rcases h.neww q hq with h1 | h1 | ⟨h1, h2⟩
      · exact .inl h1
      · have := hcol (hnew q h1)
        exact .inr (.inr ⟨by omega, o, b, hnew q h1⟩)
      · exact .inr (.inr ⟨by omega, h2⟩)
    · exact .inr (.inl hq)
  · rintro i (hi | hi)
    · rcases h.newd i hi with h1 | ⟨o', b', h1, h2, h3, h4⟩
      · exact .inl h1
      · refine .inr ⟨o', b', h1, h2, by omega, ?_⟩
        rcases h4 with h4 | h4
        · exact .inl h4
        · exact h4.elim
    · exact .inr ⟨o, b, hb, hi.symm, Int.le_refl _, .inr hi⟩

/-- The block itself has not run when its sources have. -/
theorem not_done (hS : Setup a L parse M) {o : Pos} {b : Block} (hb : (o, b) ∈ a.blocks) {cs cs1 : CS} {D D1 : Nat → Prop}
    {W W1 : Pos → Prop} {new : Pos → Prop} (h : Step a L (o.1 - 1) new (fun _ => False) cs D W cs1 D1 W1) (hd : ¬ D b.id) : ¬ D1 b.id := by
  intro h1
  rcases h.newd _ h1 with h2 | ⟨o', b', h2, h3, h4, -⟩
  · exact hd h2
  · have := (hS.same hb h2 h3).1
    rw [this] at h4
    omega

/-- Outputs kept in variables. -/
theorem CInv.keep (hS : Setup a L parse M) {o : Pos} {b : Block} (hb : (o, b) ∈ a.blocks) {cs1 cs2 : CS} {D : Nat → Prop} {W P : Pos → Prop}
    (h : CInv a L cs1 D W) (hcd : Cached L b)
    (k1 : ∀ e ∈ cs2.map, e ∈ cs1.map ∨ ∃ nm j x, e.1 = idout b.id nm ∧ e.2 = tmpName j x ∧ j ≤ cs2.counter)
    (k2 : ∀ id' nm, id' ≠ b.id → cs2.var id' nm = cs1.var id' nm)
    (k3 : ∀ nm ∈ outNames L b.typ, ∃ v, cs2.var b.id nm = some v) (k4 : cs1.counter ≤ cs2.counter) :
    CInv a L cs2 (fun i => D i ∨ i = b.id) (fun q => W q ∨ P q) := by
  refine ⟨?_, ?_, ?_⟩
  · intro e he
    rcases k1 e he with h1 | ⟨nm, j, x, h1, h2, h3⟩
    · obtain ⟨i, nm, j, x, g1, g2, g3, g4, g5⟩ := h.ents e h1
      exact ⟨i, nm, j, x, .inl g1, g2, g3, g4, Nat.le_trans g5 k4⟩
    · obtain ⟨t, ht⟩ := hS.blocks o b hb
      exact ⟨b.id, nm, j, x, .inr rfl, ht.id, h1, h2, h3⟩
  · intro o' b' hb' hd hc nm hnm
    by_cases he : b'.id = b.id
    · rw [(hS.same hb hb' he).2] at hnm ⊢
      exact k3 nm hnm
    · rw [k2 _ _ he]
      rcases hd with hd | hd
      · exact h.kept o' b' hb' hd hc nm hnm
      · exact absurd hd he
  · intro o' b' hb' hd hc r hr
    rcases hd with hd | hd
    · exact .inl (h.once o' b' hb' hd hc r hr)
    · rw [(hS.same hb hb' hd).2] at hc
      exact absurd hcd hc

theorem Rel.keep {cs1 cs2 : CS} {D : Nat → Prop} {W : Pos → Prop} (hc : CInv a L cs1 D W) {env env' : Env F S} {r : Run F S}
    (h : Rel cs1 D env r) {i : Nat} (hi : ¬ D i) {outs : String → F} (k2 : ∀ id' nm, id' ≠ i → cs2.var id' nm = cs1.var id' nm)
    (hmem : env'.mem = env.mem)
    (hold : ∀ x, UserVar x ∨ x = "_res_" ∨ (∃ i nm, cs1.var i nm = some x) → env'.vars x = env.vars x)
    (hout : ∀ nm v, cs2.var i nm = some v → env'.vars v = outs nm) : Rel cs2 (fun j => D j ∨ j = i) env' (doneWith r i outs) := by
  have h1 := h.vars (vars := env'.vars) hold
  have h2 := h1.finish hc hi outs
  refine ⟨h2.done, ?_, h2.user, by rw [hmem]; exact h2.mem, h2.res⟩
  intro j outs' nm v g1 g2
  by_cases hj : j = i
  · subst hj
    unfold doneWith at g1
    simp only [if_true, Option.some.injEq] at g1
    rw [← g1]
    exact hout nm v g2
  · rw [k2 _ _ hj] at g2
    exact h2.outs j outs' nm v g1 g2

/-! ## Arguments -/

theorem childFor_names {js : List (Jit F)} : ∀ (names : List String), names.Nodup → js.length = names.length →
    names.map (fun nm => childFor (some nm) (names.map some) (js.map Except.ok)) = js.map (fun j => some (Except.ok j)) := by
  induction js with
  | nil =>
    intro names _ hl
    have := List.length_eq_zero_iff.1 hl.symm
    subst this; rfl
  | cons j js ih =>
    intro names hnd hl
    cases names with
    | nil => cases hl
    | cons nm names =>
      rw [List.nodup_cons] at hnd
      simp only [List.map_cons, childFor, if_true]
      congr 1
      rw [← ih names hnd.2 (by simpa using hl)]
      apply List.map_congr_left
      intro x hx
      rw [if_neg]
      intro hh
      cases hh
      exact hnd.1 hx

theorem lookup_names (zero : F) : ∀ (ins : List (String × F)), (ins.map (·.1)).Nodup →
    (ins.map (·.1)).map (fun nm => (ins.lookup nm).getD zero) = ins.map (·.2) := by
  intro ins
  induction ins with
  | nil => intro _; rfl
  | cons e ins ih =>
    intro hnd
    obtain ⟨k, v⟩ := e
    rw [List.map_cons, List.nodup_cons] at hnd
    simp only [List.map_cons, List.lookup_cons, beq_self_eq_true, Option.getD_some]
    congr 1
    rw [← ih hnd.2]
    apply List.map_congr_left
    intro x hx
    simp only at hnd
    rw [beq_false_of_ne (by rintro rfl; exact hnd.1 hx)]

theorem map_some_names (names : List String) : (names.map some).filterMap (fun o => o) = names := by
  induction names with
  | nil => rfl
  | cons x l ih => simp [ih]

theorem jitArgs_ok {typ : String} {t : BlockType} (ht : L typ = some t) (hs : Shape typ t) (id : Nat) {js : List (Jit F)}
    {names : List String} (hn : names = t.inputs.filterMap (fun o => o)) (hl : js.length = names.length) :
    jitArgs L typ id (names.map portOpt) (js.map Except.ok) = .ok js := by
  obtain ⟨ns, h1, h2⟩ := hs.ins
  have hns : names = ns := by rw [hn, h1, map_some_names]
  subst hns
  unfold jitArgs
  rw [ht]
  simp only
  have hlen : t.inputs.length = names.length := by rw [h1, List.length_map]
  rw [if_neg (by rw [List.length_map]; omega)]
  by_cases hh : t.inputs.head? = some (some "")
  · rw [if_pos hh, if_neg (by rw [List.length_map]; omega), sequence_ok]
  · rw [if_neg hh]
    rcases h2 with h2 | ⟨h2, h3⟩
    · exfalso
      apply hh
      rw [h1, List.head?_map, h2]; rfl
    · have hp : names.map portOpt = names.map some := by
        apply List.map_congr_left
        intro x hx
        unfold portOpt
        rw [if_neg (by rintro rfl; exact h3 hx)]
      rw [hp, h1, List.map_map]
      have := childFor_names names h2 hl
      have e : names.map ((fun name => (childFor name (names.map some) (js.map Except.ok)).getD (.error (.unassignedInput typ id name))) ∘ some) =
          js.map Except.ok := by
        have e1 : ∀ nm ∈ names, ((fun name => (childFor name (names.map some) (js.map Except.ok)).getD (.error (.unassignedInput typ id name))) ∘ some) nm =
            (childFor (some nm) (names.map some) (js.map Except.ok)).getD (.error .unknownError) := by
          intro nm hnm
          have : childFor (some nm) (names.map some) (js.map Except.ok) ∈ js.map (fun j => some (Except.ok j)) := by
            rw [← this]
            exact List.mem_map.2 ⟨nm, hnm, rfl⟩
          obtain ⟨j, -, hj⟩ := List.mem_map.1 this
          simp only [Function.comp, ← hj]
          rfl
        rw [List.map_congr_left e1]
        have := congrArg (List.map (fun x => Option.getD x (.error .unknownError))) this
        rw [List.map_map, List.map_map] at this
        exact this
      rw [e, sequence_ok]

theorem arrange_ok (zero : F) {typ : String} {t : BlockType} (hs : Shape typ t) {ins : List (String × F)}
    (hn : ins.map (·.1) = t.inputs.filterMap (fun o => o)) : arrange zero t ins = ins.map (·.2) := by
  obtain ⟨ns, h1, h2⟩ := hs.ins
  have hns : ins.map (·.1) = ns := by rw [hn, h1, map_some_names]
  unfold arrange
  by_cases hh : t.inputs.head? = some (some "")
  · rw [if_pos hh]
  · rw [if_neg hh]
    rcases h2 with h2 | ⟨h2, h3⟩
    · exfalso
      apply hh
      rw [h1, List.head?_map, h2]; rfl
    · rw [h1, List.map_map, ← hns]
      exact lookup_names zero ins (hns ▸ h2)

end

end HexoDSP.Block
