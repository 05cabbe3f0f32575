import Verif.Lemmas.Owner
/-! What the audio thread reads and writes. -/

set_option linter.unusedSectionVars false

namespace HexoDSP.Engine
open EngineSpec

variable {N V A M σ : Type} [DecidableEq N]

/-- `h'` differs from `h` at most in the contents of the buffers `S`. -/
structure Touches (S : List BufId) (h h' : Heap V) : Prop where
  next : h'.next = h.next
  freed : h'.freed = h.freed
  data : ∀ b, b ∉ S → h'.data b = h.data b

/-- The buffers of `S` have the same contents. -/
def Agree (S : List BufId) (h k : Heap V) : Prop := ∀ b ∈ S, h.data b = k.data b

theorem Touches.refl (S : List BufId) (h : Heap V) : Touches S h h := ⟨rfl, rfl, fun _ _ => rfl⟩

theorem Touches.trans {S : List BufId} {h h' h'' : Heap V} (a : Touches S h h') (b : Touches S h' h'') :
    Touches S h h'' :=
  ⟨b.1.trans a.1, b.2.trans a.2, fun c hc => (b.3 c hc).trans (a.3 c hc)⟩

theorem touches_write {S : List BufId} {b : BufId} (hb : b ∈ S) (h : Heap V) (blk : Block V) :
    Touches S h (h.write b blk) :=
  ⟨rfl, rfl, fun c hc => if_neg (fun (e : c = b) => hc (by rw [e]; exact hb))⟩

theorem agree_write {S : List BufId} {h k : Heap V} (ha : Agree S h k) (b : BufId) {x y : Block V}
    (hxy : x = y) : Agree S (h.write b x) (k.write b y) := by
  intro c hc
  show (if c = b then x else h.data c) = (if c = b then y else k.data c)
  rw [hxy, ha c hc]

/-- Two outcomes of the same computation on heaps that agree on `S`. -/
def OptRel {α β : Type} (R : α → β → Prop) : Option α → Option β → Prop
  | none, none => True
  | some a, some b => R a b
  | _, _ => False

theorem OptRel.some_left {α β : Type} {R : α → β → Prop} {a : α} {y : Option β} (h : OptRel R (some a) y) :
    ∃ b, y = some b ∧ R a b := by
  cases y with
  | none => exact h.elim
  | some b => exact ⟨b, rfl, h⟩

theorem OptRel.none_left {α β : Type} {R : α → β → Prop} {y : Option β} (h : OptRel R (none : Option α) y) :
    y = none := by
  cases y with
  | none => rfl
  | some b => exact h.elim

theorem refreshTargets_rel {S inp : List BufId} (l : List (Nat × V)) :
    ∀ h k : Heap V, Agree S h k →
    OptRel (Agree S) (refreshTargets inp h l) (refreshTargets inp k l) := by
  induction l with
  | nil => intro h k ha; exact ha
  | cons e l ih =>
    intro h k ha
    simp only [refreshTargets]
    cases hi : inp[e.1]? with
    | none => trivial
    | some b => exact ih _ _ (agree_write ha b rfl)

theorem refreshTargets_touches {S inp : List BufId} (hs : ∀ b ∈ inp, b ∈ S) (l : List (Nat × V)) :
    ∀ {h h' : Heap V}, refreshTargets inp h l = some h' → Touches S h h' := by
  induction l with
  | nil => intro h h' he; cases he; exact .refl _ _
  | cons e l ih =>
    intro h h' he
    simp only [refreshTargets] at he
    cases hi : inp[e.1]? with
    | none => simp [hi] at he
    | some b =>
      simp only [hi] at he
      exact (touches_write (hs b (List.mem_of_getElem? hi)) h _).trans (ih he)

section
variable [Add V] [OfNat V 0]

theorem runSmoothers_rel {S inp : List BufId} (hs : ∀ b ∈ inp, b ∈ S) (nf : Nat) (l : List (Nat × Smoother V)) :
    ∀ a b : SmoothAcc V, Agree S a.heap b.heap → a.params = b.params → a.refresh = b.refresh →
    OptRel (fun x y => x.1 = y.1 ∧ Agree S x.2.heap y.2.heap ∧ x.2.params = y.2.params ∧ x.2.refresh = y.2.refresh)
      (runSmoothers inp nf a l) (runSmoothers inp nf b l) := by
  induction l with
  | nil => intro a b h1 h2 h3; exact ⟨rfl, h1, h2, h3⟩
  | cons e l ih =>
    intro a b h1 h2 h3
    simp only [runSmoothers]
    split
    · have := ih a b h1 h2 h3
      cases hx : runSmoothers inp nf a l with
      | none => rw [hx] at this; rw [this.none_left]; trivial
      | some x =>
        rw [hx] at this
        obtain ⟨y, hy, hr⟩ := this.some_left
        rw [hy]
        exact ⟨congrArg (List.cons _) hr.1, hr.2⟩
    · cases hi : inp[e.1]? with
      | none => trivial
      | some bf =>
        simp only []
        have hm := hs bf (List.mem_of_getElem? hi)
        have := ih { heap := a.heap.write bf (fun f => if f < nf then e.2.out f else a.heap.data bf f)
                     params := a.params.set e.1 (if nf = 0 then 0 else e.2.out (nf - 1))
                     refresh := a.refresh ++ [(e.1, if nf = 0 then 0 else e.2.out (nf - 1))] }
          { heap := b.heap.write bf (fun f => if f < nf then e.2.out f else b.heap.data bf f)
            params := b.params.set e.1 (if nf = 0 then 0 else e.2.out (nf - 1))
            refresh := b.refresh ++ [(e.1, if nf = 0 then 0 else e.2.out (nf - 1))] }
          (agree_write h1 bf (by rw [h1 bf hm])) (by rw [h2]) (by rw [h3])
        revert this
        generalize runSmoothers inp nf _ l = x
        generalize runSmoothers inp nf _ l = y
        intro this
        cases x with
        | none => rw [this.none_left]; trivial
        | some x =>
          obtain ⟨y, hy, hr⟩ := this.some_left
          rw [hy]
          exact ⟨congrArg (List.cons _) hr.1, hr.2⟩

theorem runSmoothers_touches {S inp : List BufId} (hs : ∀ b ∈ inp, b ∈ S) (nf : Nat) (l : List (Nat × Smoother V)) :
    ∀ {a : SmoothAcc V} {r : List (Nat × Smoother V) × SmoothAcc V},
    runSmoothers inp nf a l = some r → Touches S a.heap r.2.heap := by
  induction l with
  | nil => intro a r he; cases he; exact .refl _ _
  | cons e l ih =>
    intro a r he
    simp only [runSmoothers] at he
    split at he
    · cases hx : runSmoothers inp nf a l with
      | none => simp [hx] at he
      | some x =>
        simp only [hx, Option.map_some, Option.some.injEq] at he
        subst he
        have := ih hx
        exact this
    · cases hi : inp[e.1]? with
      | none => simp [hi] at he
      | some bf =>
        simp only [hi] at he
        revert he
        generalize hx : runSmoothers inp nf _ l = x
        intro he
        cases x with
        | none => cases he
        | some x =>
          simp only [Option.map_some, Option.some.injEq] at he
          subst he
          exact (touches_write (hs bf (List.mem_of_getElem? hi)) _ _).trans (ih hx)

end

theorem mem_slice {α : Type} {l m : List α} {r : Nat × Nat} (h : slice l r = some m) : ∀ x ∈ m, x ∈ l := by
  unfold slice at h
  split at h
  · cases h
    intro x hx
    exact List.mem_of_mem_take (List.mem_of_mem_drop hx)
  · cases h

theorem mem_mapM_id {α : Type} {l : List (Option α)} {m : List α} (h : l.mapM id = some m) :
    ∀ x ∈ m, some x ∈ l := by
  induction l generalizing m with
  | nil => simp at h; subst h; simp
  | cons a l ih =>
    rw [List.mapM_cons] at h
    cases ha : (id a : Option α) with
    | none => rw [ha] at h; cases h
    | some a' =>
      cases hl : l.mapM id with
      | none => rw [ha, hl] at h; cases h
      | some m' =>
        rw [ha, hl] at h
        cases h
        intro x hx
        rcases List.mem_cons.1 hx with rfl | hx
        · rw [List.mem_cons]; exact Or.inl (Eq.symm ha)
        · exact List.mem_cons_of_mem _ (ih hl x hx)

theorem writeOuts_rel {S : List BufId} (res : Nat → Block V) (bs : List BufId) : ∀ (k : Nat) (h g : Heap V),
    Agree S h g → Agree S (writeOuts h res k bs) (writeOuts g res k bs) := by
  induction bs with
  | nil => intro k h g ha; exact ha
  | cons b bs ih => intro k h g ha; exact ih _ _ _ (agree_write ha b rfl)

theorem writeOuts_touches {S : List BufId} (res : Nat → Block V) (bs : List BufId) (hs : ∀ b ∈ bs, b ∈ S) :
    ∀ (k : Nat) (h : Heap V), Touches S h (writeOuts h res k bs) := by
  induction bs with
  | nil => intro k h; exact .refl _ _
  | cons b bs ih =>
    intro k h
    exact (touches_write (hs b (List.mem_cons_self ..)) h _).trans (ih (fun c hc => hs c (List.mem_cons_of_mem _ hc)) _ _)

section
variable [Add V] [Mul V]

theorem modProcess_rel {S : List BufId} {mo : ModOp V} (hm : mo.modbuf ∈ S)
    (hr : (∀ b, mo.inbuf = some b → b ∈ S) ∧ (∀ b, mo.outbuf = some b → b ∈ S)) (nf : Nat) {h k : Heap V}
    (ha : Agree S h k) : Agree S (mo.process nf h) (mo.process nf k) := by
  unfold ModOp.process
  cases hi : mo.inbuf with
  | none => exact ha
  | some i =>
    cases ho : mo.outbuf with
    | none => exact ha
    | some o =>
      refine agree_write ha mo.modbuf ?_
      rw [ha i (hr.1 i hi), ha o (hr.2 o ho), ha _ hm]

theorem modProcess_touches {S : List BufId} {mo : ModOp V} (hm : mo.modbuf ∈ S) (nf : Nat) (h : Heap V) :
    Touches S h (mo.process nf h) := by
  unfold ModOp.process
  split
  · exact touches_write hm _ _
  · exact .refl _ _

theorem modsProcess_rel {S : List BufId} (nf : Nat) (mods : List (ModOp V)) (hm : ∀ mo ∈ mods, mo.modbuf ∈ S ∧
    (∀ b, mo.inbuf = some b → b ∈ S) ∧ (∀ b, mo.outbuf = some b → b ∈ S)) : ∀ h k : Heap V, Agree S h k →
    Agree S (mods.foldl (fun h m => m.process nf h) h) (mods.foldl (fun h m => m.process nf h) k) := by
  induction mods with
  | nil => intro h k ha; exact ha
  | cons mo mods ih =>
    intro h k ha
    have := hm mo (List.mem_cons_self ..)
    exact ih (fun m hm' => hm m (List.mem_cons_of_mem _ hm')) _ _ (modProcess_rel this.1 this.2 nf ha)

theorem modsProcess_touches {S : List BufId} (nf : Nat) (mods : List (ModOp V)) (hm : ∀ mo ∈ mods, mo.modbuf ∈ S) :
    ∀ h : Heap V, Touches S h (mods.foldl (fun h m => m.process nf h) h) := by
  induction mods with
  | nil => intro h; exact .refl _ _
  | cons mo mods ih =>
    intro h
    exact (modProcess_touches (hm mo (List.mem_cons_self ..)) nf h).trans
      (ih (fun m hm' => hm m (List.mem_cons_of_mem _ hm')) _)

theorem map_data_congr {S : List BufId} {h k : Heap V} (ha : Agree S h k) {l : List BufId} (hl : ∀ b ∈ l, b ∈ S) :
    l.map h.data = l.map k.data := List.map_congr_left (fun b hb => ha b (hl b hb))

/-- Same state, calls and feedback values; heaps that agree on `S`. -/
def AccRel (S : List BufId) (a b : RunAcc N V A σ) : Prop :=
  Agree S a.heap b.heap ∧ a.st = b.st ∧ a.calls = b.calls ∧ a.outFb = b.outFb

theorem runOp_rel (run : σ → CallIn N V A → σ × (Nat → Block V)) (nf : Nat) {p : NodeProg N V A} (hp : RefsOwn p)
    (op : NodeOp N) {a b : RunAcc N V A σ} (hab : AccRel p.owned a b) :
    OptRel (AccRel p.owned) (runOp run nf p a op) (runOp run nf p b op) := by
  obtain ⟨ha, hst, hcalls, hfb⟩ := hab
  unfold runOp
  cases h1 : slice p.modops op.modR with
  | none => trivial
  | some mods =>
    cases h2 : slice p.inp op.inR with
    | none => trivial
    | some params =>
      cases h3 : slice p.atoms op.atR with
      | none => trivial
      | some atoms =>
        cases h4 : (slice p.curInp op.inR).bind (fun l => l.mapM id) with
        | none => trivial
        | some ins =>
          cases h5 : slice p.out op.outR with
          | none => trivial
          | some outs =>
            simp only []
            have hmods : ∀ mo ∈ mods, mo.modbuf ∈ p.owned ∧ (∀ b, mo.inbuf = some b → b ∈ p.owned) ∧
                (∀ b, mo.outbuf = some b → b ∈ p.owned) := fun mo hmo =>
              ⟨mem_owned_mod (mem_slice h1 mo hmo), hp.mods mo (mem_slice h1 mo hmo)⟩
            have hg := modsProcess_rel nf mods hmods _ _ ha
            have hpar : ∀ x ∈ params, x ∈ p.owned := fun x hx => by
              have := mem_slice h2 x hx; simp [NodeProg.owned, this]
            have hout : ∀ x ∈ outs, x ∈ p.owned := fun x hx => by
              have := mem_slice h5 x hx; simp [NodeProg.owned, this]
            have hins : ∀ x ∈ ins, x ∈ p.owned := by
              intro x hx
              cases hc : slice p.curInp op.inR with
              | none => simp [hc] at h4
              | some cs =>
                rw [hc, Option.bind_some] at h4
                exact hp.cur x (mem_slice hc _ (mem_mapM_id h4 x hx))
            have e1 := map_data_congr hg hpar
            have e2 := map_data_congr hg hins
            have e3 := map_data_congr hg hout
            rw [e1, e2, e3, hst]
            generalize run b.st _ = r
            have hw := writeOuts_rel r.2 outs 0 _ _ hg
            refine ⟨hw, rfl, ?_, ?_⟩
            · show _ ++ _ = _ ++ _
              rw [hcalls, map_data_congr hw hout]
            · show _ ++ _ ++ _ = _ ++ _ ++ _
              rw [hfb]
              congr 2
              exact List.map_congr_left (fun b hb => by rw [hw b (hout b hb)])

theorem runOp_touches (run : σ → CallIn N V A → σ × (Nat → Block V)) (nf : Nat) {p : NodeProg N V A}
    (op : NodeOp N) {a b : RunAcc N V A σ} (h : runOp run nf p a op = some b) :
    Touches p.owned a.heap b.heap := by
  unfold runOp at h
  split at h
  · rename_i mods params atoms ins outs h1 h2 h3 h4 h5
    cases h
    exact (modsProcess_touches nf mods (fun mo hmo => mem_owned_mod (mem_slice h1 mo hmo)) _).trans
      (writeOuts_touches _ outs (fun x hx => by have := mem_slice h5 x hx; simp [NodeProg.owned, this]) _ _)
  · cases h

theorem runOps_rel (run : σ → CallIn N V A → σ × (Nat → Block V)) (nf : Nat) {p : NodeProg N V A} (hp : RefsOwn p)
    (ops : List (NodeOp N)) : ∀ {a b : RunAcc N V A σ}, AccRel p.owned a b →
    OptRel (AccRel p.owned) (ops.foldlM (runOp run nf p) a) (ops.foldlM (runOp run nf p) b) := by
  induction ops with
  | nil => intro a b h; exact h
  | cons op ops ih =>
    intro a b h
    rw [List.foldlM_cons, List.foldlM_cons]
    have := runOp_rel run nf hp op h
    cases hx : runOp run nf p a op with
    | none => rw [hx] at this; rw [this.none_left]; trivial
    | some x =>
      rw [hx] at this
      obtain ⟨y, hy, hr⟩ := this.some_left
      rw [hy]
      exact ih hr

theorem runOps_touches (run : σ → CallIn N V A → σ × (Nat → Block V)) (nf : Nat) {p : NodeProg N V A}
    (ops : List (NodeOp N)) : ∀ {a b : RunAcc N V A σ}, ops.foldlM (runOp run nf p) a = some b →
    Touches p.owned a.heap b.heap := by
  induction ops with
  | nil => intro a b h; simp at h; subst h; exact .refl _ _
  | cons op ops ih =>
    intro a b h
    rw [List.foldlM_cons] at h
    cases hx : runOp run nf p a op with
    | none => simp [hx] at h
    | some x =>
      simp only [hx, Option.bind_eq_bind, Option.bind_some] at h
      exact (runOp_touches run nf op hx).trans (ih h)

theorem feedMonitors_rel {p : NodeProg N V A} (hp : RefsOwn p) {h k : Heap V} (ha : Agree p.owned h k) (l : List Nat) :
    ∀ i, feedMonitors p h i l = feedMonitors p k i l := by
  induction l with
  | nil => intro i; rfl
  | cons x l ih =>
    intro i
    simp only [feedMonitors]
    split
    · exact ih _
    · cases hb : (if i > 2 then p.out[x]? else (p.curInp[x]?).join) with
      | none => rfl
      | some b =>
        simp only []
        rw [ih (i + 1)]
        have : b ∈ p.owned := by
          split at hb
          · exact mem_owned_out hb
          · cases hc : p.curInp[x]? with
            | none => simp [hc] at hb
            | some o =>
              rw [hc, Option.join_some] at hb
              subst hb
              exact hp.cur b (List.mem_of_getElem? hc)
        rw [ha b this]

/-- What a block computes depends only on the buffers of the running program, and only those are
written. -/
theorem process_rel [OfNat V 0] (run : σ → CallIn N V A → σ × (Nat → Block V)) {e : Exec N V A M} (hp : RefsOwn e.prog)
    {h k : Heap V} (ha : Agree e.prog.owned h k) (st : σ) (nf : Nat) :
    OptRel (fun x y => x.1 = y.1 ∧ Agree e.prog.owned x.2.1 y.2.1 ∧ x.2.2 = y.2.2)
      (e.process run h st nf) (e.process run k st nf) := by
  unfold Exec.process
  split
  · trivial
  · unfold Exec.processSmoothers
    have hs : ∀ b ∈ e.prog.inp, b ∈ e.prog.owned := fun b hb => by simp [NodeProg.owned, hb]
    have h1 := refreshTargets_rel (inp := e.prog.inp) e.targetRefresh.reverse h k ha
    cases hx : refreshTargets e.prog.inp h e.targetRefresh.reverse with
    | none => rw [hx] at h1; rw [h1.none_left]; trivial
    | some h' =>
      rw [hx] at h1
      obtain ⟨k', hy, ha'⟩ := h1.some_left
      rw [hy]
      simp only []
      have h2 := runSmoothers_rel hs nf e.smoothers { heap := h', params := e.prog.params, refresh := [] }
        { heap := k', params := e.prog.params, refresh := [] } ha' rfl rfl
      cases hx2 : runSmoothers e.prog.inp nf { heap := h', params := e.prog.params, refresh := [] } e.smoothers with
      | none => rw [hx2] at h2; rw [h2.none_left]; trivial
      | some x =>
        rw [hx2] at h2
        obtain ⟨y, hy2, r1, r2, r3, r4⟩ := h2.some_left
        rw [hy2]
        obtain ⟨ss, a⟩ := x
        obtain ⟨ss', a'⟩ := y
        simp only at r1 r2 r3 r4 ⊢
        subst r1
        rw [← r3, ← r4]
        have hr : RefsOwn { e.prog with params := a.params } := ⟨hp.cur, hp.mods⟩
        have h3 := runOps_rel run nf hr e.prog.prog (a := { heap := a.heap, st := st, calls := [], outFb := e.prog.outFb })
          (b := { heap := a'.heap, st := st, calls := [], outFb := e.prog.outFb }) ⟨r2, rfl, rfl, rfl⟩
        cases hx3 : e.prog.prog.foldlM (runOp run nf { e.prog with params := a.params })
            { heap := a.heap, st := st, calls := [], outFb := e.prog.outFb } with
        | none => rw [hx3] at h3; rw [h3.none_left]; trivial
        | some x =>
          rw [hx3] at h3
          obtain ⟨y, hy3, q1, q2, q3, q4⟩ := h3.some_left
          rw [hy3]
          simp only []
          rw [feedMonitors_rel hr q1 e.monitorIdx 0, ← q2, ← q3, ← q4]
          cases feedMonitors { e.prog with params := a.params } y.heap 0 e.monitorIdx with
          | none => trivial
          | some mon => exact ⟨rfl, q1, rfl⟩

theorem process_touches [OfNat V 0] (run : σ → CallIn N V A → σ × (Nat → Block V)) {e e' : Exec N V A M}
    {h h' : Heap V} {st st' : σ} {nf : Nat} {r : BlockResult N V A}
    (hpr : e.process run h st nf = some (e', h', st', r)) :
    Touches e.prog.owned h h' ∧ e'.prog.inp = e.prog.inp ∧ e'.prog.out = e.prog.out ∧
    e'.prog.modops = e.prog.modops ∧ e'.prog.curInp = e.prog.curInp ∧ e'.prog.prog = e.prog.prog ∧
    e'.prog.atoms = e.prog.atoms ∧ e'.monitorIdx = e.monitorIdx ∧ e'.injected = e.injected ∧
    e'.prog.locked = e.prog.locked := by
  unfold Exec.process at hpr
  split at hpr
  · cases hpr
  · unfold Exec.processSmoothers at hpr
    have hs : ∀ b ∈ e.prog.inp, b ∈ e.prog.owned := fun b hb => by simp [NodeProg.owned, hb]
    cases hx : refreshTargets e.prog.inp h e.targetRefresh.reverse with
    | none => simp [hx] at hpr
    | some h1 =>
      simp only [hx] at hpr
      cases hx2 : runSmoothers e.prog.inp nf { heap := h1, params := e.prog.params, refresh := [] } e.smoothers with
      | none => simp [hx2] at hpr
      | some x =>
        obtain ⟨ss, a⟩ := x
        simp only [hx2] at hpr
        cases hx3 : e.prog.prog.foldlM (runOp run nf { e.prog with params := a.params })
            { heap := a.heap, st := st, calls := [], outFb := e.prog.outFb } with
        | none => simp [hx3] at hpr
        | some y =>
          simp only [hx3] at hpr
          cases hx4 : feedMonitors { e.prog with params := a.params } y.heap 0 e.monitorIdx with
          | none => simp [hx4] at hpr
          | some mon =>
            simp only [hx4, Option.some.injEq, Prod.mk.injEq] at hpr
            obtain ⟨rfl, rfl, rfl, rfl⟩ := hpr
            refine ⟨?_, rfl, rfl, rfl, rfl, rfl, rfl, rfl, rfl, rfl⟩
            exact ((refreshTargets_touches hs _ hx).trans (runSmoothers_touches hs nf _ hx2)).trans
              (runOps_touches run nf _ hx3)

end

end HexoDSP.Engine
