import Verif.Lemmas.Sim3
/-! One block is the data flow of what is playing. -/

set_option linter.unusedSectionVars false

namespace HexoDSP.Engine
open EngineSpec

variable {N V A M σ : Type} [DecidableEq N]

theorem lastConn_last (g : Nat) (io : Nat × Nat × Option Nat) (hio : io.2.1 = g) (pre post : List (Nat × Nat × Option Nat))
    (hp : ∀ x ∈ post, x.2.1 ≠ g) : lastConn (pre ++ io :: post) g = some io := by
  unfold lastConn
  rw [List.foldl_append, List.foldl_cons, if_pos hio]
  clear hio
  induction post with
  | nil => rfl
  | cons x post ih =>
    rw [List.foldl_cons, if_neg (hp x (List.mem_cons_self ..))]
    exact ih (fun y hy => hp y (List.mem_cons_of_mem _ hy))

section
variable {T : NodeTable N V A} {l : Layout N V} {pl : Playing N V A} {p : NodeProg N V A}

theorem Carries.valid (h : Carries T l pl p) {e : Conn N} (he : e ∈ pl.wires) :
    validConn T l.ids e = true ↔ Plugged T e := by
  rw [validConn_iff]
  have hb := before_mem (h.before e he)
  exact ⟨fun x => x.2.2, fun x => ⟨h.ord _ hb.1, h.ord _ hb.2, x⟩⟩

theorem Carries.lastNone (h : Carries T l pl p) {n : N} {k : Nat} (hu : Unfed T pl.wires n k) :
    lastConn (opFor T l.amts l.ids pl.wires n).inputs (l.inIdx T n k) = none := by
  rw [lastConn_none]
  intro io hio hc
  obtain ⟨e, he, hv, rfl, rfl⟩ := mem_opFor_inputs.1 hio
  rw [globalConn_eq] at hc
  simp only [Layout.inIdx] at hc
  exact hu e he ((h.valid he).1 hv) ⟨rfl, by omega⟩

theorem Carries.lastSome (h : Carries T l pl p) {n : N} {k : Nat} {e : Conn N} (hf : Feeds T pl.wires n k e) :
    lastConn (opFor T l.amts l.ids pl.wires n).inputs (l.inIdx T n k) = some (globalConn T l.amts l.ids e) := by
  obtain ⟨hpl, rfl, rfl, pre, post, hes, hpost⟩ := hf
  have he : e ∈ pl.wires := by rw [hes]; simp
  have hv := (h.valid he).2 hpl
  show lastConn ((pl.wires.filter (fun e' => validConn T l.ids e' && decide (e'.dst = e.dst))).map (globalConn T l.amts l.ids)) _ = _
  have hval := fun e' (he' : e' ∈ pl.wires) => h.valid he'
  rw [hes] at hval ⊢
  rw [List.filter_append, List.filter_cons_of_pos (by simp [hv]), List.map_append, List.map_cons]
  refine lastConn_last _ _ rfl _ _ ?_
  intro x hx hc
  obtain ⟨e', he', rfl⟩ := List.mem_map.1 hx
  obtain ⟨h1, h2⟩ := List.mem_filter.1 he'
  simp only [Bool.and_eq_true, decide_eq_true_eq] at h2
  rw [globalConn_eq, h2.2] at hc
  have hc' : base T.inCount l.ids e.dst + e'.dstIn = base T.inCount l.ids e.dst + e.dstIn := hc
  exact hpost e' h1 ((hval e' (by simp [h1])).1 h2.1) ⟨h2.2, by omega⟩

variable [Add V] [Mul V]
variable {run : σ → CallIn N V A → σ × (Nat → Block V)} {p' : NodeProg N V A} {nf : Nat} {H : Heap V} {st st' : σ}
variable {cs : List (Call N V A)}

theorem done_call (h : Carries T l pl p) (hd : BlockDone run p p' nf H st st' cs) {c : Call N V A} (hc : c ∈ cs) :
    c.node ∈ pl.order ∧ CallOK p nf H (opFor T l.amts l.ids pl.wires c.node) c := by
  obtain ⟨i, hi⟩ := List.getElem?_of_mem hc
  have hlt : i < p.prog.length := by
    rw [← hd.len]; exact (List.getElem?_eq_some_iff.1 hi).1
  have hop := List.getElem?_eq_getElem hlt
  have hco := hd.calls i _ c hop hi
  have hprog := h.prog
  have hlt' : i < pl.order.length := by rw [hprog] at hlt; simpa using hlt
  have : p.prog[i] = opFor T l.amts l.ids pl.wires pl.order[i] := by
    have h2 : p.prog[i]? = some (opFor T l.amts l.ids pl.wires pl.order[i]) := by
      rw [hprog, List.getElem?_map, List.getElem?_eq_getElem hlt']; rfl
    rw [hop] at h2
    exact Option.some.inj h2
  rw [this] at hco
  have hnode : c.node = pl.order[i] := hco.node
  rw [hnode]
  exact ⟨List.getElem_mem _, hco⟩

theorem done_order (h : Carries T l pl p) (hd : BlockDone run p p' nf H st st' cs) :
    cs.map (fun c => c.node) = pl.order := by
  apply List.ext_getElem?
  intro i
  rw [List.getElem?_map]
  have hlen : cs.length = pl.order.length := by rw [hd.len, h.prog, List.length_map]
  by_cases hlt : i < cs.length
  · have hc := List.getElem?_eq_getElem hlt
    have hlt' : i < pl.order.length := by omega
    have hop : p.prog[i]? = some (opFor T l.amts l.ids pl.wires pl.order[i]) := by
      rw [h.prog, List.getElem?_map, List.getElem?_eq_getElem hlt']; rfl
    have := (hd.calls i _ _ hop hc).node
    rw [hc, List.getElem?_eq_getElem hlt', Option.map_some, this]
    rfl
  · rw [List.getElem?_eq_none (by omega), List.getElem?_eq_none (by omega)]
    rfl

theorem done_find (h : Carries T l pl p) (hd : BlockDone run p p' nf H st st' cs) {n : N} (hn : n ∈ pl.order) :
    ∃ c ∈ cs, c.node = n := by
  rw [← done_order h hd] at hn
  obtain ⟨c, hc, rfl⟩ := List.mem_map.1 hn
  exact ⟨c, hc, rfl⟩

theorem length_of_get {α : Type} {x : List α} {n : Nat} {f : Nat → Option α} (hx : ∀ k : Nat, x[k]? = if k < n then f k else none)
    (hf : ∀ k, k < n → (f k).isSome) : x.length = n := by
  apply Nat.le_antisymm
  · by_contra hc
    have := hx n
    rw [if_neg (by omega), List.getElem?_eq_getElem (by omega)] at this
    cases this
  · by_contra hc
    have := hx x.length
    rw [if_pos (by omega), List.getElem?_eq_none (by omega)] at this
    have h2 := hf x.length (by omega)
    rw [← this] at h2
    cases h2

theorem flow_of_done (h : Carries T l pl p) (hd : BlockDone run p p' nf H st st' cs) : Flow T pl nf cs := by
  have hbound : ∀ c ∈ cs, (∀ k, k < T.inCount c.node → base T.inCount l.ids c.node + k < p.inp.length) ∧
      (∀ k, k < T.outCount c.node → base T.outCount l.ids c.node + k < p.out.length) ∧
      (∀ k, k < T.atCount c.node → base T.atCount l.ids c.node + k < p.atoms.length) := by
    intro c hc
    have hm := h.ord _ (done_call h hd hc).1
    have h1 := base_lt T.inCount hm
    have h2 := base_lt T.outCount hm
    have h3 := base_lt T.atCount hm
    rw [h.inLen, h.outLen, h.atLen]
    exact ⟨fun k hk => by omega, fun k hk => by omega, fun k hk => by omega⟩
  have hpar : ∀ c ∈ cs, ∀ k : Nat, c.params[k]? = if k < T.inCount c.node then (p.inp[base T.inCount l.ids c.node + k]?).map H.data else none := by
    intro c hc k
    rw [(done_call h hd hc).2.params k, opFor_inR]
    simp only [Nat.add_lt_add_iff_left]
  have hout : ∀ c ∈ cs, ∀ k : Nat, c.outputs[k]? = if k < T.outCount c.node then (p.out[base T.outCount l.ids c.node + k]?).map H.data else none := by
    intro c hc k
    rw [(done_call h hd hc).2.outputs k, opFor_outR]
    simp only [Nat.add_lt_add_iff_left]
  have hat : ∀ c ∈ cs, ∀ k : Nat, c.atoms[k]? = if k < T.atCount c.node then p.atoms[base T.atCount l.ids c.node + k]? else none := by
    intro c hc k
    rw [(done_call h hd hc).2.atoms k, opFor_atR]
    simp only [Nat.add_lt_add_iff_left]
  have hin : ∀ c ∈ cs, ∀ k, k < T.inCount c.node → ∃ blk, c.inputs[k]? = some blk ∧
      InputIs p nf H (l.inIdx T c.node k) (lastConn (opFor T l.amts l.ids pl.wires c.node).inputs (l.inIdx T c.node k)) blk := by
    intro c hc k hk
    have := (done_call h hd hc).2.inputs k
    rw [opFor_inR] at this
    exact this (by simp only; omega)
  -- the call of the source of a connection
  have hsrc : ∀ e ∈ pl.wires, Plugged T e → ∃ s ∈ cs, s.node = e.src ∧
      ∀ ob, p.out[base T.outCount l.ids e.src + e.srcOut]? = some ob → s.outputs[e.srcOut]? = some (H.data ob) := by
    intro e he hpl
    obtain ⟨s, hs, hn⟩ := done_find h hd (before_mem (h.before e he)).1
    refine ⟨s, hs, hn, fun ob hob => ?_⟩
    rw [hout s hs, hn, if_pos hpl.2, hob]
    rfl
  refine ⟨done_order h hd, ?_, ?_, ?_, ?_, ?_, ?_, ?_, ?_, ?_, ?_, ?_⟩
  · intro c hc; exact (done_call h hd hc).2.nframes
  · intro c hc
    refine length_of_get (hpar c hc) ?_
    intro k hk
    rw [List.getElem?_eq_getElem ((hbound c hc).1 k hk)]; rfl
  · intro c hc
    rw [(done_call h hd hc).2.inLen, opFor_inR]
    simp only; omega
  · intro c hc
    refine length_of_get (hout c hc) ?_
    intro k hk
    rw [List.getElem?_eq_getElem ((hbound c hc).2.1 k hk)]; rfl
  · intro c hc
    refine length_of_get (hat c hc) ?_
    intro k hk
    rw [List.getElem?_eq_getElem ((hbound c hc).2.2 k hk)]; rfl
  · intro c hc k hk
    rw [hat c hc, if_pos hk]
    exact h.atoms _ (h.ord _ (done_call h hd hc).1) k hk
  · intro c hc k hk hu
    obtain ⟨blk, h1, h2⟩ := hin c hc k hk
    rw [h.lastNone hu] at h2
    obtain ⟨ib, h3, h4⟩ := h2
    rw [h1, hpar c hc, if_pos hk, show base T.inCount l.ids c.node + k = l.inIdx T c.node k from rfl, h3, h4]
    rfl
  · intro c hc k e hf hamt
    obtain ⟨hpl, hdst, hdi, pre, post, hes, _⟩ := id hf
    have he : e ∈ pl.wires := by rw [hes]; simp
    have hk : k < T.inCount c.node := by rw [← hdst, ← hdi]; exact hpl.1
    obtain ⟨blk, h1, h2⟩ := hin c hc k hk
    rw [h.lastSome hf] at h2
    have hno : (amtOf l.amts e.dst e.dstIn).isSome = false := by
      rw [hdst, hdi, h.amts _ (h.ord _ (done_call h hd hc).1) k hk, hamt]; rfl
    rw [globalConn_eq] at h2
    simp only [InputIs, hno, Bool.false_eq_true, if_false] at h2
    obtain ⟨ob, h3, h4⟩ := h2
    obtain ⟨s, hs, hn, hso⟩ := hsrc e he hpl
    exact ⟨s, hs, hn, by rw [h1, hso ob h3, h4]⟩
  · intro c hc k e a hf hamt
    obtain ⟨hpl, hdst, hdi, pre, post, hes, _⟩ := id hf
    have he : e ∈ pl.wires := by rw [hes]; simp
    have hk : k < T.inCount c.node := by rw [← hdst, ← hdi]; exact hpl.1
    have hmem := h.ord _ (done_call h hd hc).1
    obtain ⟨blk, h1, h2⟩ := hin c hc k hk
    rw [h.lastSome hf] at h2
    have hyes : (amtOf l.amts e.dst e.dstIn).isSome = true := by
      rw [hdst, hdi, h.amts _ hmem k hk, hamt]; rfl
    rw [globalConn_eq] at h2
    simp only [InputIs, hyes, if_true] at h2
    obtain ⟨mo, ib, ob, h3, h4, h5, h6⟩ := h2
    obtain ⟨mo', h7, h8⟩ := h.mods _ hmem k hk a hamt
    rw [hdst, hdi] at h3
    have hmo : mo = mo' := by
      rw [show base (modTot T l.amts) l.ids c.node + modCnt l.amts c.node k = l.modIdx T c.node k from rfl, h7] at h3
      exact (Option.some.inj h3).symm
    obtain ⟨s, hs, hn, hso⟩ := hsrc e he hpl
    refine ⟨s, hs, hn, blk, H.data ib, H.data ob, h1, ?_, hso ob h5, ?_⟩
    · rw [hpar c hc, if_pos hk, show base T.inCount l.ids c.node + k = l.inIdx T c.node k from rfl, h4]; rfl
    · intro f hf'
      rw [h6 f hf', hmo, h8]
  · intro c hc k
    rw [(done_call h hd hc).2.inConnected]
    show (inMask T l.ids pl.wires c.node).testBit k = true ↔ _
    rw [inMask_testBit]
    constructor
    · rintro ⟨e, he, hv, h1, h2⟩; exact ⟨e, he, (h.valid he).1 hv, h1, h2⟩
    · rintro ⟨e, he, hv, h1, h2⟩; exact ⟨e, he, (h.valid he).2 hv, h1, h2⟩
  · intro c hc k
    rw [(done_call h hd hc).2.outConnected]
    show (outMask T l.ids pl.wires c.node).testBit k = true ↔ _
    rw [outMask_testBit]
    constructor
    · rintro ⟨e, he, hv, h1, h2⟩; exact ⟨e, he, (h.valid he).1 hv, h1, h2⟩
    · rintro ⟨e, he, hv, h1, h2⟩; exact ⟨e, he, (h.valid he).2 hv, h1, h2⟩

/-- The feedback value of an output is its last sample. -/
theorem fb_of_done (h : Carries T l pl p) (hd : BlockDone run p p' nf H st st' cs) {c : Call N V A} (hc : c ∈ cs)
    {k : Nat} (hk : k < T.outCount c.node) :
    p'.outFb[base T.outCount l.ids c.node + k]? = (c.outputs[k]?).map (fun b => b (nf - 1)) := by
  obtain ⟨hn, hco⟩ := done_call h hd hc
  have hop : opFor T l.amts l.ids pl.wires c.node ∈ p.prog := by
    rw [h.prog]; exact List.mem_map_of_mem hn
  have h1 := hd.fb _ hop (base T.outCount l.ids c.node + k) (by rw [opFor_outR]; exact ⟨by simp, by simp only; omega⟩)
  have h2 := hco.outputs k
  rw [opFor_outR] at h2
  simp only at h2
  rw [if_pos (by omega)] at h2
  rw [h1, h2, Option.map_map]
  rfl

end

section
variable [Add V] [Mul V] [Sub V] [Div V] [NatCast V] [OfNat V 0]

/-- Facts about a careful history. -/
theorem follows_sim {T : NodeTable N V A} (hT : ∀ n, T.inCount n ≤ 32) {a0 : A}
    {run : σ → CallIn N V A → σ × (Nat → Block V)} {w : World N V A M σ} {t : Track N V A}
    (h : Follows T a0 run w t) : Sim T w t ∧ ConfWF w.conf ∧ Account w := by
  induction h with
  | new st => exact ⟨sim_new T st, confWF_new, account_new st⟩
  | call _ hc hs ih =>
    obtain ⟨h1, h2, h3⟩ := ih
    exact ⟨sim_step hT h2 h3 h1 hc hs, wf_step h2 hc.polite hs, account_step T a0 run h2 h3 hs⟩
  | outside st _ ih => exact ⟨ih.1, ih.2.1, ih.2.2.fresh, ih.2.2.refs, ih.2.2.once⟩

end

end HexoDSP.Engine
