import Verif.Spec.Leds
import Verif.Props.Flow
/-! The slots of the lights. -/

set_option linter.unusedSectionVars false

namespace HexoDSP.Leds
open HexoDSP.Engine HexoDSP.EngineSpec HexoDSP.FlowProps HexoDSP.NodeConfProps

variable {N V A M σ : Type} [DecidableEq N]

theorem setSlot_length (ctx : List V) (i : Nat) (v : Option V) : (setSlot ctx i v).length = ctx.length := by
  cases v <;> simp [setSlot]

theorem setSlot_get (ctx : List V) (i : Nat) (v : Option V) (hi : i < ctx.length) (k : Nat) :
    (setSlot ctx i v)[k]? = if k = i then v.or ctx[k]? else ctx[k]? := by
  cases v with
  | none => simp [setSlot]
  | some v =>
    simp only [setSlot, List.getElem?_set, Option.some_or]
    by_cases hk : i = k
    · rw [if_pos hk, if_pos (hk ▸ hi), if_pos hk.symm]
    · rw [if_neg hk, if_neg (fun h => hk h.symm)]

theorem lightUp_spec {ctx : List V} (hl : ctx.length = 512) {x : NodeOp N × Lights V} (hx : x.1.idx < 256) :
    ∃ ctx', lightUp ctx x = some ctx' ∧ ctx'.length = 512 ∧ ctx'[x.1.idx * 2]? = x.2.led.or ctx[x.1.idx * 2]? ∧
      ctx'[x.1.idx * 2 + 1]? = x.2.phase.or ctx[x.1.idx * 2 + 1]? ∧
      ∀ j, j ≠ x.1.idx → ctx'[j * 2]? = ctx[j * 2]? ∧ ctx'[j * 2 + 1]? = ctx[j * 2 + 1]? := by
  refine ⟨_, by simp only [lightUp]; rw [if_pos (by omega)], by simp [setSlot_length, hl], ?_, ?_, ?_⟩
  · rw [setSlot_get _ _ _ (by rw [setSlot_length]; omega), if_neg (by omega), setSlot_get _ _ _ (by omega), if_pos rfl]
  · rw [setSlot_get _ _ _ (by rw [setSlot_length]; omega), if_pos rfl, setSlot_get _ _ _ (by omega), if_neg (by omega)]
  · intro j hj
    constructor
    · rw [setSlot_get _ _ _ (by rw [setSlot_length]; omega), if_neg (by omega), setSlot_get _ _ _ (by omega), if_neg (by omega)]
    · rw [setSlot_get _ _ _ (by rw [setSlot_length]; omega), if_neg (by omega), setSlot_get _ _ _ (by omega), if_neg (by omega)]

theorem lightUps_spec (xs : List (NodeOp N × Lights V)) : ∀ {ctx : List V}, ctx.length = 512 → (∀ x ∈ xs, x.1.idx < 256) →
    (xs.map (fun x => x.1.idx)).Nodup →
    ∃ ctx', xs.foldlM lightUp ctx = some ctx' ∧ ctx'.length = 512 ∧
      (∀ x ∈ xs, ctx'[x.1.idx * 2]? = x.2.led.or ctx[x.1.idx * 2]? ∧ ctx'[x.1.idx * 2 + 1]? = x.2.phase.or ctx[x.1.idx * 2 + 1]?) ∧
      ∀ j, (∀ x ∈ xs, x.1.idx ≠ j) → ctx'[j * 2]? = ctx[j * 2]? ∧ ctx'[j * 2 + 1]? = ctx[j * 2 + 1]? := by
  induction xs with
  | nil => intro ctx hl _ _; exact ⟨ctx, rfl, hl, by simp, fun _ _ => ⟨rfl, rfl⟩⟩
  | cons x xs ih =>
    intro ctx hl hx hnd
    simp only [List.map_cons, List.nodup_cons] at hnd
    obtain ⟨c1, e1, l1, a1, b1, o1⟩ := lightUp_spec hl (hx x List.mem_cons_self)
    obtain ⟨c2, e2, l2, a2, o2⟩ := ih l1 (fun y hy => hx y (List.mem_cons_of_mem _ hy)) hnd.2
    have hne : ∀ y ∈ xs, y.1.idx ≠ x.1.idx := fun y hy he => hnd.1 (List.mem_map.2 ⟨y, hy, he⟩)
    refine ⟨c2, by rw [List.foldlM_cons, e1]; exact e2, l2, ?_, ?_⟩
    · intro y hy
      rcases List.mem_cons.1 hy with rfl | hy
      · obtain ⟨p, q⟩ := o2 y.1.idx hne
        rw [p, q]; exact ⟨a1, b1⟩
      · obtain ⟨p, q⟩ := a2 y hy
        obtain ⟨r, s⟩ := o1 y.1.idx (hne y hy)
        rw [p, q, r, s]; exact ⟨rfl, rfl⟩
    · intro j hj
      obtain ⟨p, q⟩ := o2 j (fun y hy => hj y (List.mem_cons_of_mem _ hy))
      obtain ⟨r, s⟩ := o1 j (fun h => hj x List.mem_cons_self h.symm)
      rw [p, q, r, s]; exact ⟨rfl, rfl⟩

/-- The log of the lights. -/
theorem shines_of_runs {run : σ → CallIn N V A → σ × (Nat → Block V) × Lights V} (cs : List (Call N V A)) :
    ∀ {st st' : σ × List (Lights V)}, Runs (logged run) st cs st' → ∃ ls, st'.2 = st.2 ++ ls ∧ ls.length = cs.length ∧ Shines run st.1 cs ls st'.1 := by
  induction cs with
  | nil => intro st st' h; cases h; exact ⟨[], by simp, rfl, rfl⟩
  | cons c cs ih =>
    intro st st' h
    obtain ⟨ls, h1, h2, h3⟩ := ih h.2
    refine ⟨(run st.1 c.toCallIn).2.2 :: ls, ?_, by simp [h2], rfl, h3⟩
    rw [h1]
    simp [logged]

theorem shines_unique {run : σ → CallIn N V A → σ × (Nat → Block V) × Lights V} (cs : List (Call N V A)) :
    ∀ {st st1 st2 : σ} {l1 l2 : List (Lights V)}, Shines run st cs l1 st1 → Shines run st cs l2 st2 → l1 = l2 := by
  induction cs with
  | nil =>
    intro st st1 st2 l1 l2 h1 h2
    cases l1 with
    | nil => cases l2 with
      | nil => rfl
      | cons a l => exact h2.elim
    | cons a l => exact h1.elim
  | cons c cs ih =>
    intro st st1 st2 l1 l2 h1 h2
    cases l1 with
    | nil => exact h1.elim
    | cons a l1 => cases l2 with
      | nil => exact h2.elim
      | cons b l2 =>
        obtain ⟨a1, b1⟩ := h1
        obtain ⟨a2, b2⟩ := h2
        rw [← a1, ← a2, ih b1 b2]

/-- As long as the nodes are not deleted, the layouts grow. -/
theorem match_grows [Add V] [Mul V] [Sub V] [Div V] [NatCast V] [OfNat V 0] {T : NodeTable N V A} {l l' : Layout N V} {now : Playing N V A}
    {q : List (Msg N V A M)} {us : List (Update N V A)} (h : Match T l now q us l') : Update.clear ∉ us → l.ids <+: l'.ids := by
  induction h with
  | nil => intro _; exact List.prefix_refl _
  | cons h1 _ ih =>
    intro hc
    have hc2 := ih (fun hh => hc (List.mem_append_right _ hh))
    refine List.IsPrefix.trans ?_ hc2
    cases h1 with
    | program co _ _ hp => exact hp
    | clear => exact absurd (by simp) hc
    | _ => exact List.prefix_refl _

section
variable [Add V] [Mul V] [Sub V] [Div V] [NatCast V] [OfNat V 0]
variable {T : NodeTable N V A} {a0 : A} {run : σ → CallIn N V A → σ × (Nat → Block V) × Lights V}
variable {w w' : LWorld N V A M σ} {t : Track N V A}

theorem step_other {op : EOp N V A M} {out} (hp : ∀ nf, op ≠ .process nf) (hs : w.step T a0 run op = some (w', out)) :
    w.world.step T a0 (logged run) op = some (w'.world, out) ∧ w'.ctx = w.ctx := by
  have : (w.world.step T a0 (logged run) op).map (fun r => (({ w with world := r.1 } : LWorld N V A M σ), r.2)) = some (w', out) := by
    cases op with
    | process nf => exact absurd rfl (hp nf)
    | _ => exact hs
  obtain ⟨⟨w1, o⟩, h1, h2⟩ := Option.map_eq_some_iff.1 this
  simp only [Prod.mk.injEq] at h2
  obtain ⟨rfl, rfl⟩ := h2
  exact ⟨h1, rfl⟩

theorem step_process {nf : Nat} {out} (hs : w.step T a0 run (.process nf) = some (w', out)) :
    ({ w.world with st := (w.world.st.1, []) } : World N V A M (σ × List (Lights V))).step T a0 (logged run) (.process nf) = some (w'.world, out) ∧
    (w.world.exec.prog.prog.zip w'.world.st.2).foldlM lightUp w.ctx = some w'.ctx := by
  simp only [LWorld.step] at hs
  obtain ⟨⟨w1, o⟩, h1, h2⟩ := Option.bind_eq_some_iff.1 hs
  obtain ⟨ctx, h3, h4⟩ := Option.map_eq_some_iff.1 h2
  simp only [Prod.mk.injEq] at h4
  obtain ⟨rfl, rfl⟩ := h4
  exact ⟨h1, h3⟩

theorem follows_of (h : LFollows T a0 run w t) : Follows T a0 (logged run) w.world t := by
  induction h with
  | new st => exact .new (st, [])
  | @call w w' t op out _ hc hs ih =>
    by_cases hp : ∃ nf, op = .process nf
    · obtain ⟨nf, rfl⟩ := hp
      have h1 := (step_process hs).1
      have h2 : Follows T a0 (logged run) ({ w.world with st := (w.world.st.1, []) } : World N V A M (σ × List (Lights V))) t := .outside _ ih
      have hc' : Careful T ({ w.world with st := (w.world.st.1, []) } : World N V A M (σ × List (Lights V))) (.process nf) :=
        ⟨hc.polite, hc.room, hc.legal, hc.watch⟩
      have h3 := Follows.call h2 hc' h1
      exact h3
    · exact .call ih hc (step_other (fun nf hh => hp ⟨nf, hh⟩) hs).1
  | outside st _ ih => exact .outside _ ih

theorem idx_of_prefix {c : Conf N V A} (hw : ConfWF c) {ids : List N} (hp : ids <+: c.ids) {n : N} (hn : n ∈ ids) :
    c.uniqueIndexFor n = some (ids.idxOf n) := by
  unfold Conf.uniqueIndexFor
  rw [hw.idx]
  have h1 := idxOf_get hn
  obtain ⟨r, hr⟩ := hp
  rw [← hr, List.getElem?_append_left (List.getElem?_eq_some_iff.1 h1).1]
  exact h1

theorem ctx_length (h : LFollows T a0 run w t) : w.ctx.length = 512 := by
  induction h with
  | new st => exact List.length_replicate
  | @call w w' t op out hf hc hs ih =>
    by_cases hp : ∃ nf, op = .process nf
    · obtain ⟨nf, rfl⟩ := hp
      have h2 := (step_process hs).2
      have key : ∀ (xs : List (NodeOp N × Lights V)) (c c' : List V), xs.foldlM lightUp c = some c' → c'.length = c.length := by
        intro xs
        induction xs with
        | nil => intro c c' hh; simp at hh; rw [hh]
        | cons x xs ihx =>
          intro c c' hh
          rw [List.foldlM_cons] at hh
          obtain ⟨c1, e1, e2⟩ := Option.bind_eq_some_iff.1 hh
          rw [ihx c1 c' e2]
          simp only [lightUp] at e1
          split at e1
          · cases e1; simp [setSlot_length]
          · cases e1
      rw [key _ _ _ h2, ih]
    · rw [(step_other (fun nf hh => hp ⟨nf, hh⟩) hs).2, ih]
  | outside st _ ih => exact ih

/-- The operations of the program have different slots. -/
theorem zip_ok (hT : ∀ n, T.inCount n ≤ 32) (h : LFollows T a0 run w t) (ls : List (Lights V)) :
    (∀ x ∈ w.world.exec.prog.prog.zip ls, x.1.idx < 256) ∧ ((w.world.exec.prog.prog.zip ls).map (fun x => x.1.idx)).Nodup := by
  obtain ⟨⟨le, lc, h1, -, -, -⟩, -, -⟩ := follows_sim hT (follows_of h)
  rw [h1.carries.prog]
  have hidx : ∀ n ∈ t.now.order, (opFor T le.amts le.ids t.now.wires n).idx = le.ids.idxOf n := fun n hn => opFor_idx T _ _ (h1.carries.ord n hn) h1.carries.small
  constructor
  · intro x hx
    obtain ⟨n, hn, e⟩ := List.mem_map.1 (List.of_mem_zip (show (x.1, x.2) ∈ _ from hx)).1
    rw [← e, hidx n hn]
    have := List.idxOf_lt_length_iff.2 (h1.carries.ord n hn)
    have := h1.carries.small
    omega
  · have e1 : ((t.now.order.map (opFor T le.amts le.ids t.now.wires)).map (fun o => o.idx)).Nodup := by
      rw [List.map_map, show t.now.order.map ((fun o => o.idx) ∘ opFor T le.amts le.ids t.now.wires) = t.now.order.map (fun n => le.ids.idxOf n) from
        List.map_congr_left (fun n hn => hidx n hn)]
      refine (List.nodup_map_iff_inj_on h1.carries.nodup).2 ?_
      intro a ha b hb hab
      exact (List.idxOf_inj (h1.carries.ord a ha)).1 hab
    have e2 : ∀ (os : List (NodeOp N)) (ls : List (Lights V)), ((os.zip ls).map (fun x => x.1.idx)).Sublist (os.map (fun o => o.idx)) := by
      intro os
      induction os with
      | nil => intro ls; simp
      | cons o os ih =>
        intro ls
        cases ls with
        | nil => simp
        | cons l ls => simpa using ih ls
    exact e1.sublist (e2 _ ls)

/-- In the middle of a list of operations, every slot has its old or its new value. -/
theorem lightUps_mid (xs : List (NodeOp N × Lights V)) {ctx ctx' : List V} (hl : ctx.length = 512) (h1 : ∀ x ∈ xs, x.1.idx < 256)
    (h2 : (xs.map (fun x => x.1.idx)).Nodup) (h : xs.foldlM lightUp ctx = some ctx') (k : Nat) :
    ∃ mid, (xs.take k).foldlM lightUp ctx = some mid ∧
      ∀ j, (mid[j * 2]? = ctx[j * 2]? ∨ mid[j * 2]? = ctx'[j * 2]?) ∧ (mid[j * 2 + 1]? = ctx[j * 2 + 1]? ∨ mid[j * 2 + 1]? = ctx'[j * 2 + 1]?) := by
  obtain ⟨c', e1, -, e2, -⟩ := lightUps_spec xs hl h1 h2
  rw [h] at e1
  cases e1
  obtain ⟨mid, f1, -, f2, f3⟩ := lightUps_spec (xs.take k) hl (fun x hx => h1 x (List.mem_of_mem_take hx))
    (by rw [List.map_take]; exact h2.sublist (List.take_sublist _ _))
  refine ⟨mid, f1, fun j => ?_⟩
  by_cases hj : ∃ x ∈ xs.take k, x.1.idx = j
  · obtain ⟨x, hx, rfl⟩ := hj
    obtain ⟨a, b⟩ := f2 x hx
    obtain ⟨c, d⟩ := e2 x (List.mem_of_mem_take hx)
    exact ⟨.inr (a.trans c.symm), .inr (b.trans d.symm)⟩
  · obtain ⟨a, b⟩ := f3 j (fun x hx he => hj ⟨x, hx, he⟩)
    exact ⟨.inl a, .inl b⟩

/-- Everything about a block. -/
theorem block_lights (hT : ∀ n, T.inCount n ≤ 32) (h : LFollows T a0 run w t) (hc : Update.clear ∉ t.pending) {nf : Nat} {res : BlockResult N V A}
    (hs : w.step T a0 run (.process nf) = some (w', some res)) :
    w'.world.conf = w.world.conf ∧ ∃ ls, Shines run w.world.st.1 res.calls ls w'.world.st.1 ∧
      (∀ n l, ShowedIn res.calls ls n l → ∃ i, w.world.conf.uniqueIndexFor n = some i ∧ i < 256 ∧ w'.ctx[i * 2]? = l.led.or w.ctx[i * 2]? ∧
        w'.ctx[i * 2 + 1]? = l.phase.or w.ctx[i * 2 + 1]?) ∧
      (∀ n i, w.world.conf.uniqueIndexFor n = some i → (∀ c ∈ res.calls, c.node ≠ n) → w'.ctx[i * 2]? = w.ctx[i * 2]? ∧
        w'.ctx[i * 2 + 1]? = w.ctx[i * 2 + 1]?) := by
  obtain ⟨s1, s2⟩ := step_process hs
  have hf := follows_of h
  have hf0 : Follows T a0 (logged run) ({ w.world with st := (w.world.st.1, []) } : World N V A M (σ × List (Lights V))) t := .outside _ hf
  obtain ⟨hruns, hflow⟩ := block_is_dataflow hT hf0 s1
  obtain ⟨ls, e1, e2, e3⟩ := shines_of_runs res.calls hruns
  simp only [List.nil_append] at e1
  obtain ⟨⟨le, lc, h1, h2, h3, -⟩, hwf, -⟩ := follows_sim hT hf
  have hpre : le.ids <+: w.world.conf.ids := (match_grows h2 hc).trans h3.pre
  have hprog := h1.carries.prog
  have hord := hflow.order
  rw [hprog, e1] at s2
  have hlen : t.now.order.length = ls.length := by rw [e2, ← hord]; simp
  have hidx : ∀ n ∈ t.now.order, (opFor T le.amts le.ids t.now.wires n).idx = le.ids.idxOf n := fun n hn => opFor_idx T _ _ (h1.carries.ord n hn) h1.carries.small
  set xs := (t.now.order.map (opFor T le.amts le.ids t.now.wires)).zip ls with hxs
  have hmem : ∀ x ∈ xs, ∃ n ∈ t.now.order, x.1 = opFor T le.amts le.ids t.now.wires n := by
    intro x hx
    obtain ⟨n, hn, e⟩ := List.mem_map.1 (List.of_mem_zip (show (x.1, x.2) ∈ _ from hx)).1
    exact ⟨n, hn, e.symm⟩
  have hsmall : ∀ n ∈ t.now.order, le.ids.idxOf n < 256 := by
    intro n hn
    have := List.idxOf_lt_length_iff.2 (h1.carries.ord n hn)
    have := h1.carries.small
    omega
  have hmap : xs.map (fun x => x.1.idx) = t.now.order.map (fun n => le.ids.idxOf n) := by
    have : xs.map (fun x => x.1.idx) = (xs.map Prod.fst).map (fun o => o.idx) := by rw [List.map_map]; rfl
    rw [this, hxs, List.map_fst_zip (by simp [hlen]), List.map_map]
    refine List.map_congr_left (fun n hn => hidx n hn)
  obtain ⟨ctx', f1, -, f2, f3⟩ := lightUps_spec xs (ctx_length h) (by
    intro x hx
    obtain ⟨n, hn, e⟩ := hmem x hx
    rw [e, hidx n hn]; exact hsmall n hn) (by
    rw [hmap]
    refine (List.nodup_map_iff_inj_on h1.carries.nodup).2 ?_
    intro a ha b hb hab
    exact (List.idxOf_inj (h1.carries.ord a ha)).1 hab)
  rw [s2] at f1
  cases f1
  have hconf : w'.world.conf = w.world.conf := by
    have := s1
    simp only [World.step] at this
    obtain ⟨r, -, hr⟩ := Option.map_eq_some_iff.1 this
    simp only [Prod.mk.injEq] at hr
    rw [← hr.1]
  refine ⟨hconf, ls, e3, ?_, ?_⟩
  · rintro n l ⟨i, c, hc1, hc2, hc3⟩
    have hn : t.now.order[i]? = some n := by rw [← hord, List.getElem?_map, hc1, Option.map_some, hc3]
    have hno : n ∈ t.now.order := List.mem_of_getElem? hn
    refine ⟨_, idx_of_prefix hwf hpre (h1.carries.ord n hno), hsmall n hno, ?_⟩
    have hx : (opFor T le.amts le.ids t.now.wires n, l) ∈ xs := by
      refine List.mem_of_getElem? (i := i) ?_
      rw [hxs, List.getElem?_zip_eq_some]
      exact ⟨by rw [List.getElem?_map, hn]; rfl, hc2⟩
    have := f2 _ hx
    simpa only [hidx n hno] using this
  · intro n i hi hno
    refine f3 i ?_
    intro x hx he
    obtain ⟨m, hm, e⟩ := hmem x hx
    rw [e, hidx m hm] at he
    have h5 := idx_of_prefix hwf hpre (h1.carries.ord m hm)
    have h6 := hi
    unfold Conf.uniqueIndexFor at h5 h6
    rw [hwf.idx] at h5 h6
    rw [he, h6] at h5
    cases h5
    rw [← hord] at hm
    obtain ⟨c, hc1, hc2⟩ := List.mem_map.1 hm
    exact hno c hc1 hc2

end

end HexoDSP.Leds
