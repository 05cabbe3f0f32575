import Verif.Lemmas.Repr
import Verif.Props.Block
import Verif.Props.BlockOps
/-! # Patches written to documents and read back -/

set_option linter.unusedSectionVars false

namespace HexoDSP.ReprProps
open HexoDSP.Repr HexoDSP.Json HexoDSP.Table HexoDSP.TableProps
open HexoDSP.Tracker (PatternRepr)

variable {F : Type} {O : Floats F}

theorem snapshot_round {s : Block.Snapshot} (h : SnapshotValid s) : SnapshotSame (Block.Snapshot.deserialize (s.serialize : Value F)) s := by
  obtain ⟨hsm, L, w, hL, hr, rfl⟩ := h
  obtain ⟨h1, h2, h3⟩ := BlockProps.snapshot_round_trip_partial (F := F) hL hr hsm
  refine ⟨h1, ?_⟩
  rw [List.forall₂_iff_get]
  refine ⟨h2, ?_⟩
  intro i hi hi'
  exact h3 i _ _ (List.getElem?_eq_getElem hi') (List.getElem?_eq_getElem hi)

theorem gather_map {α β γ : Type} {f : β → Except Fail γ} {s : α → β} {g : α → γ} : ∀ {l : List α}, (∀ a ∈ l, f (s a) = .ok (g a)) →
    gather f (l.map s) = .ok (l.map g) := by
  intro l
  induction l with
  | nil => intro _; rfl
  | cons a l ih =>
    intro h
    rw [List.map_cons]
    unfold gather
    rw [h a (by simp)]
    simp only
    rw [ih (fun b hb => h b (by simp [hb]))]
    rfl

/-- **C19** A patch that is written can be read, and what is read is the same: the same cells, patterns and version, the same parameters, atoms
and properties (sorted), the same block programs; the data of samples is not stored. -/
theorem patch_round_trip_partial (r : MatrixRepr F) (h : r.Valid O) :
    ∃ v r', r.serialize O = some v ∧ MatrixRepr.deserialize O v = .ok r' ∧ Stored r r' := by
  obtain ⟨as, ha1, ha2⟩ := collect_gather (f := serAtomRow O) (d := deserAtomRow O) (g := fun e => some (e.1, e.2.unloaded))
    (l := sortByKey (fun e => paramKey e.1) r.atoms) (fun e he => by
      have := h.atoms e ((sortByKey_perm _ _).mem_iff.1 he)
      exact atomRow_round this.1 this.2)
  obtain ⟨ps, hp1, hp2⟩ := collect_gather (f := serProp O) (d := deserProp O) (g := fun e => (e.1, e.2.unloaded))
    (l := sortByKey (fun e => e.1) r.properties) (fun e he => prop_round (h.properties e ((sortByKey_perm _ _).mem_iff.1 he)))
  have hser : ∃ v, r.serialize O = some v ∧ v.get "VERSION" = some (.int r.version) ∧
      v.key "params" = .arr ((sortByKey (fun e => paramKey e.1) r.params).map (serParam O)) ∧ v.key "atoms" = .arr as ∧ v.key "props" = .arr ps ∧
      v.key "cells" = .arr (r.cells.map CellRepr.serialize) ∧
      v.key "patterns" = .arr (r.patterns.map (fun p => match p with
        | some p => serPattern p
        | none => .null)) ∧
      v.key "block_funs" = .arr (r.blockFuns.map (fun p => match p with
        | some p => p.serialize
        | none => .null)) := by
    unfold MatrixRepr.serialize
    rw [ha1, hp1]
    exact ⟨_, rfl, rfl, rfl, rfl, rfl, rfl, rfl, rfl⟩
  obtain ⟨v, hv, k1, k2, k3, k4, k5, k6, k7⟩ := hser
  have e : ∀ l : List (Value F), (Value.arr l).elems = l := fun _ => rfl
  have hver : deserVersion v = .ok r.version := by
    unfold deserVersion
    rw [k1]
    simp only [int_round h.version.1, Option.getD_some]
    rw [if_neg (by have := h.version.2; omega)]
  have hcells : gather CellRepr.deserialize (v.key "cells").elems = .ok r.cells := by
    rw [k5, e]
    have := gather_map (f := CellRepr.deserialize) (s := fun c : CellRepr => (c.serialize : Value F)) (g := id) (l := r.cells) (fun c hc => cell_round (h.cells c hc))
    rwa [List.map_id] at this
  have hparams : gather (deserParam O) (v.key "params").elems = .ok (sortByKey (fun e => paramKey e.1) r.params) := by
    rw [k2, e]
    have hall : ∀ e ∈ sortByKey (fun e : ParamId × F × Option F => paramKey e.1) r.params, deserParam O (serParam O e) = .ok e := by
      intro e he
      obtain ⟨g1, g2, g3⟩ := h.params e ((sortByKey_perm _ _).mem_iff.1 he)
      exact param_round g1 g2 g3
    generalize sortByKey (fun e : ParamId × F × Option F => paramKey e.1) r.params = l at hall
    induction l with
    | nil => rfl
    | cons c l ih =>
      rw [List.map_cons]
      unfold gather
      rw [hall c (by simp)]
      simp only
      rw [ih (fun e he => hall e (by simp [he]))]
  have hpat : gather deserOptPattern (v.key "patterns").elems = .ok r.patterns := by
    rw [k6, e]
    have hall := h.patterns
    generalize r.patterns = l at hall
    induction l with
    | nil => rfl
    | cons c l ih =>
      rw [List.map_cons]
      unfold gather
      have : deserOptPattern (match c with
          | some p => (serPattern p : Value F)
          | none => .null) = .ok c := by
        cases c with
        | none => rfl
        | some p =>
          have h1 : (serPattern p : Value F).isObject = true := rfl
          unfold deserOptPattern
          simp only
          rw [if_pos h1, pattern_round (hall p (by simp))]
      rw [this]
      simp only
      rw [ih (fun p hp => hall p (by simp [hp]))]
  refine ⟨v, ?_, hv, ?_, ?_⟩
  · exact { cells := r.cells, params := sortByKey (fun e => paramKey e.1) r.params,
            atoms := (sortByKey (fun e => paramKey e.1) r.atoms).map (fun e => (e.1, e.2.unloaded)), patterns := r.patterns,
            properties := (sortByKey (fun e => e.1) r.properties).map (fun e => (e.1, e.2.unloaded)),
            blockFuns := (v.key "block_funs").elems.map deserBlockFun, version := r.version }
  · unfold MatrixRepr.deserialize
    rw [hver]
    simp only
    rw [hcells]
    simp only
    rw [hparams]
    simp only
    rw [k3, e, ha2]
    simp only
    rw [k4, e, hp2]
    simp only
    rw [hpat]
    simp only
    have : ∀ l : List (ParamId × SAtom F), (l.map (fun e => some (e.1, e.2.unloaded))).filterMap id = l.map (fun e => (e.1, e.2.unloaded)) := by
      intro l
      induction l with
      | nil => rfl
      | cons a l ih => rw [List.map_cons, List.map_cons, List.filterMap_cons]; exact congrArg _ ih
    rw [this]
  · refine ⟨rfl, sortByKey_perm _ _, (sortByKey_perm _ _).map _, (sortByKey_perm _ _).map _, rfl, ?_, rfl⟩
    simp only
    rw [k7, e, List.map_map, List.forall₂_map_left_iff]
    rw [List.forall₂_same]
    intro o ho
    cases o with
    | none => exact trivial
    | some s =>
      have h1 : (s.serialize : Value F).isObject = true := rfl
      simp only [Function.comp]
      unfold deserBlockFun
      rw [if_pos h1]
      exact snapshot_round (h.blockFuns s ho)

/-- **C19** A document of a newer version is rejected. -/
theorem newer_version_rejected (v : Value F) (n : Int) (hv : v.get "VERSION" = some (.int n)) (h64 : IsI64 n) (hn : 2 < n) :
    MatrixRepr.deserialize O v = .error .badVersion := by
  unfold MatrixRepr.deserialize deserVersion
  rw [hv]
  simp only [int_round h64, Option.getD_some]
  rw [if_pos hn]

/-! ## Documents of others -/

theorem gather_err {α β : Type} {f : α → Except Fail β} : ∀ {l : List α} {e : Fail}, gather f l = .error e → ∃ a ∈ l, f a = .error e := by
  intro l
  induction l with
  | nil => intro e h; cases h
  | cons a l ih =>
    intro e h
    unfold gather at h
    split at h
    · rename_i hx
      cases h
      exact ⟨a, by simp, hx⟩
    · split at h
      · rename_i hx
        cases h
        obtain ⟨b, hb, h2⟩ := ih hx
        exact ⟨b, by simp [hb], h2⟩
      · cases h

theorem nodeId_fail {v : Value F} {i j : Nat} {e : Fail} (h : deserNodeId v i j = .error e) : e ≠ .panic := by
  unfold deserNodeId at h
  simp only at h
  split at h
  · cases h; simp
  · cases h

theorem micro_fail {v : Value F} : ∀ {is : List Nat} {e : Fail}, deserMicro O v is = .error e → e ≠ .panic := by
  intro is
  induction is with
  | nil => intro e h; cases h
  | cons i is ih =>
    intro e h
    unfold deserMicro at h
    split at h
    · cases h; simp
    · split at h
      · rename_i hx; cases h; exact ih hx
      · cases h

theorem atom_fail {v : Value F} {e : Fail} (h : deserAtom O v = .error e) : e ≠ .panic := by
  unfold deserAtom at h
  split at h
  · split at h <;> cases h; simp
  · split at h <;> cases h; simp
  · split at h <;> cases h; simp
  · split at h <;> cases h; simp
  · split at h
    · rename_i hx; cases h; exact micro_fail hx
    · cases h
  · cases h; simp

/-- **C70** Reading a document, whatever it is, returns a patch or an error; the only exception are pattern tables larger than the patterns are:
more than six column types, or more than 256 rows or six cells in a row. -/
theorem reading_returns_partial (v : Value F)
    (hp : ∀ p ∈ (v.key "patterns").elems, (p.key "col_types").elems.length ≤ 6 ∧ (p.key "data").elems.length ≤ 256 ∧
      ∀ row ∈ (p.key "data").elems, row.elems.length ≤ 6) : MatrixRepr.deserialize O v ≠ .error .panic := by
  intro h
  unfold MatrixRepr.deserialize at h
  split at h
  · rename_i hx
    cases h
    unfold deserVersion at hx
    split at hx
    · cases hx
    · split at hx <;> cases hx
  · split at h
    · rename_i hx
      cases h
      obtain ⟨c, _, hc⟩ := gather_err hx
      unfold CellRepr.deserialize at hc
      split at hc
      · rename_i hy; cases hc; exact nodeId_fail hy rfl
      · cases hc
    · split at h
      · rename_i hx
        cases h
        obtain ⟨c, _, hc⟩ := gather_err hx
        unfold deserParam at hc
        split at hc
        · rename_i hy; cases hc; exact nodeId_fail hy rfl
        · split at hc <;> cases hc
      · split at h
        · rename_i hx
          cases h
          obtain ⟨c, _, hc⟩ := gather_err hx
          unfold deserAtomRow at hc
          split at hc
          · rename_i hy; cases hc; exact nodeId_fail hy rfl
          · split at hc
            · cases hc
            · split at hc
              · rename_i hy; cases hc; exact atom_fail hy rfl
              · cases hc
        · split at h
          · rename_i hx
            cases h
            obtain ⟨c, _, hc⟩ := gather_err hx
            unfold deserProp at hc
            split at hc
            · rename_i hy; cases hc; exact atom_fail hy rfl
            · cases hc
          · split at h
            · rename_i hx
              cases h
              obtain ⟨c, hm, hc⟩ := gather_err hx
              obtain ⟨g1, g2, g3⟩ := hp c hm
              unfold deserOptPattern at hc
              split at hc
              · split at hc
                · rename_i hy
                  cases hc
                  unfold deserPattern at hy
                  simp only at hy
                  rw [if_neg (by omega)] at hy
                  have : tooLarge (c.key "data").elems = false := by
                    unfold tooLarge
                    rw [List.any_eq_false]
                    rintro ⟨row, i⟩ hri
                    rw [List.mem_zipIdx_iff_getElem?] at hri
                    have h1 := (List.getElem?_eq_some_iff.1 hri).1
                    have h2 := g3 row (List.mem_of_getElem? hri)
                    simp only
                    rw [decide_eq_false (by omega), decide_eq_false (by omega)]
                    simp
                  rw [this] at hy
                  simp at hy
                · cases hc
              · cases hc
            · cases h

/-! ## Saving twice -/

theorem nodeKey_inj {a b : NodeId} (h : nodeKey a = nodeKey b) : a = b := by
  cases a with
  | nop =>
    cases b with
    | nop => rfl
    | node k' j' =>
      have h2 : ((0, 0) : Nat × Nat) = (k'.val + 1, j'.val) := toLex.injective h
      rw [Prod.mk.injEq] at h2
      omega
  | node k j =>
    cases b with
    | nop =>
      have h2 : ((k.val + 1, j.val) : Nat × Nat) = (0, 0) := toLex.injective h
      rw [Prod.mk.injEq] at h2
      omega
    | node k' j' =>
      have h2 : ((k.val + 1, j.val) : Nat × Nat) = (k'.val + 1, j'.val) := toLex.injective h
      rw [Prod.mk.injEq] at h2
      obtain ⟨h4, h5⟩ := h2
      have h4 : k = k' := Fin.ext (by omega)
      have h5 : j = j' := Fin.ext h5
      subst h4 h5
      rfl

theorem paramKey_inj {p q : ParamId} (h : paramKey p = paramKey q) : p = q := by
  obtain ⟨n, i, x⟩ := p
  obtain ⟨n', i', x'⟩ := q
  have h1 := Prod.mk.inj (toLex.injective h)
  have h2 := Prod.mk.inj (toLex.injective h1.2)
  have e1 : n = n' := h1.1
  have e2 : i = i' := nodeKey_inj h2.1
  have e3 : x = x' := h2.2
  subst e1 e2 e3
  rfl

/-- Sorting by different keys gives the same list for every order of the elements. -/
theorem sort_unique {α K : Type} [LinearOrder K] (key : α → K) {l l' : List α} (hp : l.Perm l') (hn : (l.map key).Nodup) :
    sortByKey key l = sortByKey key l' := by
  have total : ∀ a b : α, key a ≤ key b ∨ key b ≤ key a := fun a b => le_total _ _
  have trans : ∀ a b c : α, key a ≤ key b → key b ≤ key c → key a ≤ key c := fun a b c => le_trans
  have : Std.Total (fun a b : α => key a ≤ key b) := ⟨total⟩
  have : IsTrans α (fun a b : α => key a ≤ key b) := ⟨trans⟩
  have h1 : (sortByKey key l).Pairwise (fun a b => key a ≤ key b) := List.pairwise_insertionSort _ l
  have h2 : (sortByKey key l').Pairwise (fun a b => key a ≤ key b) := List.pairwise_insertionSort _ l'
  have hp' : (sortByKey key l).Perm (sortByKey key l') := (sortByKey_perm key l).trans (hp.trans (sortByKey_perm key l').symm)
  refine hp'.eq_of_pairwise ?_ h1 h2
  intro a b ha _ hab hba
  have ha' := (sortByKey_perm key l).mem_iff.1 ha
  rename_i hb
  have hb' := hp.mem_iff.2 ((sortByKey_perm key l').mem_iff.1 hb)
  exact List.inj_on_of_nodup_map hn ha' hb' (le_antisymm hab hba)

/-- **C71** The document does not depend on the order in which parameters, atoms and properties are listed (they come from hash tables). -/
theorem saving_deterministic (r r' : MatrixRepr F) (hc : r'.cells = r.cells) (hv : r'.version = r.version) (hpa : r'.patterns = r.patterns)
    (hb : r'.blockFuns = r.blockFuns) (hp : r'.params.Perm r.params) (ha : r'.atoms.Perm r.atoms) (hq : r'.properties.Perm r.properties)
    (hpn : (r'.params.map (fun e => e.1)).Nodup) (han : (r'.atoms.map (fun e => e.1)).Nodup) (hqn : (r'.properties.map (fun e => e.1)).Nodup) :
    r'.serialize O = r.serialize O := by
  have inj : Function.Injective paramKey := fun _ _ => paramKey_inj
  have e1 := sort_unique (fun e : ParamId × F × Option F => paramKey e.1) hp (by
    have := hpn.map inj
    rwa [List.map_map] at this)
  have e2 := sort_unique (fun e : ParamId × SAtom F => paramKey e.1) ha (by
    have := han.map inj
    rwa [List.map_map] at this)
  have e3 := sort_unique (fun e : String × SAtom F => e.1) hq hqn
  unfold MatrixRepr.serialize
  rw [e1, e2, e3, hc, hv, hpa, hb]

theorem serAtom_unloaded (a : SAtom F) : serAtom O a.unloaded = serAtom O a := by cases a <;> rfl

theorem collect_map {α β γ : Type} (f : β → Option γ) (u : α → β) (f' : α → Option γ) (h : ∀ a, f (u a) = f' a) : ∀ l : List α,
    collect f (l.map u) = collect f' l := by
  intro l
  induction l with
  | nil => rfl
  | cons a l ih =>
    rw [List.map_cons]
    unfold collect
    rw [h, ih]

theorem sort_map {α β K : Type} [LinearOrder K] (key : α → K) (key' : β → K) (u : α → β) (h : ∀ a, key' (u a) = key a) (l : List α) :
    sortByKey key' (l.map u) = (sortByKey key l).map u := by
  unfold sortByKey
  refine (List.map_insertionSort (r := fun a b => key a ≤ key b) (s := fun a b => key' a ≤ key' b) u l ?_).symm
  intro a _ b _
  show key a ≤ key b ↔ key' (u a) ≤ key' (u b)
  rw [h, h]

/-- **C71** A patch that was read, saved again, gives the same document (if it has no block programs, whose blocks are kept in a hash table). -/
theorem resaving_same (r : MatrixRepr F) (h : r.Valid O) (hb : ∀ o ∈ r.blockFuns, o = none)
    (hpn : (r.params.map (fun e => e.1)).Nodup) (han : (r.atoms.map (fun e => e.1)).Nodup) (hqn : (r.properties.map (fun e => e.1)).Nodup)
    {v : Value F} {r' : MatrixRepr F} (hv : r.serialize O = some v) (hr : MatrixRepr.deserialize O v = .ok r') : r'.serialize O = some v := by
  obtain ⟨v2, r2, h1, h2, hst⟩ := patch_round_trip_partial r h
  rw [hv] at h1
  cases h1
  rw [hr] at h2
  cases h2
  have hbf : r'.blockFuns = r.blockFuns := by
    have := hst.blockFuns
    generalize r'.blockFuns = l' at this
    generalize r.blockFuns = l at this hb
    induction this with
    | nil => rfl
    | cons hab _ ih =>
      rename_i a b l1 l2 _
      have hbn := hb b (by simp)
      subst hbn
      rw [ih (fun o ho => hb o (by simp [ho]))]
      cases a with
      | none => rfl
      | some a => exact absurd hab (by simp [OptSame])
  have key := saving_deterministic (O := O)
    { r with atoms := r.atoms.map (fun e => (e.1, e.2.unloaded)), properties := r.properties.map (fun e => (e.1, e.2.unloaded)) } r'
    hst.cells hst.version hst.patterns hbf hst.params hst.atoms hst.properties
    ((hst.params.map _).nodup_iff.2 hpn) ((hst.atoms.map _).nodup_iff.2 (by rw [List.map_map]; exact han))
    ((hst.properties.map _).nodup_iff.2 (by rw [List.map_map]; exact hqn))
  rw [key, ← hv]
  unfold MatrixRepr.serialize
  simp only
  rw [sort_map (fun e : ParamId × SAtom F => paramKey e.1) (fun e : ParamId × SAtom F => paramKey e.1) (fun e => (e.1, e.2.unloaded)) (fun _ => rfl),
    sort_map (fun e : String × SAtom F => e.1) (fun e : String × SAtom F => e.1) (fun e => (e.1, e.2.unloaded)) (fun _ => rfl),
    collect_map (serAtomRow O) (fun e => (e.1, e.2.unloaded)) (serAtomRow O) (fun e => by unfold serAtomRow; simp only [serAtom_unloaded]),
    collect_map (serProp O) (fun e => (e.1, e.2.unloaded)) (serProp O) (fun e => by unfold serProp; simp only [serAtom_unloaded])]

/-! ## Examples -/

/-- Numbers for the examples: `none` is not a number. -/
def exF : Floats (Option Int) := ⟨some 0, some, Option.isSome⟩

/-- A pattern. -/
def exPattern : PatternRepr :=
  { colTypes := fun c => if c = 2 then 3 else 0
    data := (List.range 256).map (fun r => (List.range 6).map (fun c => if r = 3 ∧ c = 2 then 2048 else -1))
    rows := 64, editStep := 4, cursor := (2, 2) }

/-- A patch with a filter after an oscillator. -/
def exRepr : MatrixRepr (Option Int) :=
  { cells := [⟨NodeId.fromStr "sin", 0, 0, (-1, -1, -1), (-1, -1, 0)⟩, ⟨(NodeId.fromStr "sfilter").toInstance 2, 0, 1, (0, -1, -1), (-1, -1, 0)⟩]
    params := [(⟨"freq", NodeId.fromStr "sin", 0⟩, some 440, some (some 1)), (⟨"det", NodeId.fromStr "sin", 1⟩, some 0, none)]
    atoms := [(⟨"ftype", (NodeId.fromStr "sfilter").toInstance 2, 3⟩, .setting 4), (⟨"sample", NodeId.fromStr "sampl", 6⟩, .audio "a.wav" (some []))]
    patterns := [none, some exPattern]
    properties := [("zoom", .param (some 2)), ("name", .str "x"), ("wave", .micro [some 1, some 2, some 3, some 4, some 5, some 6, some 7, some 8])]
    blockFuns := [none, some Block.World.new.fn.saveSnapshot]
    version := 2 }

theorem ex_pattern_valid : PatternValid exPattern := by
  refine ⟨by decide, by show (List.map _ (List.range 256)).length = 256; rw [List.length_map, List.length_range], ?_, by unfold FitsI64; decide, by unfold FitsI64; decide, by unfold FitsI64; decide, by unfold FitsI64; decide⟩
  intro row hrow
  obtain ⟨r, _, rfl⟩ := List.mem_map.1 hrow
  refine ⟨rfl, ?_⟩
  intro v hv
  obtain ⟨c, _, rfl⟩ := List.mem_map.1 hv
  unfold IsI32
  split <;> omega

/-- The patch is one of those the theorems speak about. -/
theorem ex_valid : exRepr.Valid exF where
  cells := by
    intro c hc
    have : c = ⟨NodeId.fromStr "sin", 0, 0, (-1, -1, -1), (-1, -1, 0)⟩ ∨
      c = ⟨(NodeId.fromStr "sfilter").toInstance 2, 0, 1, (0, -1, -1), (-1, -1, 0)⟩ := by simpa [exRepr] using hc
    rcases this with rfl | rfl
    · refine ⟨by decide +kernel, by unfold FitsI64; decide, by unfold FitsI64; decide, .inl rfl, .inl rfl, .inl rfl, .inl rfl, .inl rfl, .inr ⟨0, rfl, by decide +kernel⟩⟩
    · refine ⟨by decide +kernel, by unfold FitsI64; decide, by unfold FitsI64; decide, .inr ⟨0, rfl, by decide +kernel⟩, .inl rfl, .inl rfl, .inl rfl, .inl rfl, .inr ⟨0, rfl, by decide +kernel⟩⟩
  params := by
    intro e he
    have : e = (⟨"freq", NodeId.fromStr "sin", 0⟩, some 440, some (some 1)) ∨ e = (⟨"det", NodeId.fromStr "sin", 1⟩, some 0, none) := by simpa [exRepr] using he
    rcases this with rfl | rfl
    · exact ⟨by unfold Genuine; decide +kernel, rfl, fun m hm => by cases hm; rfl⟩
    · exact ⟨by unfold Genuine; decide +kernel, rfl, fun m hm => by cases hm⟩
  atoms := by
    intro e he
    have : e = (⟨"ftype", (NodeId.fromStr "sfilter").toInstance 2, 3⟩, .setting 4) ∨ e = (⟨"sample", NodeId.fromStr "sampl", 6⟩, .audio "a.wav" (some [])) := by
      simpa [exRepr] using he
    rcases this with rfl | rfl
    · exact ⟨by unfold Genuine; decide +kernel, by show IsI64 4; unfold IsI64; decide⟩
    · exact ⟨by unfold Genuine; decide +kernel, trivial⟩
  properties := by
    intro e he
    have : e = ("zoom", .param (some 2)) ∨ e = ("name", .str "x") ∨
        e = ("wave", .micro [some 1, some 2, some 3, some 4, some 5, some 6, some 7, some 8]) := by simpa [exRepr] using he
    rcases this with rfl | rfl | rfl
    · rfl
    · trivial
    · exact ⟨rfl, by decide⟩
  patterns := by
    intro p hp
    have : p = exPattern := by simpa [exRepr] using hp
    subst this
    exact ex_pattern_valid
  blockFuns := by
    intro s hs
    have : s = Block.World.new.fn.saveSnapshot := by simpa [exRepr] using hs
    subst this
    refine ⟨⟨by decide, ?_⟩, BlockProps.base, Block.World.new, BlockProps.base_tall, .new, rfl⟩
    intro a ha
    have : a = Block.Area.new 16 16 := by simpa [Block.World.new, Block.BlockFun.new, Block.BlockFun.saveSnapshot] using ha
    subst this
    refine ⟨by decide, by decide, ?_⟩
    intro e he
    cases he
  version := by unfold IsI64; decide

/-- The reading of what was written fails with this error. -/
def readsAs (r : MatrixRepr (Option Int)) (e : Fail) : Bool :=
  match r.serialize exF with
  | none => false
  | some v => match MatrixRepr.deserialize exF v with
    | .ok _ => false
    | .error e' => decide (e' = e)

/-- What is read of what was written. -/
def reread (r : MatrixRepr (Option Int)) : Option (MatrixRepr (Option Int)) :=
  match r.serialize exF with
  | none => none
  | some v => match MatrixRepr.deserialize exF v with
    | .ok r => some r
    | .error _ => none

-- the parameters are sorted
example : (reread exRepr).map (fun r => r.params.map (fun e => e.1.name)) = some ["det", "freq"] := by decide +kernel

/-! ## Where it fails -/

/-- **C19** A property (or atom) that is not a finite number makes the patch unreadable. -/
theorem nan_property_unreadable : readsAs { MatrixRepr.empty with properties := [("x", .param none)] } .invalidAtom = true := by decide +kernel

/-- **C19** A value that is not a finite number is read as zero, a modulation amount of this kind is lost. -/
theorem nan_value_lost : (reread { MatrixRepr.empty with params := [(⟨"freq", NodeId.fromStr "sin", 0⟩, none, some none)] }).map
    (fun r => r.params.map (fun e => e.2)) = some [(some 0, none)] := by decide +kernel

/-- **C19** A waveform of fewer than eight samples can not be saved (a panic), further samples are lost. -/
theorem short_waveform_panics : (({ MatrixRepr.empty with properties := [("x", .micro [some 1])] } : MatrixRepr (Option Int)).serialize exF).isNone = true ∧
    (reread { MatrixRepr.empty with properties := [("x", .micro (List.replicate 9 (some 1)))] }).map (fun r => r.properties.map (fun e =>
      match e.2 with
      | .micro l => l.length
      | _ => 0)) = some [8] := by
  constructor <;> decide +kernel

/-- **C19** A cell input with the index of an atom is lost: the name is written, but not found again. -/
theorem atom_port_lost : (reread { MatrixRepr.empty with cells := [⟨NodeId.fromStr "sampl", 0, 0, (6, -1, -1), (-1, -1, -1)⟩] }).map
    (fun r => r.cells.map (fun c => c.inp.1)) = some [-1] := by decide +kernel

/-- **C19** A value set for no parameter (`ParamId::none()`) makes the patch unreadable. -/
theorem nop_param_unreadable : readsAs { MatrixRepr.empty with params := [(⟨"NOP", .nop, 0⟩, some 1, none)] } (.unknownNode "nop") = true := by
  decide +kernel

/-- **C70** A document with a pattern of seven column types makes the reader panic. -/
theorem large_pattern_panics : (match MatrixRepr.deserialize exF (.obj [("patterns", .arr [.obj [("col_types", .arr (List.replicate 7 (.int 0)))]])]) with
    | .error e => decide (e = .panic)
    | .ok _ => false) = true := by decide +kernel

/-- A document with nothing in it is an empty patch; the document of the next version is rejected. -/
example : (match MatrixRepr.deserialize exF (.obj []) with
    | .ok r => decide (r.version = 2)
    | .error _ => false) = true := by decide +kernel
example : (Value.obj [("VERSION", .int 3)] : Value (Option Int)).get "VERSION" = some (.int 3) ∧ IsI64 3 := ⟨rfl, by unfold IsI64; decide⟩

theorem gather_snoc {α β : Type} (f : α → Except Fail β) (b : β) {x : α} (hx : f x = .ok b) : ∀ l : List α,
    gather f (l ++ [x]) = match gather f l with
      | .error e => .error e
      | .ok bs => .ok (bs ++ [b])
  | [] => by simp [gather, hx]
  | a :: l => by
    rw [List.cons_append, gather, gather, gather_snoc f b hx l]
    cases f a with
    | error e => rfl
    | ok c => cases gather f l <;> rfl

/-- **C70** A setting that the node does not have (any more) does not keep a document from being read: it is left out. -/
theorem unknown_setting_ignored {F : Type} (O : Floats F) (v v' : Value F) (row : Value F) (id : NodeId) (hver : deserVersion v' = deserVersion v)
    (hkeys : ∀ k, k ≠ "atoms" → v'.key k = v.key k) (hrow : (v'.key "atoms").elems = (v.key "atoms").elems ++ [row])
    (hid : deserNodeId row 0 1 = .ok id) (hname : id.inpParam ((row.at 2).asStr.getD "") = none) :
    MatrixRepr.deserialize O v' = MatrixRepr.deserialize O v := by
  have hr : deserAtomRow O row = .ok none := by unfold deserAtomRow; rw [hid]; simp only [hname]
  unfold MatrixRepr.deserialize
  rw [hver, hkeys "cells" (by decide), hkeys "params" (by decide), hkeys "props" (by decide), hkeys "patterns" (by decide),
    hkeys "block_funs" (by decide), hrow, gather_snoc (deserAtomRow O) none hr]
  cases deserVersion v with
  | error e => rfl
  | ok ver =>
    simp only
    cases gather CellRepr.deserialize (v.key "cells").elems with
    | error e => rfl
    | ok cells =>
      simp only
      cases gather (deserParam O) (v.key "params").elems with
      | error e => rfl
      | ok params =>
        simp only
        cases gather (deserAtomRow O) (v.key "atoms").elems with
        | error e => rfl
        | ok atoms => simp

end HexoDSP.ReprProps
