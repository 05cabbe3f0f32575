import Verif.Lemmas.Reach
import Mathlib.Tactic.FinCases
/-!
# Port regions and parameter values of the node program (C11, C17)

Every theorem is about an arbitrary history of calls of the engine (`Reached`), followed by a rebuild
of the node program with an arbitrary node order and arbitrary connections (`Conf.buildProg`).
-/

set_option linter.unusedSectionVars false

namespace HexoDSP.NodeConfProps
open Engine EngineSpec

variable {N V A M σ : Type} [DecidableEq N] [Add V] [Mul V] [Sub V] [Div V] [NatCast V] [OfNat V 0]
variable {T : NodeTable N V A} {a0 : A} {run : σ → CallIn N V A → σ × (Nat → Block V)}
variable {w : World N V A M σ} {h h' : Heap V} {order : List N} {es : List (Conn N)}
variable {c' : Conf N V A} {p : NodeProg N V A}

/-- The instance data of the allocated nodes after a rebuild, and of no others. -/
theorem inst_iff (hr : Reached T a0 run w) (hb : w.conf.buildProg T a0 h order es = some (c', p, h')) (n : N) :
    (Allocated w.conf n → ∃ u, c'.instanceOf n =
      some { instOf T w.conf.paramModamt w.conf.ids n with inUse := u }) ∧
    (¬ Allocated w.conf n → c'.instanceOf n = none) := by
  have hw := wf_reached hr
  have hrb := rebuilt_buildProg hw hb
  have hmem : Allocated w.conf n ↔ n ∈ w.conf.ids := by
    have := uniqueIndexFor_none hw n
    unfold Allocated
    cases hu : w.conf.uniqueIndexFor n with
    | none => simpa using this.1 hu
    | some i => simpa [hu] using this
  rw [hmem]
  exact ⟨instanceOf_eq hrb, fun hn => instanceOf_rebuilt_none hrb (by rw [hrb.ids]; exact hn)⟩

theorem mem_ids (hr : Reached T a0 run w) (n : N) : Allocated w.conf n ↔ n ∈ w.conf.ids := by
  have := uniqueIndexFor_none (wf_reached hr) n
  unfold Allocated
  cases hu : w.conf.uniqueIndexFor n with
  | none => simpa using this.1 hu
  | some i => simpa [hu] using this

/-- **C11**: after any history and any rebuild, the regions of the nodes tile the output, input, atom
and modulator index spaces of the new program: every global index belongs to exactly one node and
there are no others. -/
theorem regions_tile (hr : Reached T a0 run w)
    (hb : w.conf.buildProg T a0 h order es = some (c', p, h')) :
    Tiles (fun n => (c'.instanceOf n).map (fun ni => ni.outR)) p.out.length ∧
    Tiles (fun n => (c'.instanceOf n).map (fun ni => ni.inR)) p.inp.length ∧
    Tiles (fun n => (c'.instanceOf n).map (fun ni => ni.atR)) p.atoms.length ∧
    Tiles (fun n => (c'.instanceOf n).map (fun ni => ni.modR)) p.modops.length := by
  have hw := wf_reached hr
  have hp := onlyProg_buildProg hb
  have hs := rebuildLoop_spec T w.conf hw.nodup
  have key : ∀ (f : N → Nat) (r : NodeInstance N → Nat × Nat),
      (∀ n u, r { instOf T w.conf.paramModamt w.conf.ids n with inUse := u } =
        (base f w.conf.ids n, base f w.conf.ids n + f n)) →
      Tiles (fun n => (c'.instanceOf n).map r) (tot f w.conf.ids) := by
    intro f r hrr
    apply tiles_base f w.conf.ids hw.nodup
    · intro n hn
      obtain ⟨u, hu⟩ := (inst_iff hr hb n).1 ((mem_ids hr n).2 hn)
      simp only [hu, Option.map_some, hrr]
    · intro n hn
      rw [(inst_iff hr hb n).2 (fun ha => hn ((mem_ids hr n).1 ha))]
      rfl
  rw [hp]
  have e1 : (freshProg T a0 w.conf h).out.length = tot T.outCount w.conf.ids := by
    show (List.range' h.next (w.conf.rebuildLoop T).outLen).length = _
    simp [hs.out]
  have e2 : (freshProg T a0 w.conf h).inp.length = tot T.inCount w.conf.ids := by
    show (List.range' (h.next + (w.conf.rebuildLoop T).outLen) (w.conf.rebuildLoop T).inLen).length = _
    simp [hs.inp]
  have e3 : (freshProg T a0 w.conf h).atoms.length = tot T.atCount w.conf.ids := by
    show (List.replicate (w.conf.rebuildLoop T).atLen a0).length = _
    simp [hs.at_]
  have e4 : (freshProg T a0 w.conf h).modops.length = tot (modTot T w.conf.paramModamt) w.conf.ids := by
    show ((List.range' (h.next + (w.conf.rebuildLoop T).outLen + (w.conf.rebuildLoop T).inLen)
      (w.conf.rebuildLoop T).modLen).map _).length = _
    simp [hs.mod]
  simp only [e1, e2, e3, e4]
  exact ⟨key _ _ (fun n u => rfl), key _ _ (fun n u => rfl), key _ _ (fun n u => rfl), key _ _ (fun n u => rfl)⟩

/-- Number of inputs of a node with a modulation amount. -/
def modulated (T : NodeTable N V A) (c : Conf N V A) (n : N) : Nat :=
  ((List.range (T.inCount n)).filter (fun k => (c.getModamt (.input n k)).isSome)).length

/-- **C11**: exactly the allocated nodes have regions, and their lengths are the numbers of outputs,
inputs, atoms and modulated inputs of the node. -/
theorem region_sizes (hr : Reached T a0 run w)
    (hb : w.conf.buildProg T a0 h order es = some (c', p, h')) (n : N) :
    (Allocated w.conf n ↔ ∃ ni, c'.instanceOf n = some ni) ∧
    ∀ ni, c'.instanceOf n = some ni →
      ni.outR.2 = ni.outR.1 + T.outCount n ∧ ni.inR.2 = ni.inR.1 + T.inCount n ∧
      ni.atR.2 = ni.atR.1 + T.atCount n ∧ ni.modR.2 = ni.modR.1 + modulated T w.conf n := by
  obtain ⟨h1, h2⟩ := inst_iff hr hb n
  by_cases ha : Allocated w.conf n
  · obtain ⟨u, hu⟩ := h1 ha
    refine ⟨⟨fun _ => ⟨_, hu⟩, fun _ => ha⟩, ?_⟩
    intro ni hni
    rw [hu] at hni
    cases hni
    exact ⟨rfl, rfl, rfl, rfl⟩
  · have := h2 ha
    refine ⟨⟨fun h => absurd h ha, ?_⟩, ?_⟩
    · rintro ⟨ni, hni⟩; rw [this] at hni; cases hni
    · intro ni hni; rw [this] at hni; cases hni

/-- **C11**: translating a local input (output) number gives an index exactly for the ports the node
has, and the node that owns the index is the node itself. -/
theorem local_to_global_owner (hr : Reached T a0 run w)
    (hb : w.conf.buildProg T a0 h order es = some (c', p, h')) {n : N} {ni : NodeInstance N}
    (hn : c'.instanceOf n = some ni) (k : Nat) :
    ((ni.inLocal2Global k).isSome ↔ k < T.inCount n) ∧
    ((ni.outLocal2Global k).isSome ↔ k < T.outCount n) ∧
    (∀ g, ni.inLocal2Global k = some g → g = ni.inR.1 + k ∧ g < p.inp.length ∧
      ∀ m mi, c'.instanceOf m = some mi → Within mi.inR g → m = n) ∧
    (∀ g, ni.outLocal2Global k = some g → g = ni.outR.1 + k ∧ g < p.out.length ∧
      ∀ m mi, c'.instanceOf m = some mi → Within mi.outR g → m = n) := by
  obtain ⟨s1, s2, s3, s4⟩ := (region_sizes hr hb n).2 ni hn
  obtain ⟨t1, t2, t3, t4⟩ := regions_tile hr hb
  refine ⟨?_, ?_, ?_, ?_⟩
  · unfold NodeInstance.inLocal2Global
    split <;> simp <;> omega
  · unfold NodeInstance.outLocal2Global
    split <;> simp <;> omega
  · intro g hg
    unfold NodeInstance.inLocal2Global at hg
    split at hg
    · cases hg
      rename_i hlt
      have hw : Within ni.inR (ni.inR.1 + k) := ⟨by omega, hlt⟩
      refine ⟨rfl, (t2.1 _).2 ⟨n, ni.inR, by simp [hn], hw⟩, ?_⟩
      intro m mi hm hwm
      exact t2.2 _ m n mi.inR ni.inR (by simp [hm]) (by simp [hn]) hwm hw
    · cases hg
  · intro g hg
    unfold NodeInstance.outLocal2Global at hg
    split at hg
    · cases hg
      rename_i hlt
      have hw : Within ni.outR (ni.outR.1 + k) := ⟨by omega, hlt⟩
      refine ⟨rfl, (t1.1 _).2 ⟨n, ni.outR, by simp [hn], hw⟩, ?_⟩
      intro m mi hm hwm
      exact t1.2 _ m n mi.outR ni.outR (by simp [hm]) (by simp [hn]) hwm hw
    · cases hg

/-- **C11**, modulators: an input has a modulator exactly if it exists and has an amount; the modulator
lies in the region of the node, and different inputs have different modulators. -/
theorem mod_local_to_global (hr : Reached T a0 run w)
    (hb : w.conf.buildProg T a0 h order es = some (c', p, h')) {n : N} {ni : NodeInstance N}
    (hn : c'.instanceOf n = some ni) {k : Nat} (hk : k < 32) :
    ∃ m, ni.modLocal2Global k = some m ∧
      (m.isSome ↔ k < T.inCount n ∧ (w.conf.getModamt (.input n k)).isSome) ∧
      ∀ g, m = some g → Within ni.modR g ∧
        ∀ k' < 32, ni.modLocal2Global k' = some (some g) → k' = k := by
  have ha := (region_sizes hr hb n).1.2 ⟨ni, hn⟩
  obtain ⟨u, hu⟩ := (inst_iff hr hb n).1 ha
  rw [hu] at hn
  cases hn
  refine ⟨_, modLocal_instAt T w.conf.paramModamt _ n u k hk, ?_, ?_⟩
  · show _ ↔ k < T.inCount n ∧ (amtOf w.conf.paramModamt n k).isSome
    split
    · rename_i hc; exact ⟨fun _ => hc, fun _ => rfl⟩
    · rename_i hc; exact ⟨fun h => (Bool.noConfusion h), fun h => absurd h hc⟩
  · intro g hg
    split at hg
    · rename_i hc
      cases hg
      refine ⟨⟨Nat.le_add_right _ _, ?_⟩, ?_⟩
      · exact Nat.add_lt_add_left (modCnt_lt w.conf.paramModamt n hc.1 hc.2) _
      · intro k' hk' hm
        rw [show ({ instOf T w.conf.paramModamt w.conf.ids n with inUse := u } : NodeInstance N).modLocal2Global k' = _ from
          modLocal_instAt T w.conf.paramModamt _ n u k' hk'] at hm
        split at hm
        · rename_i hc'
          have he : modCnt w.conf.paramModamt n k' = modCnt w.conf.paramModamt n k := by
            have := Option.some.inj (Option.some.inj hm)
            omega
          rcases Nat.lt_trichotomy k' k with hlt | hlt | hlt
          · have := modCnt_lt w.conf.paramModamt n hlt hc'.2; omega
          · exact hlt
          · have := modCnt_lt w.conf.paramModamt n hlt hc.2; omega
        · cases hm
    · cases hg

/-! ## C17 -/

/-- **C17**: a rebuild keeps every parameter and atom value that is set and gives every other
parameter of an allocated node its default. -/
theorem rebuild_keeps_params (hr : Reached T a0 run w)
    (hb : w.conf.buildProg T a0 h order es = some (c', p, h')) (n : N) (k : Nat) :
    (∀ v, w.conf.getParam (.input n k) = some v → c'.getParam (.input n k) = some v) ∧
    (w.conf.getParam (.input n k) = none → c'.getParam (.input n k) =
      if Allocated w.conf n ∧ k < T.inCount n then some (Value.num (T.normDef n k)) else none) ∧
    (∀ v, w.conf.getParam (.atom n k) = some v → c'.getParam (.atom n k) = some v) ∧
    (w.conf.getParam (.atom n k) = none → c'.getParam (.atom n k) =
      if Allocated w.conf n ∧ k < T.atCount n then some (Value.atom (T.atomDef n k)) else none) := by
  have hw := wf_reached hr
  have hs := rebuildLoop_spec T w.conf hw.nodup
  have ht := tables_buildProg hb
  have hpv : c'.paramValues = (w.conf.rebuildLoop T).paramValues := ht.paramValues
  have hav : c'.atomValues = (w.conf.rebuildLoop T).atomValues := ht.atomValues
  have hm := mem_ids hr n
  simp only [Conf.getParam, hpv, hav, hs.val, hs.aval, hm]
  refine ⟨?_, ?_, ?_, ?_⟩
  · intro v hv
    cases hl : w.conf.paramValues.lookup (n, k) with
    | none => simp [hl] at hv
    | some x => simpa [hl] using hv
  · intro hv
    have hl : w.conf.paramValues.lookup (n, k) = none := by simpa using hv
    split <;> simp [hl]
  · intro v hv
    cases hl : w.conf.atomValues.lookup (n, k) with
    | none => simp [hl] at hv
    | some x => simpa [hl] using hv
  · intro hv
    have hl : w.conf.atomValues.lookup (n, k) = none := by simpa using hv
    split <;> simp [hl]

/-- **C17**: a rebuild keeps every modulation amount. -/
theorem rebuild_keeps_modamt (hb : w.conf.buildProg T a0 h order es = some (c', p, h')) (id : ParamId N) :
    c'.getModamt id = w.conf.getModamt id := by
  have ht := tables_buildProg hb
  have : c'.paramModamt = w.conf.paramModamt := ht.paramModamt
  cases id <;> simp [Conf.getModamt, this]

/-- **C17**: the uploaded program holds every value at the global index of its port. -/
theorem program_holds_params (hr : Reached T a0 run w)
    (hb : w.conf.buildProg T a0 h order es = some (c', p, h')) {n : N} {ni : NodeInstance N}
    (hn : c'.instanceOf n = some ni) (k : Nat) :
    (k < T.inCount n → ∃ v, c'.getParam (.input n k) = some (.num v) ∧
      (c'.fillProg p).params[ni.inR.1 + k]? = some v) ∧
    (k < T.atCount n → ∃ a, c'.getParam (.atom n k) = some (.atom a) ∧
      (c'.fillProg p).atoms[ni.atR.1 + k]? = some a) ∧
    (k < 32 → ∀ g, ni.modLocal2Global k = some (some g) → ∃ (mo : ModOp V) (a : V),
      c'.getModamt (.input n k) = some a ∧ (c'.fillProg p).modops[g]? = some mo ∧ mo.amount = a) := by
  have hw := wf_reached hr
  have ht := tables_buildProg hb
  obtain ⟨hf, _⟩ := fill_filled hw ht (onlyProg_buildProg hb) (buildProg_split hb).2
  have ha := (region_sizes hr hb n).1.2 ⟨ni, hn⟩
  have hmem := (mem_ids hr n).1 ha
  obtain ⟨u, hu⟩ := (inst_iff hr hb n).1 ha
  have hn' := hn
  rw [hu] at hn'
  cases hn'
  obtain ⟨k1, k2, k3, k4⟩ := rebuild_keeps_params hr hb n k
  refine ⟨?_, ?_, ?_⟩
  · intro hk
    refine ⟨_, ?_, hf.params n hmem k hk⟩
    cases hl : w.conf.paramValues.lookup (n, k) with
    | none =>
      rw [k2 (by simp [Conf.getParam, hl]), if_pos ⟨ha, hk⟩]; rfl
    | some x => exact k1 _ (by simp [Conf.getParam, hl])
  · intro hk
    refine ⟨_, ?_, hf.atoms n hmem k hk⟩
    cases hl : w.conf.atomValues.lookup (n, k) with
    | none =>
      rw [k4 (by simp [Conf.getParam, hl]), if_pos ⟨ha, hk⟩]; rfl
    | some x => exact k3 _ (by simp [Conf.getParam, hl])
  · intro hk g hg
    rw [show ({ instOf T w.conf.paramModamt w.conf.ids n with inUse := u } : NodeInstance N).modLocal2Global k = _ from
      modLocal_instAt T w.conf.paramModamt _ n u k hk] at hg
    split at hg
    · rename_i hc
      cases hg
      obtain ⟨a, haa⟩ := Option.isSome_iff_exists.1 hc.2
      obtain ⟨mo, hmo, hamt⟩ := hf.mods n hmem k hc.1 a haa
      refine ⟨mo, a, ?_, hmo, hamt⟩
      rw [rebuild_keeps_modamt hb]
      exact haa
    · cases hg

/-- The calls that can change the value of a parameter. -/
def Touches (id : ParamId N) : EOp N V A M → Prop
  | .setInput n i _ => id = .input n i
  | .setAtom n i _ => id = .atom n i
  | .deleteNodes => True
  | _ => False

/-- The calls that can change the modulation amount of a parameter. -/
def TouchesAmt (id : ParamId N) : EOp N V A M → Prop
  | .setModamt q _ => id = q
  | .deleteNodes => True
  | _ => False

theorem lookup_insert_eq {α β : Type} [BEq α] [LawfulBEq α] (l : List (α × β)) (k : α) (v : β) :
    (Map.insert l k v).lookup k = some v := by
  rw [lookup_insert]; simp

theorem getParam_setInput (c : Conf N V A) (n : N) (i : Nat) (v : V) (id : ParamId N) :
    (c.setInput (M := M) n i v).1.getParam id = if id = .input n i then some (.num v) else c.getParam id := by
  have h1 : (c.setInput (M := M) n i v).1.paramValues = Map.insert c.paramValues (n, i) v := by
    unfold Conf.setInput; simp only; split <;> rfl
  have h2 : (c.setInput (M := M) n i v).1.atomValues = c.atomValues := by
    unfold Conf.setInput; simp only; split <;> rfl
  cases id with
  | input m j =>
    simp only [Conf.getParam, h1, lookup_insert, ParamId.input.injEq]
    by_cases he : m = n ∧ j = i
    · obtain ⟨rfl, rfl⟩ := he; simp
    · rw [if_neg he, if_neg (fun hh => he (by simpa using hh))]
  | atom m j => simp [Conf.getParam, h2]

theorem getParam_setAtom (c : Conf N V A) (n : N) (i : Nat) (v : A) (id : ParamId N) :
    (c.setAtom (M := M) n i v).1.getParam id = if id = .atom n i then some (.atom v) else c.getParam id := by
  have h1 : (c.setAtom (M := M) n i v).1.atomValues = Map.insert c.atomValues (n, i) v := by
    unfold Conf.setAtom; simp only; split <;> rfl
  have h2 : (c.setAtom (M := M) n i v).1.paramValues = c.paramValues := by
    unfold Conf.setAtom; simp only; split <;> rfl
  cases id with
  | atom m j =>
    simp only [Conf.getParam, h1, lookup_insert, ParamId.atom.injEq]
    by_cases he : m = n ∧ j = i
    · obtain ⟨rfl, rfl⟩ := he; simp
    · rw [if_neg he, if_neg (fun hh => he (by simpa using hh))]
  | input m j => simp [Conf.getParam, h2]

theorem tables_setModamt (c : Conf N V A) (q : ParamId N) (v : Option V) :
    (c.setModamt (M := M) q v).1.paramValues = c.paramValues ∧
    (c.setModamt (M := M) q v).1.atomValues = c.atomValues := by
  unfold Conf.setModamt
  cases q with
  | atom n i => exact ⟨rfl, rfl⟩
  | input n i => simp only; split <;> exact ⟨rfl, rfl⟩

theorem getModamt_setModamt (c : Conf N V A) (n : N) (i : Nat) (id : ParamId N) (v : Option V) :
    (c.setModamt (M := M) (.input n i) v).1.getModamt id =
      if id = .input n i then v else c.getModamt id := by
  have h1 : (c.setModamt (M := M) (.input n i) v).1.paramModamt = Map.insert c.paramModamt (n, i) v := by
    unfold Conf.setModamt; simp only; split <;> rfl
  cases id with
  | atom m j => simp [Conf.getModamt]
  | input m j =>
    simp only [Conf.getModamt, h1, lookup_insert, ParamId.input.injEq]
    by_cases he : m = n ∧ j = i
    · obtain ⟨rfl, rfl⟩ := he; simp
    · rw [if_neg he, if_neg (fun hh => he (by simpa using hh))]

/-- **C17**: a value that was set is what the frontend reports until it is set again or all nodes are
deleted, whatever else happens: creating nodes, any number of rebuilds, audio processing. -/
theorem param_value_persists {w w' : World N V A M σ} {ops : List (EOp N V A M)} {id : ParamId N}
    {v : Value V A} (hr : Reached T a0 run w) (hv : w.conf.getParam id = some v)
    (hops : ∀ op ∈ ops, ¬ Touches id op) (hran : Ran T a0 run w ops w') : w'.conf.getParam id = some v := by
  have key : ∀ {w1 w2 : World N V A M σ} {op : EOp N V A M} {out}, ConfWF w1.conf → ¬ Touches id op →
      w1.step T a0 run op = some (w2, out) → w1.conf.getParam id = some v → w2.conf.getParam id = some v := by
    intro w1 w2 op out hw hno hs h1
    cases op with
    | createNode n =>
      simp only [World.step, Option.some.injEq, Prod.mk.injEq] at hs
      rw [← hs.1]; cases id <;> exact h1
    | deleteNodes => exact absurd trivial hno
    | setInput n i x =>
      simp only [World.step, Option.some.injEq, Prod.mk.injEq] at hs
      rw [← hs.1, conf_sendAll]
      show (w1.conf.setInput (M := M) n i x).1.getParam id = some v
      rw [getParam_setInput, if_neg (show ¬ id = .input n i from hno)]; exact h1
    | setAtom n i x =>
      simp only [World.step, Option.some.injEq, Prod.mk.injEq] at hs
      rw [← hs.1, conf_sendAll]
      show (w1.conf.setAtom (M := M) n i x).1.getParam id = some v
      rw [getParam_setAtom, if_neg (show ¬ id = .atom n i from hno)]; exact h1
    | setModamt q x =>
      simp only [World.step, Option.some.injEq, Prod.mk.injEq] at hs
      rw [← hs.1, conf_sendAll]
      show (w1.conf.setModamt (M := M) q x).1.getParam id = some v
      obtain ⟨e1, e2⟩ := tables_setModamt (M := M) w1.conf q x
      cases id <;> simpa [Conf.getParam, e1, e2] using h1
    | sync order es copyOld =>
      simp only [World.step] at hs
      cases hb : w1.conf.buildProg T a0 w1.shared.heap order es with
      | none => simp [hb] at hs
      | some r =>
        simp only [hb, Option.map_some, Option.some.injEq, Prod.mk.injEq] at hs
        rw [← hs.1, conf_send]
        show r.1.getParam id = some v
        have ht := tables_buildProg (p := r.2.1) (h' := r.2.2) hb
        have hpv : r.1.paramValues = (w1.conf.rebuildLoop T).paramValues := ht.paramValues
        have hav : r.1.atomValues = (w1.conf.rebuildLoop T).atomValues := ht.atomValues
        have hsp := rebuildLoop_spec T w1.conf hw.nodup
        cases id with
        | input n k =>
          simp only [Conf.getParam, hpv, hsp.val] at h1 ⊢
          cases hl : w1.conf.paramValues.lookup (n, k) with
          | none => simp [hl] at h1
          | some x => simpa [hl] using h1
        | atom n k =>
          simp only [Conf.getParam, hav, hsp.aval] at h1 ⊢
          cases hl : w1.conf.atomValues.lookup (n, k) with
          | none => simp [hl] at h1
          | some x => simpa [hl] using h1
    | monitor n ins outs =>
      simp only [World.step, Option.some.injEq, Prod.mk.injEq] at hs
      rw [← hs.1, conf_sendAll]; exact h1
    | injectMidi ev =>
      simp only [World.step, Option.some.injEq, Prod.mk.injEq] at hs
      rw [← hs.1, conf_send]; exact h1
    | poll =>
      simp only [World.step] at hs
      cases hb : w1.exec.applyAll w1.shared w1.queue with
      | none => simp [hb] at hs
      | some r =>
        simp only [hb, Option.map_some, Option.some.injEq, Prod.mk.injEq] at hs
        rw [← hs.1]; exact h1
    | process nf =>
      simp only [World.step] at hs
      cases hb : w1.exec.process run w1.shared.heap w1.st nf with
      | none => simp [hb] at hs
      | some r =>
        simp only [hb, Option.map_some, Option.some.injEq, Prod.mk.injEq] at hs
        rw [← hs.1]; exact h1
    | dropOne =>
      simp only [World.step] at hs
      split at hs
      · simp only [Option.some.injEq, Prod.mk.injEq] at hs; rw [← hs.1]; exact h1
      · simp only [Option.some.injEq, Prod.mk.injEq] at hs; rw [← hs.1]; exact h1
    | setSlope n =>
      simp only [World.step, Option.some.injEq, Prod.mk.injEq] at hs
      rw [← hs.1]; exact h1
  have hw := wf_reached hr
  clear hr
  induction hran with
  | nil => exact hv
  | cons hp hs _ ih =>
    exact ih (key hw (hops _ (by simp)) hs hv) (fun op ho => hops op (by simp [ho])) (wf_step hw hp hs)
  | outside st _ ih => exact ih hv hops hw

/-- **C17**: setting a parameter makes it the reported value. -/
theorem param_value_set {w w' : World N V A M σ} {out : Option (BlockResult N V A)} {n : N} {i : Nat} {v : V}
    (hs : w.step T a0 run (.setInput n i v) = some (w', out)) :
    w'.conf.getParam (.input n i) = some (.num v) := by
  simp only [World.step, Option.some.injEq, Prod.mk.injEq] at hs
  rw [← hs.1, conf_sendAll]
  show (w.conf.setInput (M := M) n i v).1.getParam _ = _
  rw [getParam_setInput, if_pos rfl]

/-- **C17**: a modulation amount (or its absence) is what the frontend reports until it is changed or
all nodes are deleted. -/
theorem modamt_persists {w w' : World N V A M σ} {ops : List (EOp N V A M)} {id : ParamId N}
    (hops : ∀ op ∈ ops, ¬ TouchesAmt id op) (hran : Ran T a0 run w ops w') :
    w'.conf.getModamt id = w.conf.getModamt id := by
  have key : ∀ {w1 w2 : World N V A M σ} {op : EOp N V A M} {out}, ¬ TouchesAmt id op →
      w1.step T a0 run op = some (w2, out) → w2.conf.getModamt id = w1.conf.getModamt id := by
    intro w1 w2 op out hno hs
    cases op with
    | createNode n =>
      simp only [World.step, Option.some.injEq, Prod.mk.injEq] at hs
      rw [← hs.1]; cases id <;> rfl
    | deleteNodes => exact absurd trivial hno
    | setInput n i x =>
      simp only [World.step, Option.some.injEq, Prod.mk.injEq] at hs
      rw [← hs.1, conf_sendAll]
      have : (w1.conf.setInput (M := M) n i x).1.paramModamt = w1.conf.paramModamt := by
        unfold Conf.setInput; simp only; split <;> rfl
      cases id <;> simp [Conf.getModamt, this]
    | setAtom n i x =>
      simp only [World.step, Option.some.injEq, Prod.mk.injEq] at hs
      rw [← hs.1, conf_sendAll]
      have : (w1.conf.setAtom (M := M) n i x).1.paramModamt = w1.conf.paramModamt := by
        unfold Conf.setAtom; simp only; split <;> rfl
      cases id <;> simp [Conf.getModamt, this]
    | setModamt q x =>
      simp only [World.step, Option.some.injEq, Prod.mk.injEq] at hs
      rw [← hs.1, conf_sendAll]
      show (w1.conf.setModamt (M := M) q x).1.getModamt id = _
      cases q with
      | atom n i => rfl
      | input n i => rw [getModamt_setModamt, if_neg (show ¬ id = .input n i from hno)]
    | sync order es copyOld =>
      simp only [World.step] at hs
      cases hb : w1.conf.buildProg T a0 w1.shared.heap order es with
      | none => simp [hb] at hs
      | some r =>
        simp only [hb, Option.map_some, Option.some.injEq, Prod.mk.injEq] at hs
        rw [← hs.1, conf_send]
        exact rebuild_keeps_modamt (p := r.2.1) (h' := r.2.2) hb id
    | monitor n ins outs =>
      simp only [World.step, Option.some.injEq, Prod.mk.injEq] at hs
      rw [← hs.1, conf_sendAll]
    | injectMidi ev =>
      simp only [World.step, Option.some.injEq, Prod.mk.injEq] at hs
      rw [← hs.1, conf_send]
    | poll =>
      simp only [World.step] at hs
      cases hb : w1.exec.applyAll w1.shared w1.queue with
      | none => simp [hb] at hs
      | some r =>
        simp only [hb, Option.map_some, Option.some.injEq, Prod.mk.injEq] at hs
        rw [← hs.1]
    | process nf =>
      simp only [World.step] at hs
      cases hb : w1.exec.process run w1.shared.heap w1.st nf with
      | none => simp [hb] at hs
      | some r =>
        simp only [hb, Option.map_some, Option.some.injEq, Prod.mk.injEq] at hs
        rw [← hs.1]
    | dropOne =>
      simp only [World.step] at hs
      split at hs
      · simp only [Option.some.injEq, Prod.mk.injEq] at hs; rw [← hs.1]
      · simp only [Option.some.injEq, Prod.mk.injEq] at hs; rw [← hs.1]
    | setSlope n =>
      simp only [World.step, Option.some.injEq, Prod.mk.injEq] at hs
      rw [← hs.1]
  induction hran with
  | nil => rfl
  | cons hp hs _ ih =>
    rw [ih (fun op ho => hops op (by simp [ho]))]
    exact key (hops _ (by simp)) hs
  | outside st _ ih => exact ih hops

/-- **C17**: setting a modulation amount makes it the reported one. -/
theorem modamt_set {w w' : World N V A M σ} {out : Option (BlockResult N V A)} {n : N} {i : Nat} {v : Option V}
    (hs : w.step T a0 run (.setModamt (.input n i) v) = some (w', out)) :
    w'.conf.getModamt (.input n i) = v := by
  simp only [World.step, Option.some.injEq, Prod.mk.injEq] at hs
  rw [← hs.1, conf_sendAll]
  show (w.conf.setModamt (M := M) (.input n i) v).1.getModamt _ = _
  rw [getModamt_setModamt, if_pos rfl]

/-! ### The hypotheses are met -/

/-- Three kinds of nodes: an oscillator (0), a mixer (1), an output (2). -/
def exT : NodeTable Nat Int Nat :=
  { outCount := fun n => if n = 2 then 0 else 1
    inCount := fun n => if n = 0 then 2 else 3
    atCount := fun n => if n = 0 then 1 else 0
    normDef := fun n i => 100 + n * 10 + i
    atomDef := fun n i => 7 + n + i }

def exRun : Unit → CallIn Nat Int Nat → Unit × (Nat → Block Int) :=
  fun st ci => (st, fun k f => (ci.inputs.map (fun b => b f)).sum + k)

def exOps : List (EOp Nat Int Nat Unit) :=
  [.createNode 2, .createNode 0, .createNode 1, .setInput 0 1 55, .setModamt (.input 1 0) (some 3),
   .setModamt (.input 1 2) (some 5)]

def exW : World Nat Int Nat Unit Unit := (politeRun exT 0 exRun (World.new ()) exOps).get (by decide +kernel)

def exB : Conf Nat Int Nat × NodeProg Nat Int Nat × Heap Int :=
  (exW.conf.buildProg exT 0 exW.shared.heap [0, 1, 2] [⟨1, 0, 0, 0⟩, ⟨2, 1, 1, 0⟩]).get (by decide +kernel)

/-- A history, and a rebuild after it with the chain 0 → 1 → 2. -/
example : Reached exT 0 exRun exW ∧
    exW.conf.buildProg exT 0 exW.shared.heap [0, 1, 2] [⟨1, 0, 0, 0⟩, ⟨2, 1, 1, 0⟩] =
      some (exB.1, exB.2.1, exB.2.2) ∧
    (exB.1.instanceOf 1).map (fun ni => (ni.outR, ni.inR, ni.modR)) = some ((1, 2), (5, 8), (0, 2)) ∧
    exB.1.getParam (.input 0 1) = some (.num 55) ∧ exB.1.getParam (.input 0 0) = some (.num 100) ∧
    (exB.1.fillProg exB.2.1).params = [120, 121, 122, 100, 55, 110, 111, 112] ∧
    (exB.1.fillProg exB.2.1).modops.map (fun m => m.amount) = [3, 5] :=
  ⟨⟨(), exOps, ran_of_politeRun _ _ _ (Option.some_get _).symm⟩, (Option.some_get (by decide +kernel)).symm, by decide +kernel,
    by decide +kernel, by decide +kernel, by decide +kernel, by decide +kernel⟩

/-- The persistence theorems apply to the history above followed by this rebuild. -/
example : exW.conf.getParam (.input 0 1) = some (.num 55) ∧
    ∀ op ∈ ([.sync [0, 1, 2] [⟨1, 0, 0, 0⟩] false, .poll, .setInput 0 0 3] : List (EOp Nat Int Nat Unit)),
      ¬ Touches (.input 0 1) op := by
  refine ⟨by decide +kernel, ?_⟩
  intro op hop
  fin_cases hop <;> simp [Touches]

end HexoDSP.NodeConfProps
