import Verif.Props.ChainBuilder
import Verif.Spec.ChainGiven

set_option linter.unusedSectionVars false
set_option linter.dupNamespace false

namespace HexoDSP.ChainGivenProps
open HexoDSP.Chain HexoDSP.Matrix HexoDSP.Table HexoDSP.ChainProps

variable {V : Type}

/-- The link holds the cell noted. -/
def Same (c : Noted V) (l : Link V) : Prop := ofOpt l.cell.nodeId = c.id ∧ l.params = c.wanted

theorem set_rel {α β : Type} {R : α → β → Prop} : ∀ {as : List α} {bs : List β} (i : Nat) {a' : α} {b' : β}, List.Forall₂ R as bs → R a' b' →
    List.Forall₂ R (as.set i a') (bs.set i b')
  | [], _, _, _, _, .nil, _ => .nil
  | _ :: _, _ :: _, 0, _, _, .cons _ h2, h => .cons h h2
  | _ :: _, _ :: _, i + 1, _, _, .cons h1 h2, h => .cons h1 (set_rel i h2 h)

/-- What the notes say about the chain. -/
theorem noted {d : CellDir} (hd : d ≠ .C) (ops : List (BuildOp V)) : ∀ (ch : Chain V), (Chain.new d).build ops = some ch →
    ch.dir = d ∧ (ch.error = none → ch.paramIdx = (notes ops).cur ∧ List.Forall₂ Same (notes ops).cells ch.links) := by
  induction ops using List.reverseRecOn with
  | nil =>
    intro ch h
    simp only [Chain.build, List.foldlM_nil, Option.pure_def, Option.some.injEq] at h
    subst h
    exact ⟨rfl, fun _ => ⟨rfl, .nil⟩⟩
  | append_singleton ops op ih =>
    intro ch' h
    rw [build_snoc] at h
    obtain ⟨ch, h1, hs⟩ := Option.bind_eq_some_iff.mp h
    obtain ⟨hdir, hi⟩ := ih ch h1
    refine ⟨step_dir hd hdir hs, fun he' => ?_⟩
    have he : ch.error = none := by
      by_contra hc
      have := step_error hd hdir hs (Option.isSome_iff_ne_none.mpr hc)
      rw [he'] at this; cases this
    obtain ⟨hp, hf⟩ := hi he
    have hn : notes (ops ++ [op]) = (notes ops).after op := by unfold notes; rw [List.foldl_append]; rfl
    have hlen := hf.length_eq
    rw [hn]
    generalize notes ops = n at hp hf hlen
    cases op with
    | node nm i o =>
      simp only [Chain.step, Option.some.injEq] at hs
      rcases node_spec hd ch hdir nm i o with ⟨_, c, c1, _, e⟩ | ⟨_, e, _⟩
      · rw [hs] at e
        subst e
        exact ⟨hlen.symm, List.rel_append hf (.cons ⟨c1, rfl⟩ .nil)⟩
      · rw [hs, he'] at e; cases e
    | link c =>
      simp only [Chain.step, Option.some.injEq] at hs
      subst hs
      exact ⟨hlen.symm, List.rel_append hf (.cons ⟨rfl, rfl⟩ .nil)⟩
    | set s v =>
      simp only [Chain.step, Chain.set] at hs
      split at hs
      · cases hs
      · rename_i l hl
        split at hs
        · rename_i pid hpid
          simp only [Option.some.injEq] at hs
          subst hs
          rw [hp] at hl ⊢
          obtain ⟨c, hc, hsame⟩ : ∃ c, n.cells[n.cur]? = some c ∧ Same c l := by
            have := forall₂_get (R := fun (l : Link V) c => Same c l) hf.flip n.cur l hl
            obtain ⟨c, hc, hr⟩ := this
            exact ⟨c, hc, hr⟩
          simp only [Notes.after, hc]
          refine ⟨trivial, set_rel _ hf ⟨hsame.1, ?_⟩⟩
          show l.params ++ [(pid, v pid)] = _
          rw [hsame.2]
          unfold Noted.wanted
          rw [List.filterMap_append, ← hsame.1]
          simp [hpid]
        · simp only [Option.some.injEq] at hs
          subst hs
          cases he'
    | paramsForIdx i =>
      simp only [Chain.step, Option.some.injEq] at hs
      subst hs
      refine ⟨?_, hf⟩
      simp only [Chain.paramsForIdx, Notes.after, hlen]
      split <;> omega

theorem setParams_last (f : ParamId → Option V) (pid : ParamId) (l : List (ParamId × V)) : setParams f l pid = (lastFor pid l).or (f pid) := by
  induction l using List.reverseRecOn with
  | nil => rfl
  | append_singleton l e ih =>
    have : setParams f (l ++ [e]) pid = if pid = e.1 then some e.2 else setParams f l pid := by
      unfold setParams; rw [List.foldl_append]; rfl
    rw [this, ih]
    unfold lastFor
    rw [List.reverse_append]
    simp only [List.reverse_cons, List.reverse_nil, List.nil_append, List.singleton_append, List.find?_cons]
    by_cases h : pid = e.1
    · rw [if_pos h]; simp [h]
    · rw [if_neg h]
      have : (e.1 == pid) = false := by simpa using fun hh => h hh.symm
      simp [this]

/-- **C73** Which parameters have which values after placing: of the values given for the cells (each call for the cell added last, or the one chosen
by `params_for_idx`), the last one in the order of the cells and then of the calls. All other parameters keep their values. -/
theorem params_given {unused : NodeId → Option NodeId} {d : CellDir} (hd : d ≠ .C) {ops : List (BuildOp V)} {ch ch' : Chain V} {m m' : Patch V} {x y : Nat}
    (hb : (Chain.new d).build ops = some ch) (hp : ch.place unused m x y = some (ch', m', .ok ())) (pid : ParamId) :
    m'.params pid = (lastFor pid ((notes ops).cells.flatMap Noted.wanted)).or (m.params pid) := by
  obtain ⟨he, _, st, _, rfl⟩ := place_ok hp
  obtain ⟨_, h⟩ := noted hd ops ch hb
  have hf := (h he).2
  show setParams m.params (ch.links.flatMap (·.params)) pid = _
  rw [setParams_last]
  have : ch.links.flatMap (·.params) = (notes ops).cells.flatMap Noted.wanted := by
    generalize (notes ops).cells = cs at hf
    generalize ch.links = ls at hf
    induction hf with
    | nil => rfl
    | cons h1 _ ih => rw [List.flatMap_cons, List.flatMap_cons, ih, h1.2]
  rw [this]

/-- **C73** A value given when there is no cell chosen panics: before the first cell, or after `params_for_idx` with a number beyond the cells. -/
theorem no_cell_panics {d : CellDir} (hd : d ≠ .C) {ops : List (BuildOp V)} {ch : Chain V} (hb : (Chain.new d).build ops = some ch) (he : ch.error = none)
    (s : String) (v : ParamId → V) : (Chain.new d).build (ops ++ [.set s v]) = none ↔ (notes ops).cells.length ≤ (notes ops).cur := by
  obtain ⟨_, h⟩ := noted hd ops ch hb
  obtain ⟨h1, h2⟩ := h he
  rw [build_snoc, hb, h2.length_eq, ← h1]
  simp only [Option.bind_some, Chain.step, Chain.set]
  cases hl : ch.links[ch.paramIdx]? with
  | none => simp only [true_iff]; exact List.getElem?_eq_none_iff.mp hl
  | some l =>
    have := (List.getElem?_eq_some_iff.mp hl).1
    simp only
    constructor
    · intro hh; split at hh <;> cases hh
    · intro hh; omega

/-- A chain of three cells, the parameters of which are given afterwards. -/
def later : List (BuildOp Nat) :=
  [.node "sin" none (some "sig"), .node "amp" (some "inp") (some "sig"), .set "gain" (fun _ => 3), .paramsForIdx 0, .set "freq" (fun _ => 5), .paramsForIdx 1, .set "gain" (fun _ => 4)]

example : (run freeIsOne .BR later 0 0).map (fun r => (r.2.2, ((NodeId.fromStr "sin").inpParam "freq").bind r.2.1.params,
    ((NodeId.fromStr "amp").inpParam "gain").bind r.2.1.params, ((NodeId.fromStr "amp").inpParam "att").bind r.2.1.params)) = some (true, some 5, some 4, none) := by decide +kernel
example : ((NodeId.fromStr "amp").inpParam "gain").map (fun p => lastFor p ((notes later).cells.flatMap Noted.wanted)) = some (some 4) := by decide +kernel
example : ((Chain.new .BR).build (later ++ [.paramsForIdx 2])).isSome = true ∧ ((Chain.new .BR).build (later ++ [.paramsForIdx 2, .set "gain" (fun _ => 4)])).isNone = true := by
  decide +kernel

end HexoDSP.ChainGivenProps
