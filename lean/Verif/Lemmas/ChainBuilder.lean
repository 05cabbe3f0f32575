import Verif.Model.ChainBuilder
import Verif.Spec.CellDir
import Verif.Lemmas.CellDir
import Verif.Props.Matrix
import Mathlib.Tactic.Ring
import Mathlib.Data.List.Induction

set_option linter.unusedSectionVars false
set_option linter.dupNamespace false

namespace HexoDSP.Chain
open HexoDSP.Matrix HexoDSP.Table
open CellDir (Pos walk centre shift)

variable {V : Type}

/-! ## Walking -/

/-- One step in direction `d`, also off the grid. -/
def stepI (d : CellDir) (p : Int × Int) : Int × Int :=
  let offs := d.asOffs (p.1 % 2).toNat
  (p.1 + offs.1, p.2 + offs.2)

/-- `k` steps. -/
def posFrom (d : CellDir) (p : Int × Int) : Nat → Int × Int
  | 0 => p
  | k + 1 => posFrom d (stepI d p) k

def cI (p : Int × Int) : Int × Int := (p.1, 2 * p.2 + p.1 % 2)

theorem cI_step (d : CellDir) (p : Int × Int) : cI (stepI d p) = ((cI p).1 + (shift d).1, (cI p).2 + (shift d).2) := by
  obtain ⟨x, y⟩ := p
  have hx : x % 2 = 0 ∨ x % 2 = 1 := by omega
  simp only [cI, stepI, Prod.mk.injEq]
  rcases hx with h | h <;> cases d <;> simp only [CellDir.asOffs, shift, h] <;> simp <;> omega

theorem cI_pos (d : CellDir) : ∀ (k : Nat) (p : Int × Int), cI (posFrom d p k) = ((cI p).1 + k * (shift d).1, (cI p).2 + k * (shift d).2)
  | 0, p => by simp [posFrom]
  | k + 1, p => by
    rw [posFrom, cI_pos d k, cI_step]
    simp only [Prod.mk.injEq]
    constructor <;> push_cast <;> ring

theorem cI_inj {p q : Int × Int} (h : cI p = cI q) : p = q := by
  obtain ⟨x, y⟩ := p
  obtain ⟨u, v⟩ := q
  simp only [cI, Prod.mk.injEq] at h ⊢
  obtain ⟨rfl, h⟩ := h
  exact ⟨rfl, by omega⟩

/-- A walk does not come back. -/
theorem posFrom_inj {d : CellDir} (hd : d ≠ .C) (p : Int × Int) {j k : Nat} (h : posFrom d p j = posFrom d p k) : j = k := by
  have h1 := cI_pos d j p
  have h2 := cI_pos d k p
  rw [h] at h1
  rw [h1] at h2
  simp only [Prod.mk.injEq] at h2
  cases d <;> simp only [shift] at h2
  all_goals first | omega | exact absurd rfl hd

theorem posFrom_add (d : CellDir) (p : Int × Int) : ∀ k, posFrom d p (k + 1) = stepI d (posFrom d p k) := by
  intro k
  induction k generalizing p with
  | zero => rfl
  | succ k ih => rw [posFrom, ih]; rfl

theorem stepI_nat (d : CellDir) (p q : Pos) : stepI d ((p.1 : Int), (p.2 : Int)) = ((q.1 : Int), (q.2 : Int)) ↔ d.offsPos p = some q := by
  rw [CellDir.offsPos_some_iff]
  obtain ⟨x, y⟩ := p
  obtain ⟨u, v⟩ := q
  have hp : ((x : Int) % 2).toNat % 2 = x % 2 := by omega
  have ho : d.asOffs (((x : Int) % 2).toNat) = d.asOffs x := by
    cases d <;> simp [CellDir.asOffs, hp]
  simp only [stepI, ho, Prod.mk.injEq]
  constructor
  · rintro ⟨h1, h2⟩; exact ⟨h1.symm, h2.symm⟩
  · rintro ⟨h1, h2⟩; exact ⟨h1.symm, h2.symm⟩

theorem walk_snoc (d : CellDir) : ∀ (k : Nat) (p : Pos), walk p (List.replicate (k + 1) d) = (walk p (List.replicate k d)).bind (fun q => d.offsPos q)
  | 0, p => by
    simp only [List.replicate, walk, Option.bind_some]
    cases d.offsPos p <;> rfl
  | k + 1, p => by
    rw [List.replicate_succ, walk, List.replicate_succ, walk]
    cases h : d.offsPos p with
    | none => rfl
    | some q => simp only [Option.bind_some]; exact walk_snoc d k q

/-- Walking on the grid and the walk of the code. -/
theorem walk_iff (d : CellDir) (p q : Pos) (k : Nat) :
    walk p (List.replicate k d) = some q ↔ posFrom d ((p.1 : Int), (p.2 : Int)) k = ((q.1 : Int), (q.2 : Int)) := by
  induction k generalizing q with
  | zero =>
    simp only [List.replicate, walk, posFrom, Option.some.injEq, Prod.mk.injEq, Nat.cast_inj]
    constructor
    · rintro rfl; exact ⟨rfl, rfl⟩
    · rintro ⟨h1, h2⟩; exact Prod.ext h1 h2
  | succ k ih =>
    rw [walk_snoc, posFrom_add]
    constructor
    · intro h
      obtain ⟨r, h1, h2⟩ := Option.bind_eq_some_iff.mp h
      rw [(ih r).mp h1]
      exact (stepI_nat d r q).mpr h2
    · intro h
      -- the position before is on the plane as well
      have hnn : 0 ≤ (posFrom d ((p.1 : Int), (p.2 : Int)) k).1 ∧ 0 ≤ (posFrom d ((p.1 : Int), (p.2 : Int)) k).2 := by
        have h1 := cI_pos d k ((p.1 : Int), (p.2 : Int))
        have h2 := cI_pos d (k + 1) ((p.1 : Int), (p.2 : Int))
        rw [posFrom_add, h] at h2
        generalize posFrom d ((p.1 : Int), (p.2 : Int)) k = ab at h1 h2 ⊢
        obtain ⟨a, b⟩ := ab
        simp only [cI, Prod.mk.injEq] at h1 h2
        push_cast at h2
        cases d <;> simp only [shift] at h1 h2 <;> constructor <;> simp only <;> omega
      have hr : posFrom d ((p.1 : Int), (p.2 : Int)) k =
          (((posFrom d ((p.1 : Int), (p.2 : Int)) k).1.toNat : Int), ((posFrom d ((p.1 : Int), (p.2 : Int)) k).2.toNat : Int)) :=
        Prod.ext (Int.toNat_of_nonneg hnn.1).symm (Int.toNat_of_nonneg hnn.2).symm
      apply Option.bind_eq_some_iff.mpr
      refine ⟨_, (ih ((posFrom d ((p.1 : Int), (p.2 : Int)) k).1.toNat, (posFrom d ((p.1 : Int), (p.2 : Int)) k).2.toNat)).mpr hr, ?_⟩
      rw [← stepI_nat]
      rw [← h]
      simp only
      rw [← hr]

/-! ## Names of nodes -/

/-- The ids the links get. -/
def assign (unused : NodeId → Option NodeId) : List (String × Nat) → List (Link V) → Option (List NodeId)
  | _, [] => some []
  | last, l :: ls =>
    let id := ofOpt l.cell.nodeId
    match (match last.lookup id.name with
      | some i => some (id.toInstance (i + 1), i + 1)
      | none => (unused id).map (fun id' => (id', id'.inst))) with
    | none => none
    | some (id', i) => match assign unused ((id.name, i) :: last) ls with
      | none => none
      | some ids => some (id' :: ids)

theorem reachable_place {m : Matrix TNode} (hr : m.Reachable) (x y : Nat) (c : Cell TNode) : (m.place x y c).Reachable := by
  obtain ⟨w, h, ops, ho⟩ := hr
  refine ⟨w, h, ops ++ [.place x y c], ?_⟩
  unfold Matrix.runAll at ho ⊢
  rw [List.foldlM_append, ho]; rfl

/-- The grid after one link. -/
def gridAfter (g : Matrix TNode) (pos : Int × Int) (c : Cell TNode) : Matrix TNode :=
  if pos.1 < 0 ∨ pos.2 < 0 then g else g.place pos.1.toNat pos.2.toNat c

theorem gridAfter_reachable {g : Matrix TNode} (hr : g.Reachable) (pos : Int × Int) (c : Cell TNode) : (gridAfter g pos c).Reachable := by
  unfold gridAfter
  split
  · exact hr
  · exact reachable_place hr _ _ _

theorem gridAfter_size (g : Matrix TNode) (pos : Int × Int) (c : Cell TNode) : (gridAfter g pos c).w = g.w ∧ (gridAfter g pos c).h = g.h := by
  unfold gridAfter
  split
  · exact ⟨rfl, rfl⟩
  · exact ⟨(place_wh g _ _ _).1, (place_wh g _ _ _).2.1⟩

theorem gridAfter_get {g : Matrix TNode} (hr : g.Reachable) (pos : Int × Int) (c : Cell TNode) (q : Pos) :
    (gridAfter g pos c).get q.1 q.2 =
      if pos = ((q.1 : Int), (q.2 : Int)) ∧ q.1 < g.w ∧ q.2 < g.h then some { c with x := q.1 % 256, y := q.2 % 256 } else g.get q.1 q.2 := by
  obtain ⟨a, b⟩ := pos
  obtain ⟨u, v⟩ := q
  unfold gridAfter
  simp only [Prod.mk.injEq]
  by_cases hn : a < 0 ∨ b < 0
  · rw [if_pos hn, if_neg (by omega)]
  · rw [if_neg hn, MatrixProps.place_writes_one_cell g hr]
    unfold Array2.write
    have hsome := MatrixProps.get_answers_iff g hr a.toNat b.toNat
    by_cases he : a = u ∧ b = v
    · obtain ⟨rfl, rfl⟩ := he
      simp only [Int.toNat_natCast] at hsome ⊢
      by_cases hin : u < g.w ∧ v < g.h
      · rw [if_pos ⟨trivial, trivial, hsome.mpr hin⟩, if_pos ⟨⟨trivial, trivial⟩, hin⟩]
      · rw [if_neg (by rintro ⟨_, _, h⟩; exact hin (hsome.mp h)), if_neg (by rintro ⟨_, h⟩; exact hin h)]
    · rw [if_neg (by rintro ⟨h1, h2, _⟩; apply he; omega), if_neg (by rintro ⟨h1, _⟩; exact he h1)]

theorem placeLink_eq (unused : NodeId → Option NodeId) (s : Placing) (l : Link V) :
    placeLink unused s l = (match (match s.last.lookup (ofOpt l.cell.nodeId).name with
      | some i => some ((ofOpt l.cell.nodeId).toInstance (i + 1), i + 1)
      | none => (unused (ofOpt l.cell.nodeId)).map (fun id' => (id', id'.inst))) with
      | none => none
      | some (id', i) => some ⟨gridAfter s.grid s.pos (l.cell.setNodeIdKeepIos (toOpt id')), stepI l.dir s.pos, ((ofOpt l.cell.nodeId).name, i) :: s.last⟩) := rfl

/-- The whole loop. -/
theorem place_loop {unused : NodeId → Option NodeId} {d : CellDir} (hd : d ≠ .C) : ∀ (links : List (Link V)) (s s' : Placing),
    (∀ l ∈ links, l.dir = d) → s.grid.Reachable → links.foldlM (placeLink unused) s = some s' →
    ∃ ids, assign unused s.last links = some ids ∧ s'.grid.w = s.grid.w ∧ s'.grid.h = s.grid.h ∧ s'.grid.Reachable ∧
      (∀ (k : Nat) (l : Link V) (id : NodeId) (q : Pos), links[k]? = some l → ids[k]? = some id → posFrom d s.pos k = ((q.1 : Int), (q.2 : Int)) → s.grid.InGrid q →
        s'.grid.get q.1 q.2 = some { l.cell.setNodeIdKeepIos (toOpt id) with x := q.1 % 256, y := q.2 % 256 }) ∧
      (∀ q : Pos, (∀ k, k < links.length → posFrom d s.pos k ≠ ((q.1 : Int), (q.2 : Int))) → s'.grid.get q.1 q.2 = s.grid.get q.1 q.2)
  | [], s, s', _, hr, h => by
    simp only [List.foldlM_nil, Option.pure_def, Option.some.injEq] at h
    subst h
    exact ⟨[], rfl, rfl, rfl, hr, by intro k l id q hk; simp at hk, fun q _ => rfl⟩
  | l :: ls, s, s', hdir, hr, h => by
    rw [List.foldlM_cons] at h
    obtain ⟨s1, h1, h2⟩ := Option.bind_eq_some_iff.mp h
    rw [placeLink_eq] at h1
    unfold assign
    simp only
    generalize hn : (match s.last.lookup (ofOpt l.cell.nodeId).name with
      | some i => some ((ofOpt l.cell.nodeId).toInstance (i + 1), i + 1)
      | none => (unused (ofOpt l.cell.nodeId)).map (fun id' => (id', id'.inst))) = nm at h1 ⊢
    cases nm with
    | none => cases h1
    | some e =>
      obtain ⟨id, i⟩ := e
      simp only [Option.some.injEq] at h1
      subst h1
      have hl : l.dir = d := hdir l (by simp)
      obtain ⟨ids, a1, a2, a3, a4, a5, a6⟩ := place_loop hd ls _ s' (fun l hl => hdir l (by simp [hl])) (gridAfter_reachable hr _ _) h2
      simp only at a1 a2 a3 a5 a6
      obtain ⟨z1, z2⟩ := gridAfter_size s.grid s.pos (l.cell.setNodeIdKeepIos (toOpt id))
      rw [z1] at a2
      rw [z2] at a3
      rw [hl] at a5 a6
      refine ⟨id :: ids, by simp only [a1], a2, a3, a4, ?_, ?_⟩
      · intro k l' id' q hk hid hp hin
        cases k with
        | zero =>
          simp only [List.getElem?_cons_zero, Option.some.injEq] at hk hid
          subst hk; subst hid
          rw [a6 q (by
            intro k hk hp'
            rw [← hp] at hp'
            have : posFrom d s.pos (k + 1) = posFrom d s.pos 0 := hp'
            have := posFrom_inj hd s.pos this
            omega), gridAfter_get hr, if_pos ⟨hp, hin⟩]
        | succ k =>
          refine a5 k l' id' q (by simpa using hk) (by simpa using hid) hp ?_
          unfold Matrix.InGrid; rw [z1, z2]; exact hin
      · intro q hq
        rw [a6 q (fun k hk => hq (k + 1) (by simp; omega)), gridAfter_get hr, if_neg]
        rintro ⟨h, _⟩
        exact hq 0 (by simp) h

theorem assign_length {unused : NodeId → Option NodeId} : ∀ (links : List (Link V)) (last : List (String × Nat)) (ids : List NodeId),
    assign unused last links = some ids → ids.length = links.length
  | [], _, ids, h => by simp [assign] at h; simp [h]
  | l :: ls, last, ids, h => by
    unfold assign at h
    simp only at h
    split at h
    · cases h
    · split at h
      · cases h
      · rename_i id' i _ _ ids' h2
        simp only [Option.some.injEq] at h
        subst h
        simp [assign_length ls _ ids' h2]

theorem eqVariant_toInstance (id : NodeId) (i : Nat) : id.eqVariant (id.toInstance i) = true := by
  cases id <;> simp [NodeId.eqVariant, NodeId.toInstance]

/-- Every link keeps its type of node. -/
theorem assign_variant {unused : NodeId → Option NodeId} (hu : ∀ id id', unused id = some id' → id.eqVariant id' = true) :
    ∀ (links : List (Link V)) (last : List (String × Nat)) (ids : List NodeId), assign unused last links = some ids →
    ∀ (k : Nat) (l : Link V) (id : NodeId), links[k]? = some l → ids[k]? = some id → (ofOpt l.cell.nodeId).eqVariant id = true
  | [], _, ids, h, k, l, id, hk, _ => by simp at hk
  | l0 :: ls, last, ids, h, k, l, id, hk, hid => by
    unfold assign at h
    simp only at h
    split at h
    · cases h
    · rename_i id' i hn
      split at h
      · cases h
      · rename_i ids' h2
        simp only [Option.some.injEq] at h
        subst h
        cases k with
        | zero =>
          simp only [List.getElem?_cons_zero, Option.some.injEq] at hk hid
          subst hk; subst hid
          split at hn
          · simp only [Option.some.injEq, Prod.mk.injEq] at hn
            rw [← hn.1]; exact eqVariant_toInstance _ _
          · obtain ⟨b, hb, he⟩ := Option.map_eq_some_iff.mp hn
            simp only [Prod.mk.injEq] at he
            rw [← he.1]; exact hu _ _ hb
        | succ k => exact assign_variant hu ls _ ids' h2 k l id (by simpa using hk) (by simpa using hid)

/-- The chain has an answer if all questions for unused nodes have one. -/
theorem place_loop_total {unused : NodeId → Option NodeId} (hu : ∀ id, (unused id).isSome) :
    ∀ (links : List (Link V)) (s : Placing), ∃ s', links.foldlM (placeLink unused) s = some s'
  | [], s => ⟨s, rfl⟩
  | l :: ls, s => by
    rw [List.foldlM_cons, placeLink_eq]
    have : ∃ e, (match s.last.lookup (ofOpt l.cell.nodeId).name with
      | some i => some ((ofOpt l.cell.nodeId).toInstance (i + 1), i + 1)
      | none => (unused (ofOpt l.cell.nodeId)).map (fun id' => (id', id'.inst))) = some e := by
      split
      · exact ⟨_, rfl⟩
      · obtain ⟨b, hb⟩ := Option.isSome_iff_exists.mp (hu (ofOpt l.cell.nodeId))
        exact ⟨(b, b.inst), by rw [hb]; rfl⟩
    obtain ⟨e, he⟩ := this
    rw [he]
    exact place_loop_total hu ls _

/-! ## Instances -/

/-- How many of the first `k` links have the name. -/
def sameName (links : List (Link V)) (k : Nat) (nm : String) : Nat :=
  ((links.take k).filter (fun l => (ofOpt l.cell.nodeId).name = nm)).length

theorem sameName_le (links : List (Link V)) (k : Nat) (nm : String) : sameName links k nm ≤ k := by
  unfold sameName
  refine Nat.le_trans (List.length_filter_le _ _) ?_
  simp

theorem sameName_cons (l : Link V) (ls : List (Link V)) (k : Nat) (nm : String) :
    sameName (l :: ls) (k + 1) nm = (if (ofOpt l.cell.nodeId).name = nm then 1 else 0) + sameName ls k nm := by
  unfold sameName
  rw [List.take_succ_cons, List.filter_cons]
  split
  · rename_i h
    rw [if_pos (by simpa using h), List.length_cons]; omega
  · rename_i h
    rw [if_neg (by simpa using h)]; omega

theorem sameName_lt (links : List (Link V)) {j k : Nat} {l : Link V} {nm : String} (hjk : j < k) (h : links[j]? = some l) (hn : (ofOpt l.cell.nodeId).name = nm) :
    sameName links j (ofOpt l.cell.nodeId).name < sameName links k nm := by
  rw [hn]
  induction links generalizing j k with
  | nil => simp at h
  | cons l0 ls ih =>
    obtain ⟨k, rfl⟩ : ∃ k', k = k' + 1 := ⟨k - 1, by omega⟩
    rw [sameName_cons]
    cases j with
    | zero =>
      simp only [List.getElem?_cons_zero, Option.some.injEq] at h
      subst h
      have : sameName (l0 :: ls) 0 nm = 0 := by simp [sameName]
      rw [this, if_pos hn]
      exact Nat.lt_of_lt_of_le Nat.zero_lt_one (Nat.le_add_right _ _)
    | succ j =>
      rw [sameName_cons]
      exact Nat.add_lt_add_left (ih (by omega) (by simpa using h)) _

/-- The first link of a name. -/
theorem first_of_name : ∀ (links : List (Link V)) (ids : List NodeId), ids.length = links.length → ∀ {k : Nat} {l : Link V}, links[k]? = some l →
    ∃ k0 l0 id0, links[k0]? = some l0 ∧ ids[k0]? = some id0 ∧ (ofOpt l0.cell.nodeId).name = (ofOpt l.cell.nodeId).name ∧
      sameName links k0 (ofOpt l.cell.nodeId).name = 0 ∧ k0 ≤ k
  | [], _, _, k, l, h => by simp at h
  | l0 :: ls, [], hl, k, l, h => by simp at hl
  | l0 :: ls, id0 :: ids, hl, k, l, h => by
    by_cases hn : (ofOpt l0.cell.nodeId).name = (ofOpt l.cell.nodeId).name
    · exact ⟨0, l0, id0, rfl, rfl, hn, by simp [sameName], Nat.zero_le _⟩
    · cases k with
      | zero =>
        simp only [List.getElem?_cons_zero, Option.some.injEq] at h
        subst h
        exact absurd rfl hn
      | succ k =>
        obtain ⟨k0, l1, id1, h1, h2, h3, h4, h5⟩ := first_of_name ls ids (by simpa using hl) (k := k) (l := l) (by simpa using h)
        refine ⟨k0 + 1, l1, id1, by simpa using h1, by simpa using h2, h3, ?_, by omega⟩
        rw [sameName_cons, if_neg hn, h4]

/-- Which instance every link gets. -/
theorem assign_inst {unused : NodeId → Option NodeId} : ∀ (links : List (Link V)) (last : List (String × Nat)) (ids : List NodeId),
    assign unused last links = some ids → ∀ (k : Nat) (l : Link V) (id : NodeId), links[k]? = some l → ids[k]? = some id →
    (∀ b, last.lookup (ofOpt l.cell.nodeId).name = some b →
      id = (ofOpt l.cell.nodeId).toInstance (b + 1 + sameName links k (ofOpt l.cell.nodeId).name)) ∧
    (last.lookup (ofOpt l.cell.nodeId).name = none →
      (sameName links k (ofOpt l.cell.nodeId).name = 0 → unused (ofOpt l.cell.nodeId) = some id) ∧
      (∀ (k0 : Nat) (l0 : Link V) (id0 : NodeId), k0 ≠ k → links[k0]? = some l0 → ids[k0]? = some id0 → (ofOpt l0.cell.nodeId).name = (ofOpt l.cell.nodeId).name →
        sameName links k0 (ofOpt l.cell.nodeId).name = 0 →
        id = (ofOpt l.cell.nodeId).toInstance (id0.inst + sameName links k (ofOpt l.cell.nodeId).name))) := by
  intro links
  induction links with
  | nil => intro last ids h k l id hk; simp at hk
  | cons l1 ls IH =>
    intro last ids h k l id hk hid
    unfold assign at h
    simp only at h
    split at h
    · cases h
    · rename_i id1 i1 hn
      split at h
      · cases h
      · rename_i ids' h2
        simp only [Option.some.injEq] at h
        subst h
        have zero : ∀ nm, sameName (l1 :: ls) 0 nm = 0 := by intro nm; simp [sameName]
        cases k with
        | zero =>
          simp only [List.getElem?_cons_zero, Option.some.injEq] at hk hid
          subst hk; subst hid
          constructor
          · intro b hb
            rw [hb] at hn
            simp only [Option.some.injEq, Prod.mk.injEq] at hn
            rw [zero]
            exact hn.1.symm
          · intro hb
            rw [hb] at hn
            obtain ⟨q, hq, he⟩ := Option.map_eq_some_iff.mp hn
            simp only [Prod.mk.injEq] at he
            refine ⟨fun _ => by rw [hq, he.1], ?_⟩
            intro k0 l0 id0 hne e1 e2 e3 e4
            cases k0 with
            | zero => exact absurd rfl hne
            | succ k0 =>
              rw [sameName_cons, if_pos rfl] at e4
              omega
        | succ k =>
          simp only [List.getElem?_cons_succ] at hk hid
          have ih := IH _ ids' h2 k l id hk hid
          by_cases hnm : (ofOpt l1.cell.nodeId).name = (ofOpt l.cell.nodeId).name
          · rw [hnm] at hn ih
            have hlk : ((((ofOpt l.cell.nodeId).name, i1) :: last).lookup (ofOpt l.cell.nodeId).name) = some i1 := by
              rw [List.lookup_cons]; simp
            have e := ih.1 i1 hlk
            rw [sameName_cons, if_pos hnm]
            constructor
            · intro b hb
              rw [hb] at hn
              simp only [Option.some.injEq, Prod.mk.injEq] at hn
              rw [e, ← hn.2]
              congr 1; omega
            · intro hb
              rw [hb] at hn
              obtain ⟨q, hq, he⟩ := Option.map_eq_some_iff.mp hn
              simp only [Prod.mk.injEq] at he
              refine ⟨fun h => by omega, ?_⟩
              intro k0 l0 id0 hne e1 e2 e3 e4
              cases k0 with
              | zero =>
                simp only [List.getElem?_cons_zero, Option.some.injEq] at e1 e2
                subst e2
                rw [e, ← he.2, he.1]
                congr 1; omega
              | succ k0 =>
                rw [sameName_cons, if_pos hnm] at e4
                omega
          · have hlk : ((((ofOpt l1.cell.nodeId).name, i1) :: last).lookup (ofOpt l.cell.nodeId).name) = last.lookup (ofOpt l.cell.nodeId).name := by
              rw [List.lookup_cons, beq_false_of_ne (Ne.symm hnm)]
            rw [hlk] at ih
            rw [sameName_cons, if_neg hnm, Nat.zero_add]
            refine ⟨ih.1, fun hb => ⟨(ih.2 hb).1, ?_⟩⟩
            intro k0 l0 id0 hne e1 e2 e3 e4
            cases k0 with
            | zero =>
              simp only [List.getElem?_cons_zero, Option.some.injEq] at e1
              subst e1
              exact absurd e3 hnm
            | succ k0 =>
              rw [sameName_cons, if_neg hnm, Nat.zero_add] at e4
              exact (ih.2 hb).2 k0 l0 id0 (by omega) (by simpa using e1) (by simpa using e2) e3 e4

/-! ## Parameters -/

theorem setParams_eq {f : ParamId → Option V} {sets : List (ParamId × V)} {p : ParamId} {v : V} (h1 : ∀ e ∈ sets, e.1 = p → e.2 = v)
    (h2 : ∃ e ∈ sets, e.1 = p) : setParams f sets p = some v := by
  induction sets using List.reverseRecOn with
  | nil => obtain ⟨e, he, _⟩ := h2; simp at he
  | append_singleton sets e ih =>
    unfold setParams
    rw [List.foldl_append]
    simp only [List.foldl_cons, List.foldl_nil]
    by_cases he : p = e.1
    · rw [if_pos he, h1 e (by simp) he.symm]
    · rw [if_neg he]
      refine ih (fun e' h' => h1 e' (by simp [h'])) ?_
      obtain ⟨e', h', hp⟩ := h2
      rcases List.mem_append.mp h' with h | h
      · exact ⟨e', h, hp⟩
      · simp only [List.mem_singleton] at h
        subst h
        exact absurd hp.symm he

theorem setParams_other {f : ParamId → Option V} {sets : List (ParamId × V)} {p : ParamId} (h : ∀ e ∈ sets, e.1 ≠ p) : setParams f sets p = f p := by
  induction sets using List.reverseRecOn with
  | nil => rfl
  | append_singleton sets e ih =>
    unfold setParams
    rw [List.foldl_append]
    simp only [List.foldl_cons, List.foldl_nil]
    rw [if_neg (fun he => h e (by simp) he.symm)]
    exact ih (fun e' h' => h e' (by simp [h']))

theorem inpParam_name {id : NodeId} {s : String} {pid : ParamId} (h : id.inpParam s = some pid) : pid.name = s := by
  cases id with
  | nop => cases h
  | node t i =>
    simp only [NodeId.inpParam] at h
    split at h
    · rename_i p hp
      cases h
      simpa using List.find?_some hp
    · obtain ⟨a, ha, rfl⟩ := Option.map_eq_some_iff.mp h
      simpa using List.find?_some ha

/-- A call that does not set `s` does not change the values for `s`. -/
theorem step_params {ch ch' : Chain V} {op : BuildOp V} {s : String} (h : ch.step op = some ch') (hne : ∀ w, op ≠ .set s w) (e : ParamId × V) (he : e.1.name = s) :
    e ∈ ch'.links.flatMap (·.params) ↔ e ∈ ch.links.flatMap (·.params) := by
  have hadd : ∀ (ch0 : Chain V) c, ch0.links = ch.links → (e ∈ (ch0.addLink c).links.flatMap (·.params) ↔ e ∈ ch.links.flatMap (·.params)) := by
    intro ch0 c h0
    simp [Chain.addLink, h0]
  cases op with
  | node n i o =>
    simp only [Chain.step, Option.some.injEq] at h
    subst h
    unfold Chain.node
    split
    · exact Iff.rfl
    · apply hadd
      have h1 : ∀ (ch : Chain V) c (i : Option String), (ch.applyInp c i).1.links = ch.links := by
        intro ch c i
        cases i with
        | none => rfl
        | some i => simp only [Chain.applyInp]; split <;> rfl
      have h2 : ∀ (ch : Chain V) c (i : Option String), (ch.applyOut c i).1.links = ch.links := by
        intro ch c i
        cases i with
        | none => rfl
        | some i => simp only [Chain.applyOut]; split <;> rfl
      rw [h2, h1]
  | link c => simp only [Chain.step, Option.some.injEq] at h; subst h; exact hadd ch c rfl
  | set p v =>
    simp only [Chain.step, Chain.set] at h
    split at h
    · cases h
    · rename_i l hl
      split at h
      · rename_i pid hpid
        simp only [Option.some.injEq] at h
        subst h
        have hpn := inpParam_name hpid
        have hps : p ≠ s := fun hps => hne v (by rw [hps])
        have hepid : e.1 ≠ pid := fun hh => hps (by rw [← hpn, ← hh]; exact he)
        simp only [List.mem_flatMap]
        constructor
        · rintro ⟨l', hl', hm⟩
          rcases List.mem_or_eq_of_mem_set hl' with h | rfl
          · exact ⟨l', h, hm⟩
          · simp only [List.mem_append, List.mem_singleton] at hm
            rcases hm with hm | hm
            · exact ⟨l, List.mem_of_getElem? hl, hm⟩
            · exact absurd (by rw [hm]) hepid
        · rintro ⟨l', hl', hm⟩
          obtain ⟨j, hj, rfl⟩ := List.mem_iff_getElem.mp hl'
          obtain ⟨hi, rfl⟩ := List.getElem?_eq_some_iff.mp hl
          by_cases hji : ch.paramIdx = j
          · subst hji
            refine ⟨_, List.mem_iff_getElem.mpr ⟨ch.paramIdx, by simpa using hi, List.getElem_set_self (by simpa using hi)⟩, ?_⟩
            simp only [List.mem_append]
            exact .inl hm
          · refine ⟨ch.links[j], List.mem_iff_getElem.mpr ⟨j, by simpa using hj, ?_⟩, hm⟩
            rw [List.getElem_set_ne hji]
      · simp only [Option.some.injEq] at h
        subst h
        exact Iff.rfl
  | paramsForIdx i => simp only [Chain.step, Option.some.injEq] at h; subst h; exact Iff.rfl

theorem build_params_sub {s : String} : ∀ {ops : List (BuildOp V)} {ch ch' : Chain V}, ch.build ops = some ch' → (∀ w, BuildOp.set s w ∉ ops) →
    ∀ e : ParamId × V, e.1.name = s → (e ∈ ch'.links.flatMap (·.params) ↔ e ∈ ch.links.flatMap (·.params))
  | [], ch, ch', h, _, e, _ => by
    simp only [Chain.build, List.foldlM_nil, Option.pure_def, Option.some.injEq] at h
    rw [h]
  | op :: ops, ch, ch', h, hn, e, he => by
    unfold Chain.build at h
    rw [List.foldlM_cons] at h
    obtain ⟨ch1, h1, h2⟩ := Option.bind_eq_some_iff.mp h
    rw [build_params_sub (ops := ops) h2 (fun w hw => hn w (by simp [hw])) e he]
    exact step_params h1 (fun w hw => hn w (by simp [hw])) e he

theorem build_params_name {s : String} {ops : List (BuildOp V)} {ch ch' : Chain V} (h : ch.build ops = some ch') (h0 : ch.links = []) (hn : ∀ w, BuildOp.set s w ∉ ops) :
    ∀ e ∈ ch'.links.flatMap (·.params), e.1.name ≠ s := by
  intro e hm he
  have := (build_params_sub h hn e he).mp hm
  rw [h0] at this
  simp at this

theorem build_split {ch0 ch : Chain V} {pre post : List (BuildOp V)} {a b : BuildOp V} (h : ch0.build (pre ++ [a, b] ++ post) = some ch) :
    ∃ ch1, ch0.build pre = some ch1 ∧ ∃ ch2, ch1.step a = some ch2 ∧ ∃ ch3, ch2.step b = some ch3 ∧ ch3.build post = some ch := by
  unfold Chain.build at h ⊢
  rw [List.append_assoc, List.foldlM_append] at h
  obtain ⟨ch1, h1, h⟩ := Option.bind_eq_some_iff.mp h
  rw [List.foldlM_append] at h
  obtain ⟨ch3, h2, h3⟩ := Option.bind_eq_some_iff.mp h
  simp only [List.foldlM_cons, List.foldlM_nil] at h2
  obtain ⟨ch2, h4, h5⟩ := Option.bind_eq_some_iff.mp h2
  obtain ⟨ch3', h6, h7⟩ := Option.bind_eq_some_iff.mp h5
  simp only [Option.pure_def, Option.some.injEq] at h7
  subst h7
  exact ⟨ch1, h1, ch2, h4, ch3', h6, h3⟩

end HexoDSP.Chain
