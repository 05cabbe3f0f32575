import Verif.Spec.Playing
import Verif.Lemmas.Owner3
import Verif.Lemmas.ExecRun
/-! The engine follows the reference machine. -/

set_option linter.unusedSectionVars false

namespace HexoDSP.Engine
open EngineSpec

variable {N V A M σ : Type} [DecidableEq N]

/-- What determines the port indices of a program. -/
structure Layout (N V : Type) where
  ids : List N
  amts : List ((N × Nat) × Option V)

def Layout.empty : Layout N V := ⟨[], []⟩

/-- Global index of an input, an atom, a modulator. -/
def Layout.inIdx (T : NodeTable N V A) (l : Layout N V) (n : N) (i : Nat) : Nat := base T.inCount l.ids n + i
def Layout.atIdx (T : NodeTable N V A) (l : Layout N V) (n : N) (i : Nat) : Nat := base T.atCount l.ids n + i
def Layout.modIdx (T : NodeTable N V A) (l : Layout N V) (n : N) (i : Nat) : Nat :=
  base (modTot T l.amts) l.ids n + modCnt l.amts n i

/-- The tables of the configurator are those of layout `l`. -/
structure ConfLay (T : NodeTable N V A) (l : Layout N V) (c : Conf N V A) : Prop where
  par : ∀ n i, (c.params.lookup (n, i)).map (fun np => (np.inputIdx, np.modamt.map (fun m => m.1))) =
    if n ∈ l.ids ∧ i < T.inCount n then
      some (l.inIdx T n i, if (amtOf l.amts n i).isSome then some (l.modIdx T n i) else none)
    else none
  at_ : ∀ n i, (c.atoms.lookup (n, i)).map (fun na => na.atIdx) =
    if n ∈ l.ids ∧ i < T.atCount n then some (l.atIdx T n i) else none
  inst : ∀ n ni, c.instanceOf n = some ni → n ∈ l.ids ∧
    ni.outR = (base T.outCount l.ids n, base T.outCount l.ids n + T.outCount n) ∧
    ni.inR = (base T.inCount l.ids n, base T.inCount l.ids n + T.inCount n)
  has : ∀ n ∈ l.ids, (c.instanceOf n).isSome
  pre : l.ids <+: c.ids

/-- Program `p` carries `pl` in layout `l`. -/
structure Carries (T : NodeTable N V A) (l : Layout N V) (pl : Playing N V A) (p : NodeProg N V A) : Prop where
  outLen : p.out.length = tot T.outCount l.ids
  inLen : p.inp.length = tot T.inCount l.ids
  atLen : p.atoms.length = tot T.atCount l.ids
  modLen : p.modops.length = tot (modTot T l.amts) l.ids
  curLen : p.curInp.length = tot T.inCount l.ids
  parLen : p.params.length = tot T.inCount l.ids
  fbLen : p.outFb.length = tot T.outCount l.ids
  prog : p.prog = pl.order.map (opFor T l.amts l.ids pl.wires)
  nodup : pl.order.Nodup
  ord : ∀ n ∈ pl.order, n ∈ l.ids
  before : ∀ e ∈ pl.wires, GraphOrdering.Before pl.order e.src e.dst
  atoms : ∀ n ∈ l.ids, ∀ k, k < T.atCount n → p.atoms[l.atIdx T n k]? = some (pl.atom n k)
  mods : ∀ n ∈ l.ids, ∀ k, k < T.inCount n → ∀ a, pl.amt n k = some a →
    ∃ mo : ModOp V, p.modops[l.modIdx T n k]? = some mo ∧ mo.amount = a
  amts : ∀ n ∈ l.ids, ∀ k, k < T.inCount n → (amtOf l.amts n k).isSome = (pl.amt n k).isSome
  small : l.ids.length ≤ 256
  idsNodup : l.ids.Nodup

/-- The parameter values in program `p` are those of `pl`. -/
def ParamsAre (T : NodeTable N V A) (l : Layout N V) (pl : Playing N V A) (p : NodeProg N V A) : Prop :=
  ∀ n ∈ l.ids, ∀ k, k < T.inCount n → p.params[l.inIdx T n k]? = some (pl.param n k)

theorem before_mem {l : List N} {a b : N} (h : GraphOrdering.Before l a b) : a ∈ l ∧ b ∈ l := by
  obtain ⟨p, q, r, rfl⟩ := h
  simp

theorem topo_of_before {T : NodeTable N V A} {ids order : List N} {es : List (Conn N)} (hnd : order.Nodup)
    (h : ∀ e ∈ es, GraphOrdering.Before order e.src e.dst) : Topo T ids order es := by
  have key : ∀ a b, GraphOrdering.Before order a b → ¬ GraphOrdering.Before order b a := by
    rintro a b ⟨p, q, r, h1⟩ ⟨p', q', r', h2⟩
    have i1 : order[p.length]? = some a := by rw [h1]; simp
    have i2 : order[p.length + 1 + q.length]? = some b := by
      rw [h1, List.append_assoc, List.getElem?_append_right (by omega), List.cons_append,
        List.getElem?_cons]
      rw [if_neg (by omega), List.getElem?_append_right (by omega)]
      rw [show p.length + 1 + q.length - p.length - 1 - q.length = 0 by omega]
      rfl
    have i3 : order[p'.length]? = some b := by rw [h2]; simp
    have i4 : order[p'.length + 1 + q'.length]? = some a := by
      rw [h2, List.append_assoc, List.getElem?_append_right (by omega), List.cons_append,
        List.getElem?_cons]
      rw [if_neg (by omega), List.getElem?_append_right (by omega)]
      rw [show p'.length + 1 + q'.length - p'.length - 1 - q'.length = 0 by omega]
      rfl
    have e1 := getElem?_inj hnd i1 i4
    have e2 := getElem?_inj hnd i2 i3
    omega
  have irr : ∀ a, ¬ GraphOrdering.Before order a a := fun a h => key a a h h
  refine ⟨?_, fun e he _ _ heq => irr e.dst (by have := h e he; rw [heq] at this; exact this)⟩
  rw [List.pairwise_iff_forall_sublist]
  rintro a b hab e he _ ⟨rfl, rfl⟩
  have hb : GraphOrdering.Before order e.dst e.src := by
    rw [List.cons_sublist_iff] at hab
    obtain ⟨r1, r2, rfl, hm, hs⟩ := hab
    obtain ⟨p, q, rfl⟩ := List.append_of_mem hm
    have := hs.subset (List.mem_singleton.2 rfl)
    obtain ⟨s, t, rfl⟩ := List.append_of_mem this
    exact ⟨p, q ++ s, t, by simp⟩
  exact key _ _ (h e he) hb

theorem Carries.ok {T : NodeTable N V A} {l : Layout N V} {pl : Playing N V A} {p : NodeProg N V A}
    (h : Carries T l pl p) (ho : p.owned.Nodup) : ProgOK p := by
  refine ⟨by rw [h.curLen, h.inLen], by rw [h.parLen, h.inLen], by rw [h.fbLen, h.outLen], ho, ?_⟩
  rw [h.outLen, h.inLen, h.atLen, h.modLen, h.prog]
  exact opsOK_opFor h.nodup h.ord (topo_of_before h.nodup h.before)

theorem inIdx_inj (T : NodeTable N V A) {l : Layout N V} {n m : N} {i j : Nat} (hn : n ∈ l.ids) (hm : m ∈ l.ids)
    (hi : i < T.inCount n) (hj : j < T.inCount m) (h : l.inIdx T n i = l.inIdx T m j) : n = m ∧ i = j := by
  exact base_inj T.inCount hn hm hi hj h

theorem atIdx_inj (T : NodeTable N V A) {l : Layout N V} {n m : N} {i j : Nat} (hn : n ∈ l.ids) (hm : m ∈ l.ids)
    (hi : i < T.atCount n) (hj : j < T.atCount m) (h : l.atIdx T n i = l.atIdx T m j) : n = m ∧ i = j := by
  exact base_inj T.atCount hn hm hi hj h

theorem modIdx_inj' (T : NodeTable N V A) {l : Layout N V} {n m : N} {i j : Nat} (hn : n ∈ l.ids) (hm : m ∈ l.ids)
    (hi : i < T.inCount n) (hj : j < T.inCount m) (ha : (amtOf l.amts n i).isSome) (hb : (amtOf l.amts m j).isSome)
    (h : l.modIdx T n i = l.modIdx T m j) : n = m ∧ i = j := by
  obtain ⟨h1, h2⟩ := base_inj (modTot T l.amts) hn hm (modCnt_lt l.amts n hi ha) (modCnt_lt l.amts m hj hb) h
  subst h1
  exact ⟨rfl, modIdx_inj ha hb h2⟩

/-- Carrying is a matter of the parts that `assign_outputs` and the exchange of input buffers leave
alone. -/
theorem Carries.congr {T : NodeTable N V A} {l : Layout N V} {pl : Playing N V A} {p q : NodeProg N V A}
    (h : Carries T l pl p) (ho : q.out.length = p.out.length) (hi : q.inp.length = p.inp.length)
    (ha : q.atoms = p.atoms) (hc : q.curInp.length = p.curInp.length) (hpar : q.params.length = p.params.length)
    (hf : q.outFb.length = p.outFb.length) (hp : q.prog = p.prog)
    (hm : q.modops.map (fun m => m.amount) = p.modops.map (fun m => m.amount)) : Carries T l pl q := by
  have hml : q.modops.length = p.modops.length := by
    have := congrArg List.length hm
    simpa using this
  refine ⟨ho.trans h.outLen, hi.trans h.inLen, by rw [ha]; exact h.atLen, hml.trans h.modLen, hc.trans h.curLen,
    hpar.trans h.parLen, hf.trans h.fbLen, hp.trans h.prog, h.nodup, h.ord, h.before, by rw [ha]; exact h.atoms, ?_, h.amts, h.small, h.idsNodup⟩
  intro n hn k hk a hka
  obtain ⟨mo, h1, h2⟩ := h.mods n hn k hk a hka
  have := congrArg (fun x => x[l.modIdx T n k]?) hm
  simp only [List.getElem?_map, h1, Option.map_some] at this
  cases hq : q.modops[l.modIdx T n k]? with
  | none => rw [hq] at this; cases this
  | some mo' =>
    rw [hq] at this
    exact ⟨mo', rfl, (Option.some.inj this).trans h2⟩

theorem Carries.setParam {T : NodeTable N V A} {l : Layout N V} {pl : Playing N V A} {p : NodeProg N V A}
    (h : Carries T l pl p) (n : N) (i : Nat) (v : V) : Carries T l (pl.update (.param n i v)) p :=
  ⟨h.outLen, h.inLen, h.atLen, h.modLen, h.curLen, h.parLen, h.fbLen, h.prog, h.nodup, h.ord, h.before, h.atoms,
    h.mods, h.amts, h.small, h.idsNodup⟩

theorem Carries.setStore {T : NodeTable N V A} {l : Layout N V} {pl : Playing N V A} {p : NodeProg N V A}
    (h : Carries T l pl p) (n : N) (i : Nat) (v : V) : Carries T l (pl.update (.store n i v)) p :=
  ⟨h.outLen, h.inLen, h.atLen, h.modLen, h.curLen, h.parLen, h.fbLen, h.prog, h.nodup, h.ord, h.before, h.atoms,
    h.mods, h.amts, h.small, h.idsNodup⟩

theorem Carries.setMon {T : NodeTable N V A} {l : Layout N V} {pl : Playing N V A} {p : NodeProg N V A}
    (h : Carries T l pl p) (m : Option (N × List (Option Nat) × List (Option Nat))) : Carries T l { pl with mon := m } p :=
  ⟨h.outLen, h.inLen, h.atLen, h.modLen, h.curLen, h.parLen, h.fbLen, h.prog, h.nodup, h.ord, h.before, h.atoms,
    h.mods, h.amts, h.small, h.idsNodup⟩

theorem Carries.setAtomSkip {T : NodeTable N V A} {l : Layout N V} {pl : Playing N V A} {p : NodeProg N V A}
    (h : Carries T l pl p) {n : N} {i : Nat} (a : A) (hs : ¬ (n ∈ l.ids ∧ i < T.atCount n)) :
    Carries T l (pl.update (.atom n i a)) p := by
  refine ⟨h.outLen, h.inLen, h.atLen, h.modLen, h.curLen, h.parLen, h.fbLen, h.prog, h.nodup, h.ord, h.before, ?_,
    h.mods, h.amts, h.small, h.idsNodup⟩
  intro m hm k hk
  show _ = some (if m = n ∧ k = i then a else pl.atom m k)
  rw [if_neg, h.atoms m hm k hk]
  rintro ⟨rfl, rfl⟩
  exact hs ⟨hm, hk⟩

theorem Carries.setAtom {T : NodeTable N V A} {l : Layout N V} {pl : Playing N V A} {p : NodeProg N V A}
    (h : Carries T l pl p) {n : N} {i : Nat} (a : A) (hn : n ∈ l.ids) (hi : i < T.atCount n) :
    l.atIdx T n i < p.atoms.length ∧
    Carries T l (pl.update (.atom n i a)) { p with atoms := p.atoms.set (l.atIdx T n i) a } := by
  have hlt : l.atIdx T n i < p.atoms.length := (List.getElem?_eq_some_iff.1 (h.atoms n hn i hi)).1
  refine ⟨hlt, ?_⟩
  refine ⟨h.outLen, h.inLen, by simp [h.atLen], h.modLen, h.curLen, h.parLen, h.fbLen, h.prog, h.nodup, h.ord,
    h.before, ?_, h.mods, h.amts, h.small, h.idsNodup⟩
  intro m hm k hk
  show (p.atoms.set (l.atIdx T n i) a)[l.atIdx T m k]? = some (if m = n ∧ k = i then a else pl.atom m k)
  rw [getElem?_set_eq]
  by_cases he : m = n ∧ k = i
  · obtain ⟨rfl, rfl⟩ := he
    rw [if_pos ⟨rfl, hlt⟩, if_pos ⟨rfl, rfl⟩]
  · rw [if_neg he, if_neg, h.atoms m hm k hk]
    rintro ⟨h1, _⟩
    obtain ⟨e1, e2⟩ := atIdx_inj T hn hm hi hk h1
    exact he ⟨e1.symm, e2.symm⟩

theorem Carries.setAmtSkip {T : NodeTable N V A} {l : Layout N V} {pl : Playing N V A} {p : NodeProg N V A}
    (h : Carries T l pl p) {n : N} {i : Nat} (v : V)
    (hs : ¬ (n ∈ l.ids ∧ i < T.inCount n ∧ (amtOf l.amts n i).isSome)) : Carries T l (pl.update (.amount n i v)) p := by
  have e : ∀ m ∈ l.ids, ∀ k, k < T.inCount m → (pl.update (.amount n i v)).amt m k = pl.amt m k := by
    intro m hm k hk
    show (if m = n ∧ k = i then (pl.amt m k).map (fun _ => v) else pl.amt m k) = pl.amt m k
    split
    · rename_i he
      obtain ⟨rfl, rfl⟩ := he
      have : (pl.amt m k).isSome = false := by
        rw [← h.amts m hm k hk]
        cases hh : (amtOf l.amts m k).isSome with
        | false => rfl
        | true => exact absurd ⟨hm, hk, hh⟩ hs
      rw [Option.isSome_eq_false_iff, Option.isNone_iff_eq_none] at this
      rw [this]; rfl
    · rfl
  refine ⟨h.outLen, h.inLen, h.atLen, h.modLen, h.curLen, h.parLen, h.fbLen, h.prog, h.nodup, h.ord, h.before, h.atoms,
    ?_, ?_, h.small, h.idsNodup⟩
  · intro m hm k hk a ha
    rw [e m hm k hk] at ha
    exact h.mods m hm k hk a ha
  · intro m hm k hk
    rw [e m hm k hk]
    exact h.amts m hm k hk

theorem Carries.setAmt {T : NodeTable N V A} {l : Layout N V} {pl : Playing N V A} {p : NodeProg N V A}
    (h : Carries T l pl p) {n : N} {i : Nat} (v : V) (hn : n ∈ l.ids) (hi : i < T.inCount n)
    (ha : (amtOf l.amts n i).isSome) :
    Carries T l (pl.update (.amount n i v))
      { p with modops := p.modops.modify (l.modIdx T n i) (fun m => m.setAmt v) } := by
  refine ⟨h.outLen, h.inLen, h.atLen, by simp [h.modLen], h.curLen, h.parLen, h.fbLen, h.prog, h.nodup, h.ord,
    h.before, h.atoms, ?_, ?_, h.small, h.idsNodup⟩
  · intro m hm k hk a hka
    have hka' : (if m = n ∧ k = i then (pl.amt m k).map (fun _ => v) else pl.amt m k) = some a := hka
    show ∃ mo : ModOp V, (p.modops.modify (l.modIdx T n i) (fun m => m.setAmt v))[l.modIdx T m k]? = some mo ∧ mo.amount = a
    rw [List.getElem?_modify]
    by_cases he : m = n ∧ k = i
    · obtain ⟨rfl, rfl⟩ := he
      rw [if_pos ⟨rfl, rfl⟩] at hka'
      cases hb : pl.amt m k with
      | none => rw [hb] at hka'; cases hka'
      | some b =>
        rw [hb] at hka'
        cases hka'
        obtain ⟨mo, h1, _⟩ := h.mods m hm k hk b hb
        rw [h1]
        exact ⟨mo.setAmt v, by simp, rfl⟩
    · rw [if_neg he] at hka'
      obtain ⟨mo, h1, h2⟩ := h.mods m hm k hk a hka'
      have hne : l.modIdx T n i ≠ l.modIdx T m k := by
        intro hc
        have hb : (amtOf l.amts m k).isSome := by rw [h.amts m hm k hk, hka']; rfl
        obtain ⟨e1, e2⟩ := modIdx_inj' T hn hm hi hk ha hb hc
        exact he ⟨e1.symm, e2.symm⟩
      rw [h1]
      exact ⟨mo, by simp [hne], h2⟩
  · intro m hm k hk
    show _ = (if m = n ∧ k = i then (pl.amt m k).map (fun _ => v) else pl.amt m k).isSome
    rw [h.amts m hm k hk]
    split
    · simp
    · rfl

theorem linked_setAmt {p : NodeProg N V A} (h : Linked p) (j : Nat) (v : V) :
    Linked { p with modops := p.modops.modify j (fun m => m.setAmt v) } := by
  intro op hop g hg
  obtain ⟨h1, h2⟩ := h op hop g hg
  constructor
  · show p.curInp[g]? = _
    rw [h1]
    congr 1
    cases hl : lastConn op.inputs g with
    | none => rfl
    | some io =>
      cases hm : io.2.2 with
      | none => simp [wantBuf, hm]
      | some m =>
        simp only [wantBuf, hm, List.getElem?_modify]
        cases p.modops[m]? with
        | none => rfl
        | some mo =>
          simp only [Option.map_some, Option.map_eq_map, Option.some.injEq]
          split <;> rfl
  · intro io m he hm
    obtain ⟨mo, q1, q2, q3⟩ := h2 io m he hm
    show ∃ mo, (p.modops.modify j (fun m => m.setAmt v))[m]? = some mo ∧ _
    rw [List.getElem?_modify, q1]
    by_cases hj : j = m
    · exact ⟨mo.setAmt v, by simp [hj], q2, q3⟩
    · exact ⟨mo, by simp [hj], q2, q3⟩

/-- The indices sent for a monitored node. -/
def Layout.monIdx (T : NodeTable N V A) (l : Layout N V) (n : N) (ins outs : List (Option Nat)) : List Nat :=
  ins.map (fun o => (o.bind (fun k => if k < T.inCount n then some (l.inIdx T n k) else none)).getD 99999) ++
  outs.map (fun o => (o.bind (fun k => if k < T.outCount n then some (base T.outCount l.ids n + k) else none)).getD 99999)

/-- One message of the queue and the update it stands for. -/
inductive Match1 (T : NodeTable N V A) : Layout N V → Playing N V A → List (Msg N V A M) → List (Update N V A) → Layout N V → Prop
  | param {l : Layout N V} {now : Playing N V A} {n : N} {i : Nat} (v : V) : n ∈ l.ids → i < T.inCount n →
      Match1 T l now [.paramUpdate (l.inIdx T n i) v] [.param n i v] l
  | paramSkip {l : Layout N V} {now : Playing N V A} {n : N} {i : Nat} (v : V) : ¬ (n ∈ l.ids ∧ i < T.inCount n) →
      Match1 T l now [] [.store n i v] l
  | atom {l : Layout N V} {now : Playing N V A} {n : N} {i : Nat} (a : A) : n ∈ l.ids → i < T.atCount n →
      Match1 T l now [.atomUpdate (l.atIdx T n i) a] [.atom n i a] l
  | atomSkip {l : Layout N V} {now : Playing N V A} {n : N} {i : Nat} (a : A) : ¬ (n ∈ l.ids ∧ i < T.atCount n) →
      Match1 T l now [] [.atom n i a] l
  | amount {l : Layout N V} {now : Playing N V A} {n : N} {i : Nat} (v : V) : n ∈ l.ids → i < T.inCount n → (amtOf l.amts n i).isSome →
      Match1 T l now [.modamtUpdate (l.modIdx T n i) v] [.amount n i v] l
  | amountSkip {l : Layout N V} {now : Playing N V A} {n : N} {i : Nat} (v : V) :
      ¬ (n ∈ l.ids ∧ i < T.inCount n ∧ (amtOf l.amts n i).isSome) → Match1 T l now [] [.amount n i v] l
  | program {l l' : Layout N V} {now pl : Playing N V A} {p : NodeProg N V A} (co : Bool) : Carries T l' pl p →
      ParamsAre T l' pl p → l.ids <+: l'.ids → (∀ n ∈ l.ids, ∀ k, k < T.inCount n → pl.param n k = now.param n k) →
      pl.mon = none → Match1 T l now [.newProg p co] [.program pl] l'
  | clear {l : Layout N V} {now : Playing N V A} : Match1 T l now [.clear NodeProg.empty] [.clear] Layout.empty
  | monitor {l : Layout N V} {now : Playing N V A} {n : N} {ins outs : List (Option Nat)} : n ∈ l.ids →
      ins.length = 3 → outs.length = 3 →
      Match1 T l now [.setMonitor (l.monIdx T n ins outs)] [.monitor n ins outs] l
  | midi {l : Layout N V} {now : Playing N V A} (e : M) : Match1 T l now [.injectMidi e] [] l

/-- The queue and the pending updates. -/
inductive Match (T : NodeTable N V A) : Layout N V → Playing N V A → List (Msg N V A M) → List (Update N V A) → Layout N V → Prop
  | nil (l : Layout N V) (now : Playing N V A) : Match T l now [] [] l
  | cons {l l' l'' : Layout N V} {now : Playing N V A} {m q : List (Msg N V A M)} {u us : List (Update N V A)} :
      Match1 T l now m u l' → Match T l' (u.foldl Playing.update now) q us l'' → Match T l now (m ++ q) (u ++ us) l''

theorem Match.snoc {T : NodeTable N V A} {l l' l'' : Layout N V} {now : Playing N V A} {q m : List (Msg N V A M)}
    {us u : List (Update N V A)} (h : Match T l now q us l') (h1 : Match1 T l' (us.foldl Playing.update now) m u l'') :
    Match T l now (q ++ m) (us ++ u) l'' := by
  induction h with
  | nil l => simpa using Match.cons h1 (.nil _ _)
  | cons h2 _ ih =>
    rw [List.append_assoc, List.append_assoc]
    rw [List.foldl_append] at h1
    exact .cons h2 (ih h1)

/-- The running program plays `now`. -/
structure Plays (T : NodeTable N V A) (l : Layout N V) (now : Playing N V A) (p : NodeProg N V A) : Prop where
  carries : Carries T l now p
  linked : Linked p

theorem carries_empty (T : NodeTable N V A) (pl : Playing N V A) (ho : pl.order = []) (hw : pl.wires = []) :
    Plays T Layout.empty pl (NodeProg.empty : NodeProg N V A) := by
  refine ⟨⟨rfl, rfl, rfl, rfl, rfl, rfl, rfl, by rw [ho]; rfl, by rw [ho]; exact List.nodup_nil, ?_, ?_, ?_, ?_, ?_,
    by simp [Layout.empty], by simp [Layout.empty]⟩, ?_⟩
  · intro n hn; rw [ho] at hn; cases hn
  · intro e he; rw [hw] at he; cases he
  · intro n hn; cases hn
  · intro n hn; cases hn
  · intro n hn; cases hn
  · intro op hop; cases hop

section
variable [Sub V] [Div V] [NatCast V]

theorem swap_assign_plays {T : NodeTable N V A} {l : Layout N V} {pl : Playing N V A} {p : NodeProg N V A}
    {e : Exec N V A M} {s : Shared N V A} {co : Bool} {r : Exec N V A M × Shared N V A}
    (hc : Carries T l pl p) (hu : Unlinked p) (hnd : p.owned.Nodup) (hdisj : (p.owned ++ e.prog.owned).Nodup)
    (ha : e.apply s (.newProg p co) = some r) : Plays T l pl r.1.prog ∧ SameBut (if co then (p.swapPrevious e.prog).1 else p) r.1.prog := by
  simp only [Exec.apply] at ha
  cases hx : (if co then p.swapPrevious e.prog else (p, e.prog)) with
  | mk q prev =>
    rw [hx] at ha
    simp only at ha
    have hq : Carries T l pl q ∧ q.owned.Nodup ∧ q = (if co then (p.swapPrevious e.prog).1 else p) := by
      cases co with
      | false =>
        simp only [Bool.false_eq_true, if_false, Prod.mk.injEq] at hx
        obtain ⟨rfl, rfl⟩ := hx
        exact ⟨hc, hnd, by simp⟩
      | true =>
        simp only [if_true] at hx
        obtain ⟨h1, h2, h3, h4, h5, h6, h7, h8, h9, h10⟩ := swapPrevious_spec (prev := e.prog) hu
        rw [hx] at h1 h2 h3 h4 h5 h6 h7 h8 h9 h10
        simp only at h1 h2 h3 h4 h5 h6 h7 h8 h9 h10
        refine ⟨hc.congr (by rw [h6]) (by rw [h7]; exact (swapZip_perm _ _).2.2) h5 h8 (by rw [h4]) (by rw [h9]) h3 ?_, ?_,
          by simp [hx]⟩
        · have := congrArg (List.map Prod.fst) h10
          simpa [List.map_map, Function.comp_def] using this
        · exact (List.nodup_append.1 (h2.nodup_iff.2 hdisj)).1
    obtain ⟨r1, a1, a2, a3, a4⟩ := assignOutputs_spec (hq.1.ok hq.2.1)
    rw [a1] at ha
    simp only [Option.some.injEq] at ha
    subst ha
    refine ⟨⟨hq.1.congr (by rw [a2.out]) (by rw [a2.inp]) a2.atoms a2.curLen (by rw [a2.params]) (by rw [a2.outFb]) a2.prog ?_, a3⟩,
      hq.2.2 ▸ a2⟩
    apply List.ext_getElem?
    intro i
    rw [List.getElem?_map, List.getElem?_map]
    cases hp : q.modops[i]? with
    | none =>
      have : r1.modops[i]? = none := by
        rw [List.getElem?_eq_none_iff] at hp ⊢
        rw [a2.modLen]; exact hp
      rw [this]
    | some mo =>
      obtain ⟨mo', b1, b2, b3⟩ := a2.mods i mo hp
      rw [b1]
      simp [b3]

theorem Plays.skip {T : NodeTable N V A} {l l' : Layout N V} {now : Playing N V A} {p : NodeProg N V A}
    {u : List (Update N V A)} (h : Plays T l now p) (hm : Match1 (M := M) T l now [] u l') :
    l' = l ∧ Plays T l (u.foldl Playing.update now) p := by
  cases hm with
  | paramSkip v hs => exact ⟨rfl, ⟨h.carries.setStore _ _ _, h.linked⟩⟩
  | atomSkip a hs => exact ⟨rfl, ⟨h.carries.setAtomSkip _ hs, h.linked⟩⟩
  | amountSkip v hs => exact ⟨rfl, ⟨h.carries.setAmtSkip _ hs, h.linked⟩⟩

/-- One message. -/
theorem Plays.apply {T : NodeTable N V A} {l l' : Layout N V} {now : Playing N V A} {e e' : Exec N V A M}
    {s s' : Shared N V A} {m : Msg N V A M} {u : List (Update N V A)} (h : Plays T l now e.prog)
    (hm : Match1 T l now [m] u l') (hu : ∀ p, m.prog? = some p → Unlinked p)
    (hdisj : (m.owned ++ e.prog.owned).Nodup)
    (ha : e.apply s m = some (e', s')) : Plays T l' (u.foldl Playing.update now) e'.prog := by
  cases hm with
  | param v hn hi =>
    simp only [Exec.apply, Option.some.injEq, Prod.mk.injEq] at ha
    obtain ⟨rfl, rfl⟩ := ha
    rw [setParam_prog]
    exact ⟨h.carries.setParam _ _ _, h.linked⟩
  | atom a hn hi =>
    obtain ⟨hlt, hc⟩ := h.carries.setAtom a hn hi
    simp only [Exec.apply, if_pos hlt, Option.some.injEq, Prod.mk.injEq] at ha
    obtain ⟨rfl, rfl⟩ := ha
    exact ⟨hc, h.linked⟩
  | amount v hn hi hsome =>
    simp only [Exec.apply, Option.some.injEq, Prod.mk.injEq] at ha
    obtain ⟨rfl, rfl⟩ := ha
    exact ⟨h.carries.setAmt v hn hi hsome, linked_setAmt h.linked _ _⟩
  | program co hc hpar hpre hsame hmon =>
    exact (swap_assign_plays hc (hu _ rfl) (List.nodup_append.1 hdisj).1 hdisj ha).1
  | clear =>
    simp only [Exec.apply, Option.some.injEq, Prod.mk.injEq] at ha
    obtain ⟨rfl, rfl⟩ := ha
    exact carries_empty T _ rfl rfl
  | monitor hn hi ho =>
    simp only [Exec.apply, Option.some.injEq, Prod.mk.injEq] at ha
    obtain ⟨rfl, rfl⟩ := ha
    exact ⟨h.carries.setMon _, h.linked⟩
  | midi ev =>
    simp only [Exec.apply, Option.some.injEq, Prod.mk.injEq] at ha
    obtain ⟨rfl, rfl⟩ := ha
    split <;> exact h

end

end HexoDSP.Engine
