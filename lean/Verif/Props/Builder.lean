import Verif.Spec.Builder
import Verif.Props.SynthConstructor
/-! **C116** What compiles with the builders is a network that can be uploaded. -/

set_option linter.unusedSectionVars false

namespace HexoDSP.BuilderProps
open HexoDSP.Table HexoDSP.TableProps HexoDSP.Synth HexoDSP.Builder HexoDSP.BuilderSpec
open HexoDSP.Engine (CallIn NodeTable Block)

section
variable {V : Type}

theorem no_empty_out : ∀ k : Fin nodeTable.length, (row k).outs.any (fun p => p.name = "") = false := by decide +kernel

theorem isSome_inp {id : NodeId} {s : String} (h : hasParam id s = true) : (id.inp s).isSome := by
  cases id with
  | nop => cases h
  | node k j =>
    simp only [hasParam, List.any_eq_true, decide_eq_true_eq] at h
    simp only [NodeId.inp, Option.isSome_map, List.find?_isSome, decide_eq_true_eq]
    exact h

theorem isSome_out {id : NodeId} {s : String} (h : hasOut id s = true) : (id.out s).isSome := by
  cases id with
  | nop => cases h
  | node k j =>
    simp only [hasOut, List.any_eq_true, decide_eq_true_eq] at h
    simp only [NodeId.out, Option.isSome_map, List.find?_isSome, decide_eq_true_eq]
    exact h

theorem out_ne {id : NodeId} {s : String} (h : hasOut id s = true) : s ≠ "" := by
  rintro rfl
  cases id with
  | nop => cases h
  | node k j =>
    have := no_empty_out k
    simp only [hasOut] at h
    rw [h] at this; cases this

theorem atom_param {id : NodeId} {s : String} (h : hasAtom id s = true) : ∃ pid, id.inpParam s = some pid ∧ pid.isAtom = true := by
  cases id with
  | nop => cases h
  | node k j =>
    simp only [hasAtom, List.any_eq_true, decide_eq_true_eq] at h
    obtain ⟨a, ha, rfl⟩ := h
    have he : (a.name, a.inIdx, true) ∈ entries (row k) := List.mem_append_right _ (List.mem_map.2 ⟨a, ha, rfl⟩)
    exact ⟨⟨a.name, .node k j, a.inIdx⟩, (inpParam_iff k j a.name _).2 ⟨rfl, rfl, true, he⟩, isAtom_of_entry he⟩

theorem push_mem {st : Store V} {r q : Nat} {op x : COp V} (h : x ∈ st.push r op q) : x ∈ st q ∨ (q = r ∧ x = op) := by
  unfold Store.push at h
  split at h
  · exact .inl h
  · simp only at h
    split at h
    · rename_i e
      rcases List.mem_append.1 h with h | h
      · exact .inl h
      · exact .inr ⟨e, List.mem_singleton.1 h⟩
    · exact .inl h

/-- All lists are lists of nodes that were made, and name what these nodes have. -/
structure Good (h : Heap V) : Prop where
  empty : ∀ r, h.owners.length ≤ r → h.store r = []
  node : ∀ id ∈ h.owners, id ≠ .nop
  ops : ∀ (r : Nat) id, h.owners[r]? = some id → ∀ op ∈ h.store r, OpOk id op
  src : ∀ r p src out, COp.input p src out ∈ h.store r → h.owners[src.2]? = some src.1

theorem Good.pushed {h : Heap V} (g : Good h) {r : Nat} {id : NodeId} (hr : h.owners[r]? = some id) {op : COp V}
    (hne : (∀ p src, op ≠ .input p src "") → OpOk id op) (hs : ∀ p src out, op = .input p src out → h.owners[src.2]? = some src.1) :
    Good { h with store := h.store.push r op } := by
  have hlt : r < h.owners.length := (List.getElem?_eq_some_iff.1 hr).1
  have hcase : (∃ p src, op = .input p src "") ∨ ∀ p src, op ≠ .input p src "" := by
    by_cases hx : ∃ p src, op = .input p src ""
    · exact .inl hx
    · exact .inr fun p src he => hx ⟨p, src, he⟩
  rcases hcase with ⟨p, src, rfl⟩ | hn
  · exact g
  · refine ⟨fun q hq => ?_, g.node, fun q i hi x hx => ?_, fun q p src out hx => ?_⟩
    · have hq' : q ≠ r := by simp only at hq; omega
      have := g.empty q hq
      unfold Store.push
      split
      · exact this
      · simp only; rw [if_neg hq']; exact this
    · rcases push_mem hx with hx | ⟨rfl, rfl⟩
      · exact g.ops q i hi x hx
      · simp only at hi
        rw [hr] at hi; cases hi
        exact hne hn
    · rcases push_mem hx with hx | ⟨rfl, e⟩
      · exact g.src q p src out hx
      · exact hs p src out e.symm

theorem Good.call {h h' : Heap V} (g : Good h) {c : Call V} (hc : h.call c = some h') : Good h' := by
  cases c with
  | make k inst =>
    simp only [Heap.call, Option.some.injEq] at hc
    subst hc
    refine ⟨fun r hr => ?_, fun id hid => ?_, fun r id hi op ho => ?_, fun r p src out ho => ?_⟩
    · simp only [List.length_append, List.length_cons, List.length_nil] at hr
      simp only
      rw [if_neg (by omega)]
      exact g.empty r (by omega)
    · rcases List.mem_append.1 hid with hid | hid
      · exact g.node id hid
      · rw [List.mem_singleton.1 hid]; exact NodeId.noConfusion
    · simp only at ho hi
      split at ho
      · cases ho
      · rename_i hne
        refine g.ops r id ?_ op ho
        rw [List.getElem?_append] at hi
        split at hi
        · exact hi
        · rename_i hge
          rw [g.empty r (by omega)] at ho; cases ho
    · simp only at ho ⊢
      split at ho
      · cases ho
      · have := g.src r p src out ho
        rw [List.getElem?_append_left (List.getElem?_eq_some_iff.1 this).1]
        exact this
  | set r name v =>
    simp only [Heap.call] at hc
    split at hc
    · cases hc
    · rename_i id hr
      split at hc
      · rename_i hp
        cases hc
        exact g.pushed hr (fun _ => isSome_inp hp) (fun _ _ _ e => nomatch e)
      · cases hc
  | setting r name i =>
    simp only [Heap.call] at hc
    split at hc
    · cases hc
    · rename_i id hr
      split at hc
      · rename_i hp
        cases hc
        exact g.pushed hr (fun _ => atom_param hp) (fun _ _ _ e => nomatch e)
      · cases hc
  | setMod r name v ma =>
    simp only [Heap.call] at hc
    split at hc
    · cases hc
    · rename_i id hr
      split at hc
      · rename_i hp
        cases hc
        exact g.pushed hr (fun _ => isSome_inp hp) (fun _ _ _ e => nomatch e)
      · cases hc
  | input r name src port =>
    simp only [Heap.call] at hc
    split at hc
    · rename_i id sid hr hsrc
      split at hc
      · rename_i hp
        rw [Bool.and_eq_true] at hp
        cases hc
        refine g.pushed hr (fun hne => ?_) (fun p s out e => ?_)
        · refine ⟨isSome_inp hp.1, ?_⟩
          cases port with
          | none => exact absurd rfl (hne name (sid, src))
          | some o => exact isSome_out hp.2
        · injection e with _ e2 _
          subst e2
          exact hsrc
      · cases hc
    · cases hc

theorem good_new : Good (Heap.new : Heap V) := ⟨fun _ _ => rfl, (fun _ h => nomatch h), (fun _ _ _ _ h => nomatch h), (fun _ _ _ _ h => nomatch h)⟩

theorem Good.run {cs : List (Call V)} : ∀ {h h' : Heap V}, Good h → h.run cs = some h' → Good h' := by
  induction cs with
  | nil => intro h h' g e; cases e; exact g
  | cons c cs ih =>
    intro h h' g e
    obtain ⟨h1, e1, e2⟩ := Option.bind_eq_some_iff.1 e
    exact ih (g.call e1) e2

/-- **C116** What compiles is well formed: every operation names an input, a setting or an output the node has, and refers to nodes that were made. -/
theorem built_is_typed {cs : List (Call V)} {h : Heap V} (e : Heap.new.run cs = some h) : Typed h.own h.store := by
  have g := good_new.run e
  refine ⟨fun r => ?_, fun r op ho => ?_, fun r p src out ho => ?_⟩
  · unfold Heap.own
    cases hr : h.owners[r]? with
    | none => exact NodeId.noConfusion
    | some id => exact g.node id (List.mem_of_getElem? hr)
  · cases hr : h.owners[r]? with
    | none =>
      rw [g.empty r (List.getElem?_eq_none_iff.1 hr)] at ho; cases ho
    | some id =>
      have := g.ops r id hr op ho
      simpa only [Heap.own, hr, Option.getD_some] using this
  · have := g.src r p src out ho
    simp only [Heap.own, this]; rfl

theorem owners_run {cs : List (Call V)} : ∀ {h h' : Heap V}, h.run cs = some h' → h'.owners = h.owners ++ made cs := by
  induction cs with
  | nil => intro h h' e; cases e; simp [made]
  | cons c cs ih =>
    intro h h' e
    obtain ⟨h1, e1, e2⟩ := Option.bind_eq_some_iff.1 e
    rw [ih e2]
    cases c with
    | make k inst => simp only [Heap.call, Option.some.injEq] at e1; subst e1; simp [made]
    | set r name v => simp only [Heap.call] at e1; split at e1 <;> [cases e1; (split at e1 <;> cases e1; rfl)]
    | setting r name v => simp only [Heap.call] at e1; split at e1 <;> [cases e1; (split at e1 <;> cases e1; rfl)]
    | setMod r name v ma => simp only [Heap.call] at e1; split at e1 <;> [cases e1; (split at e1 <;> cases e1; rfl)]
    | input r name src port => simp only [Heap.call] at e1; split at e1 <;> [(split at e1 <;> cases e1; rfl); cases e1]

theorem push_plain {st : Store V} {r q : Nat} {op : COp V} (h : ∀ p src, op ≠ .input p src "") : st.push r op q = st q ++ (if r = q then some op else none).toList := by
  unfold Store.push
  split
  · exact absurd rfl (h _ _)
  · by_cases e : q = r
    · subst e; simp
    · simp [e, Ne.symm e]

theorem store_call {h h' : Heap V} (g : Good h) {c : Call V} (e : h.call c = some h') (nodes : Nat → NodeId)
    (hn : ∀ (r : Nat) id, h.owners[r]? = some id → nodes r = id) (q : Nat) : h'.store q = h.store q ++ (said nodes q c).toList := by
  cases c with
  | make k inst =>
    simp only [Heap.call, Option.some.injEq] at e
    subst e
    simp only [said, Option.toList_none, List.append_nil]
    split
    · rename_i hq; rw [g.empty q (by omega)]
    · rfl
  | set r name v =>
    simp only [Heap.call] at e
    split at e
    · cases e
    · split at e <;> cases e
      exact push_plain (op := COp.set name v) (fun _ _ h => by cases h)
  | setting r name v =>
    simp only [Heap.call] at e
    split at e
    · cases e
    · split at e <;> cases e
      exact push_plain (op := COp.setting name v) (fun _ _ h => by cases h)
  | setMod r name v ma =>
    simp only [Heap.call] at e
    split at e
    · cases e
    · split at e <;> cases e
      exact push_plain (op := COp.setMod name v ma) (fun _ _ h => by cases h)
  | input r name src port =>
    simp only [Heap.call] at e
    split at e
    · rename_i id sid hr hs
      split at e
      · rename_i hp
        cases e
        cases port with
        | none => simp only [said, Option.toList_none, List.append_nil]; rfl
        | some o =>
          simp only [Bool.and_eq_true] at hp
          simp only [said, hn src sid hs, Option.getD_some]
          exact push_plain (fun p s h => by injection h with _ _ h3; exact out_ne hp.2 h3)
      · cases e
    · cases e

theorem store_run (nodes : Nat → NodeId) (q : Nat) {cs : List (Call V)} : ∀ {h h' : Heap V}, Good h → h.run cs = some h' →
    (∀ (r : Nat) id, h'.owners[r]? = some id → nodes r = id) → h'.store q = h.store q ++ cs.filterMap (said nodes q) := by
  induction cs with
  | nil => intro h h' _ e _; cases e; simp
  | cons c cs ih =>
    intro h h' g e hn
    obtain ⟨h1, e1, e2⟩ := Option.bind_eq_some_iff.1 e
    have hpre : ∀ (r : Nat) id, h.owners[r]? = some id → nodes r = id := by
      intro r id hr
      refine hn r id ?_
      rw [owners_run e, List.getElem?_append_left (List.getElem?_eq_some_iff.1 hr).1]
      exact hr
    rw [ih (g.call e1) e2 hn, store_call g e1 nodes hpre q, List.filterMap_cons]
    cases said nodes q c <;> simp

/-- **C116** What a node is given is what was called on it or on a copy of it, in that order, whatever was called on other nodes in between. A connection
from a node of which no output was chosen is left out. -/
theorem built_is_written {cs : List (Call V)} {h : Heap V} (e : Heap.new.run cs = some h) (r : Nat) :
    h.owners = made cs ∧ h.store r = cs.filterMap (said h.own r) := by
  refine ⟨by rw [owners_run e]; rfl, ?_⟩
  rw [store_run h.own r good_new e (fun r id hr => by simp [Heap.own, hr])]
  rfl

end

section
variable {V A M σ : Type}
variable [Add V] [Mul V] [Sub V] [Div V] [NatCast V] [OfNat V 0] [DecidableEq V] [DecidableEq A]
variable {T : NodeTable NodeId V A} {a0 : A} {run : σ → CallIn NodeId V A → σ × (Nat → Block V)} {E : Env V A}

/-- **C116** Uploading what the builders made, after any history of such uploads and updates, can only fail because of a cycle: unknown names are not
possible. -/
theorem upload_only_cycles (hE : EnvOk E) {fuel : Nat} {P : SC V A M σ → Prop} {s s' : SC V A M σ} {seen : List (Visit V)} (hh : Hist T a0 run E fuel P s seen)
    {cs : List (Call V)} {h : Heap V} (e : Heap.new.run cs = some h) (r : Nat) {err : SynthError}
    (hu : s.upload T a0 run E fuel h.store (h.own r, r) = some (s', .error err)) : err = .cycleDetected := by
  obtain ⟨h1, h2⟩ := upload_stage (T := T) (a0 := a0) (run := run) hE (hist_ok hE hh) (fuel := fuel) (built_is_typed e) r
  cases hv : visits h.store false fuel (h.own r, r) with
  | none => rw [h1 hv] at hu; cases hu
  | some vs =>
    obtain ⟨h3, h4⟩ := h2 vs hv
    by_cases hc : Cyclic (seen ++ vs)
    · obtain ⟨s1, e1, -⟩ := h3 hc
      rw [e1] at hu; cases hu; rfl
    · obtain ⟨s1, cs', order, ws, e1, -⟩ := h4 hc
      rw [e1] at hu
      obtain ⟨x, -, hx⟩ := Option.map_eq_some_iff.1 hu
      cases hx

end

/-! ## Examples -/

def kOf (s : String) : Fin nodeTable.length := match NodeId.fromStr s with | .node k _ => k | .nop => ⟨0, by decide +kernel⟩

/-- `let s = sin(0).set().freq(5); let a = amp(0).input().inp(&s.output().sig()).set_mod().att(3, 2).set().neg_att(1); s.set().det(7)` -/
def exCalls : List (Call Int) :=
  [.make (kOf "sin") 0, .set 0 "freq" 5, .make (kOf "amp") 0, .input 1 "inp" 0 (some "sig"), .setMod 1 "att" 3 2, .setting 1 "neg_att" 1,
   .input 1 "gain" 0 none, .set 0 "det" 7]

def exHeap : Heap Int := (Heap.new.run exCalls).getD Heap.new

/-- The calls compile; the frequency of the sine set after it was connected is seen through the connection. -/
example : (Heap.new.run exCalls).isSome = true ∧ exHeap.owners.length = 2 ∧ (exHeap.store 0).length = 2 ∧ (exHeap.store 1).length = 3 := by decide +kernel

/-- A name the node does not have does not compile. -/
example : (Heap.new.run ([.make (kOf "sin") 0, .set 0 "gain" 5] : List (Call Int))).isNone = true := by decide +kernel

/-- The network is uploaded by a new constructor: the hypotheses are met. -/
example : SynthProps.okOf ((SC.new () : SynthProps.ExS).upload SynthProps.exT 0 SynthProps.exRun SynthProps.exE 8 exHeap.store (exHeap.own 1, 1)) = some () := by
  decide +kernel

/-- Two sines reading from each other compile, and are rejected because of the cycle (the second reads a copy made by `sin(0)` once more). -/
def exLoop : List (Call Int) :=
  [.make (kOf "sin") 0, .make (kOf "sin") 1, .make (kOf "sin") 0, .input 0 "freq" 1 (some "sig"), .input 1 "freq" 2 (some "sig")]

example : SynthProps.errOf ((SC.new () : SynthProps.ExS).upload SynthProps.exT 0 SynthProps.exRun SynthProps.exE 8
    ((Heap.new.run exLoop).getD Heap.new).store (((Heap.new.run exLoop).getD Heap.new).own 0, 0)) = some .cycleDetected := by decide +kernel

end HexoDSP.BuilderProps
