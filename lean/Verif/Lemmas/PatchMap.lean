import Verif.Lemmas.Play
import Mathlib.Data.List.Perm.Subperm
import Mathlib.Data.List.TakeWhile
/-! Association lists with one entry per key: in the configurator, and when they are written out and read back. -/

set_option linter.unusedSectionVars false

namespace HexoDSP.Patch
open HexoDSP.Engine HexoDSP.EngineSpec

section
variable {α β γ : Type} [BEq α] [LawfulBEq α]

theorem lookup_none_iff (l : List (α × β)) (k : α) : l.lookup k = none ↔ k ∉ l.map (·.1) := by
  induction l with
  | nil => simp
  | cons e l ih =>
    obtain ⟨a, b⟩ := e
    rw [List.lookup_cons]
    cases hk : k == a with
    | true => simp [eq_of_beq hk]
    | false => simp only [ih, List.map_cons, List.mem_cons, not_or]; simp at hk; exact ⟨fun h => ⟨hk, h⟩, fun h => h.2⟩

/-- The order of the entries does not matter. -/
theorem lookup_perm {l l' : List (α × β)} (h : l.Perm l') (hk : KeysNodup l) (k : α) : l.lookup k = l'.lookup k := by
  have hk' : KeysNodup l' := (h.map Prod.fst).nodup_iff.1 hk
  cases hl : l'.lookup k with
  | none =>
    rw [lookup_none_iff] at hl ⊢
    intro hm
    exact hl ((h.map Prod.fst).mem_iff.1 hm)
  | some v => exact lookup_of_mem hk (h.mem_iff.2 (mem_of_lookup hl))

theorem lookup_map_key (l : List (α × β)) (f : α → β → γ) (k : α) :
    (l.map (fun e => (e.1, f e.1 e.2))).lookup k = (l.lookup k).map (f k) := by
  induction l with
  | nil => rfl
  | cons e l ih =>
    obtain ⟨a, b⟩ := e
    simp only [List.map_cons, List.lookup_cons]
    cases hk : k == a with
    | true => simp [eq_of_beq hk]
    | false => simp [ih]

/-- Inserting the entries one after the other. -/
theorem lookup_insertAll (l m : List (α × β)) (hk : KeysNodup l) (k : α) :
    (l.foldl (fun ps e => Map.insert ps e.1 e.2) m).lookup k = (l.lookup k).or (m.lookup k) := by
  induction l generalizing m with
  | nil => rfl
  | cons e l ih =>
    obtain ⟨a, b⟩ := e
    have hk' : KeysNodup l := (List.nodup_cons.1 hk).2
    have ha : a ∉ l.map (·.1) := (List.nodup_cons.1 hk).1
    rw [List.foldl_cons, ih _ hk', List.lookup_cons, lookup_insert]
    cases h : k == a with
    | true =>
      have := eq_of_beq h
      subst this
      rw [(lookup_none_iff l k).2 ha]
      simp
    | false => simp

theorem keysNodup_insertAll (l m : List (α × β)) (hm : KeysNodup m) : KeysNodup (l.foldl (fun ps e => Map.insert ps e.1 e.2) m) := by
  induction l generalizing m with
  | nil => exact hm
  | cons e l ih => exact ih _ (keysNodup_insert hm _ _)

end

/-! ## The tables of the configurator -/

variable {N V A M σ : Type} [DecidableEq N]
variable {T : NodeTable N V A} {a0 : A} {run : σ → CallIn N V A → σ × (Nat → Block V)}

/-- One value per parameter. -/
def KeysOk (c : Conf N V A) : Prop := KeysNodup c.paramValues ∧ KeysNodup c.atomValues

theorem keys_rebuildInput (amts : List ((N × Nat) × Option V)) (id : N) (inIdx : Nat) (l : List Nat) : ∀ (s : InputAcc N V), KeysNodup s.paramValues →
    KeysNodup (l.foldl (rebuildInput T amts id inIdx) s).paramValues := by
  induction l with
  | nil => intro s h; exact h
  | cons a l ih =>
    intro s h
    refine ih _ ?_
    unfold rebuildInput
    simp only
    split <;> exact keysNodup_insert h _ _

theorem keys_rebuildAtom (id : N) (at0 : Nat) (l : List Nat) : ∀ (s : AtomAcc N A), KeysNodup s.atomValues →
    KeysNodup (l.foldl (rebuildAtom T id at0) s).atomValues := by
  induction l with
  | nil => intro s h; exact h
  | cons a l ih => intro s h; exact ih _ (keysNodup_insert h _ _)

theorem keys_rebuildNodes (amts : List ((N × Nat) × Option V)) (l : List N) : ∀ (s : Rebuild N V A), KeysNodup s.paramValues → KeysNodup s.atomValues →
    KeysNodup (l.foldl (rebuildNode T amts) s).paramValues ∧ KeysNodup (l.foldl (rebuildNode T amts) s).atomValues := by
  induction l with
  | nil => intro s h1 h2; exact ⟨h1, h2⟩
  | cons a l ih =>
    intro s h1 h2
    exact ih _ (keys_rebuildInput _ _ _ _ _ h1) (keys_rebuildAtom _ _ _ _ h2)

variable [Add V] [Mul V] [Sub V] [Div V] [NatCast V] [OfNat V 0]

theorem keysOk_step {w w1 : World N V A M σ} {op : EOp N V A M} {out : Option (BlockResult N V A)} (h : KeysOk w.conf)
    (hs : w.step T a0 run op = some (w1, out)) : KeysOk w1.conf := by
  cases op with
  | createNode n => simp only [World.step, Option.some.injEq, Prod.mk.injEq] at hs; rw [← hs.1]; exact h
  | deleteNodes =>
    simp only [World.step, Option.some.injEq, Prod.mk.injEq] at hs; rw [← hs.1, conf_sendAll]
    exact ⟨keysNodup_nil, keysNodup_nil⟩
  | setInput n i v =>
    simp only [World.step, Option.some.injEq, Prod.mk.injEq] at hs; rw [← hs.1, conf_sendAll]
    show KeysOk (w.conf.setInput (M := M) n i v).1
    unfold Conf.setInput
    simp only
    split <;> exact ⟨keysNodup_insert h.1 _ _, h.2⟩
  | setAtom n i v =>
    simp only [World.step, Option.some.injEq, Prod.mk.injEq] at hs; rw [← hs.1, conf_sendAll]
    show KeysOk (w.conf.setAtom (M := M) n i v).1
    unfold Conf.setAtom
    simp only
    split <;> exact ⟨h.1, keysNodup_insert h.2 _ _⟩
  | setModamt p v =>
    simp only [World.step, Option.some.injEq, Prod.mk.injEq] at hs; rw [← hs.1, conf_sendAll]
    obtain ⟨h1, h2⟩ := NodeConfProps.tables_setModamt (M := M) w.conf p v
    exact ⟨by rw [show ((w.conf.setModamt (M := M) p v).1).paramValues = _ from h1]; exact h.1,
      by rw [show ((w.conf.setModamt (M := M) p v).1).atomValues = _ from h2]; exact h.2⟩
  | sync o ws c =>
    simp only [World.step] at hs
    obtain ⟨⟨c', p, h'⟩, hb, hx⟩ := Option.map_eq_some_iff.1 hs
    simp only [Prod.mk.injEq] at hx
    rw [← hx.1, conf_send]
    have ht := tables_buildProg hb
    have hk := keys_rebuildNodes (T := T) w.conf.paramModamt (w.conf.nodes.map (fun e => e.1))
      { nodes := [], outLen := 0, inLen := 0, atLen := 0, modLen := 0, params := [], paramValues := w.conf.paramValues, atoms := [],
        atomValues := w.conf.atomValues } h.1 h.2
    exact ⟨by rw [show c'.paramValues = _ from ht.paramValues]; exact hk.1, by rw [show c'.atomValues = _ from ht.atomValues]; exact hk.2⟩
  | monitor n i o => simp only [World.step, Option.some.injEq, Prod.mk.injEq] at hs; rw [← hs.1, conf_sendAll]; exact h
  | injectMidi e => simp only [World.step, Option.some.injEq, Prod.mk.injEq] at hs; rw [← hs.1, conf_send]; exact h
  | poll =>
    simp only [World.step] at hs
    obtain ⟨x, -, hx⟩ := Option.map_eq_some_iff.1 hs
    simp only [Prod.mk.injEq] at hx
    rw [← hx.1]; exact h
  | process n =>
    simp only [World.step] at hs
    obtain ⟨x, -, hx⟩ := Option.map_eq_some_iff.1 hs
    simp only [Prod.mk.injEq] at hx
    rw [← hx.1]; exact h
  | dropOne =>
    simp only [World.step] at hs
    split at hs
    · simp only [Option.some.injEq, Prod.mk.injEq] at hs; rw [← hs.1]; exact h
    · simp only [Option.some.injEq, Prod.mk.injEq] at hs; rw [← hs.1]; exact h
  | setSlope n => simp only [World.step, Option.some.injEq, Prod.mk.injEq] at hs; rw [← hs.1]; exact h

theorem keysOk_reached {w : World N V A M σ} (h : Reached T a0 run w) : KeysOk w.conf := by
  obtain ⟨st, ops, hr⟩ := h
  have : ∀ {w w' : World N V A M σ} {ops : List (EOp N V A M)}, Ran T a0 run w ops w' → KeysOk w.conf → KeysOk w'.conf := by
    intro w w' ops hr
    induction hr with
    | nil => exact id
    | cons _ hs _ ih => exact fun h => ih (keysOk_step h hs)
    | outside st _ ih => exact ih
  exact this hr ⟨keysNodup_nil, keysNodup_nil⟩

end HexoDSP.Patch
