import Verif.Model.Map
/-! Facts about association lists. -/

set_option linter.unusedSectionVars false

namespace HexoDSP

variable {K V : Type} [BEq K] [LawfulBEq K]

theorem lookup_filter_ne (m : List (K × V)) (k k' : K) (h : (k' == k) = false) :
    (m.filter (fun e => !(e.1 == k))).lookup k' = m.lookup k' := by
  induction m with
  | nil => rfl
  | cons e m ih =>
    obtain ⟨a, b⟩ := e
    by_cases ha : (a == k) = true
    · have : (k' == a) = false := by
        have ha' := eq_of_beq ha
        subst ha'
        exact h
      simp [ha, List.lookup_cons, this, ih]
    · simp only [Bool.not_eq_true] at ha
      simp only [List.filter_cons, ha, Bool.not_false, if_true, List.lookup_cons, ih]

theorem lookup_insert (m : List (K × V)) (k k' : K) (v : V) :
    (Map.insert m k v).lookup k' = if k' == k then some v else m.lookup k' := by
  unfold Map.insert
  rw [List.lookup_cons]
  cases h : k' == k with
  | true => simp
  | false => simp [lookup_filter_ne m k k' h]

theorem lookup_insert_self (m : List (K × V)) (k : K) (v : V) :
    (Map.insert m k v).lookup k = some v := by simp [lookup_insert]

theorem lookup_insert_ne (m : List (K × V)) (k k' : K) (v : V) (h : k' ≠ k) :
    (Map.insert m k v).lookup k' = m.lookup k' := by
  have : (k' == k) = false := by simpa using h
  simp [lookup_insert, this]

/-- At most one entry per key. -/
def KeysNodup (m : List (K × V)) : Prop := (m.map (fun e => e.1)).Nodup

theorem keysNodup_nil : KeysNodup ([] : List (K × V)) := List.nodup_nil

theorem keysNodup_insert {m : List (K × V)} (h : KeysNodup m) (k : K) (v : V) :
    KeysNodup (Map.insert m k v) := by
  unfold KeysNodup Map.insert
  simp only [List.map_cons, List.nodup_cons]
  constructor
  · intro hm
    obtain ⟨e, he, hk⟩ := List.mem_map.1 hm
    have := (List.mem_filter.1 he).2
    simp [hk] at this
  · unfold KeysNodup at h
    exact List.Pairwise.sublist (List.Sublist.map _ List.filter_sublist) h

theorem mem_of_lookup {m : List (K × V)} {k : K} {v : V} (h : m.lookup k = some v) : (k, v) ∈ m := by
  induction m with
  | nil => simp at h
  | cons e m ih =>
    obtain ⟨a, b⟩ := e
    rw [List.lookup_cons] at h
    cases hk : k == a with
    | true =>
      simp only [hk] at h
      have := eq_of_beq hk
      subst this
      cases h
      exact List.mem_cons_self
    | false =>
      simp only [hk] at h
      exact List.mem_cons_of_mem _ (ih h)

theorem lookup_of_mem {m : List (K × V)} (hn : KeysNodup m) {k : K} {v : V} (h : (k, v) ∈ m) :
    m.lookup k = some v := by
  induction m with
  | nil => simp at h
  | cons e m ih =>
    obtain ⟨a, b⟩ := e
    unfold KeysNodup at hn
    simp only [List.map_cons, List.nodup_cons] at hn
    rw [List.lookup_cons]
    rcases List.mem_cons.1 h with h' | h'
    · cases h'; simp
    · have hne : (k == a) = false := by
        apply Bool.eq_false_iff.2
        intro hk
        have := eq_of_beq hk
        subst this
        exact hn.1 (List.mem_map.2 ⟨(k, v), h', rfl⟩)
      simp only [hne]
      exact ih hn.2 h'

end HexoDSP
