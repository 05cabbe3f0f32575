import Verif.Spec.VisualFilter
import Mathlib.Data.List.Induction
import Mathlib.Order.MinMax
/-!
# Display filters (C27, C28)
-/

set_option linter.unusedSectionVars false

namespace HexoDSP.VisualProps
open HexoDSP.Visual HexoDSP.VisualSpec

variable {V N : Type} [LinearOrder V] [Zero V] [Neg V] [DecidableEq N]

/-! ## The maximum loop -/

theorem peaks_fold (l : List V) : ∀ acc : V × V, ∀ w, Peaks w acc → Peaks (w ++ l) (l.foldl maxStep acc) := by
  induction l with
  | nil => intro acc w h; simpa using h
  | cons v l ih =>
    intro acc w h
    rw [List.foldl_cons]
    have := ih (maxStep acc v) (w ++ [v]) ?_
    · simpa using this
    · obtain ⟨⟨a1, a2⟩, ⟨b1, b2⟩⟩ := h
      by_cases hv : 0 ≤ v
      · have e : maxStep acc v = (acc.1, max acc.2 v) := by simp [maxStep, absV, hv]
        rw [e]
        refine ⟨⟨?_, ?_⟩, ⟨?_, ?_⟩⟩
        · rcases a1 with a1 | ⟨x, hx, hx2⟩
          · exact .inl a1
          · exact .inr ⟨x, by simp [hx], hx2⟩
        · rintro y (hy | ⟨x, hx, hx2, rfl⟩)
          · exact a2 (.inl hy)
          · rcases List.mem_append.1 hx with hx | hx
            · exact a2 (.inr ⟨x, hx, hx2, rfl⟩)
            · rw [List.mem_singleton.1 hx] at hx2
              exact absurd hv (not_le.2 hx2)
        · show max acc.2 v ∈ _
          rcases max_choice acc.2 v with hm | hm
          · rw [hm]
            rcases b1 with b1 | ⟨hx, hx2⟩
            · exact .inl b1
            · exact .inr ⟨by simp [hx], hx2⟩
          · rw [hm]; exact .inr ⟨by simp, hv⟩
        · rintro y (hy | ⟨hx, hx2⟩)
          · exact le_trans (b2 (.inl hy)) (le_max_left _ _)
          · rcases List.mem_append.1 hx with hx | hx
            · exact le_trans (b2 (.inr ⟨hx, hx2⟩)) (le_max_left _ _)
            · rw [List.mem_singleton.1 hx]; exact le_max_right _ _
      · have e : maxStep acc v = (max acc.1 (-v), acc.2) := by simp [maxStep, absV, hv]
        have hv' : v < 0 := not_le.1 hv
        rw [e]
        refine ⟨⟨?_, ?_⟩, ⟨?_, ?_⟩⟩
        · show max acc.1 (-v) ∈ _
          rcases max_choice acc.1 (-v) with hm | hm
          · rw [hm]
            rcases a1 with a1 | ⟨x, hx, hx2⟩
            · exact .inl a1
            · exact .inr ⟨x, by simp [hx], hx2⟩
          · rw [hm]; exact .inr ⟨v, by simp, hv', rfl⟩
        · rintro y (hy | ⟨x, hx, hx2, rfl⟩)
          · exact le_trans (a2 (.inl hy)) (le_max_left _ _)
          · rcases List.mem_append.1 hx with hx | hx
            · exact le_trans (a2 (.inr ⟨x, hx, hx2, rfl⟩)) (le_max_left _ _)
            · rw [List.mem_singleton.1 hx]; exact le_max_right _ _
        · rcases b1 with b1 | ⟨hx, hx2⟩
          · exact .inl b1
          · exact .inr ⟨by simp [hx], hx2⟩
        · rintro y (hy | ⟨hx, hx2⟩)
          · exact b2 (.inl hy)
          · rcases List.mem_append.1 hx with hx | hx
            · exact b2 (.inr ⟨hx, hx2⟩)
            · rw [List.mem_singleton.1 hx] at hx2; exact absurd hx2 hv

theorem peaks_nil : Peaks ([] : List V) (0, 0) := by
  refine ⟨⟨.inl rfl, ?_⟩, ⟨.inl rfl, ?_⟩⟩
  · rintro y (hy | ⟨x, hx, _⟩)
    · exact le_of_eq hy
    · cases hx
  · rintro y (hy | ⟨hx, _⟩)
    · exact le_of_eq hy
    · cases hx

/-- Only the set of samples matters, and zeros do not. -/
theorem peaks_congr {w w' : List V} {r : V × V} (h : Peaks w r) (h1 : ∀ x, x ∈ w → x = 0 ∨ x ∈ w')
    (h2 : ∀ x, x ∈ w' → x = 0 ∨ x ∈ w) : Peaks w' r := by
  have e1 : ({0} ∪ {x | ∃ v ∈ w', v < 0 ∧ x = -v} : Set V) = {0} ∪ {x | ∃ v ∈ w, v < 0 ∧ x = -v} := by
    ext y
    constructor
    · rintro (hy | ⟨x, hx, hx2, e⟩)
      · exact .inl hy
      · rcases h2 x hx with rfl | hx'
        · exact absurd hx2 (lt_irrefl _)
        · exact .inr ⟨x, hx', hx2, e⟩
    · rintro (hy | ⟨x, hx, hx2, e⟩)
      · exact .inl hy
      · rcases h1 x hx with rfl | hx'
        · exact absurd hx2 (lt_irrefl _)
        · exact .inr ⟨x, hx', hx2, e⟩
  have e2 : ({0} ∪ {x | x ∈ w' ∧ 0 ≤ x} : Set V) = {0} ∪ {x | x ∈ w ∧ 0 ≤ x} := by
    ext y
    constructor
    · rintro (hy | ⟨hx, hx2⟩)
      · exact .inl hy
      · rcases h2 y hx with rfl | hx'
        · exact .inl rfl
        · exact .inr ⟨hx', hx2⟩
    · rintro (hy | ⟨hx, hx2⟩)
      · exact .inl hy
      · rcases h1 y hx with rfl | hx'
        · exact .inl rfl
        · exact .inr ⟨hx', hx2⟩
  unfold Peaks
  rw [e1, e2]
  exact h

/-- There is only one pair of peaks. -/
theorem peaks_unique {w : List V} {r r' : V × V} (h : Peaks w r) (h' : Peaks w r') : r = r' :=
  Prod.ext (h.1.unique h'.1) (h.2.unique h'.2)

/-! ## The ring buffer -/

/-- The buffer holds the last ten accepted samples; `acc` lists all of them. -/
structure Ring (s : Filter V) (acc : List V) : Prop where
  len : s.buffer.length = 10
  ptr : s.writePtr = acc.length % 10
  get : ∀ i, i < 10 → s.buffer[(acc.length + 10 - i) % 10]? =
    some (if h : i < acc.length then acc[acc.length - 1 - i] else 0)
  out : Peaks (lastTen acc) s.lastOutput

theorem ring_new : Ring (Filter.new : Filter V) [] where
  len := by simp [Filter.new]
  ptr := rfl
  get := by
    intro i hi
    have : (0 + 10 - i) % 10 < 10 := Nat.mod_lt _ (by decide)
    simp only [Filter.new, List.length_nil, Nat.not_lt_zero, dite_false]
    rw [List.getElem?_replicate, if_pos this]
  out := peaks_nil

theorem mem_lastTen {acc : List V} {x : V} :
    x ∈ lastTen acc ↔ ∃ i, ∃ h : i < acc.length, i < 10 ∧ acc[acc.length - 1 - i] = x := by
  unfold lastTen
  rw [List.mem_iff_getElem]
  constructor
  · rintro ⟨j, hj, e⟩
    rw [List.length_drop] at hj
    rw [List.getElem_drop] at e
    refine ⟨acc.length - 1 - (acc.length - 10 + j), by omega, by omega, ?_⟩
    rw [← e]
    congr 1
    omega
  · rintro ⟨i, h, hi, e⟩
    refine ⟨acc.length - 1 - i - (acc.length - 10), by rw [List.length_drop]; omega, ?_⟩
    rw [List.getElem_drop, ← e]
    congr 1
    omega

theorem ring_mem {s : Filter V} {acc : List V} (hl : s.buffer.length = 10)
    (hg : ∀ i, i < 10 → s.buffer[(acc.length + 10 - i) % 10]? =
      some (if h : i < acc.length then acc[acc.length - 1 - i] else 0)) :
    (∀ x ∈ s.buffer, x = 0 ∨ x ∈ lastTen acc) ∧ ∀ x ∈ lastTen acc, x = 0 ∨ x ∈ s.buffer := by
  constructor
  · intro x hx
    obtain ⟨j, hj, e⟩ := List.mem_iff_getElem.1 hx
    rw [hl] at hj
    have := hg ((acc.length + 10 - j) % 10) (Nat.mod_lt _ (by decide))
    have hidx : (acc.length + 10 - (acc.length + 10 - j) % 10) % 10 = j := by omega
    rw [hidx, List.getElem?_eq_getElem (by omega), e] at this
    have := Option.some.inj this
    split at this
    · rename_i hlt
      right
      rw [mem_lastTen]
      exact ⟨_, hlt, Nat.mod_lt _ (by decide), this.symm⟩
    · exact .inl this
  · intro x hx
    obtain ⟨i, h, hi, e⟩ := mem_lastTen.1 hx
    have := hg i hi
    rw [dif_pos h, e] at this
    exact .inr (List.mem_of_getElem? this)

theorem ring_get {s : Filter V} {acc : List V} (hs : Ring s acc) (b : Bool) (v : V) :
    Ring (s.get b v).2 (if s.recalcState = b then acc else acc ++ [v]) ∧ (s.get b v).2.recalcState = b ∧
    (s.get b v).1 = (s.get b v).2.lastOutput := by
  unfold Filter.get
  by_cases hb : s.recalcState = b
  · rw [if_neg (not_not.2 hb), if_pos hb]
    exact ⟨hs, hb, rfl⟩
  · rw [if_pos hb, if_neg hb]
    refine ⟨?_, rfl, rfl⟩
    have hl : (s.buffer.set ((s.writePtr + 1) % s.buffer.length) v).length = 10 := by rw [List.length_set, hs.len]
    have hg : ∀ i, i < 10 → (s.buffer.set ((s.writePtr + 1) % s.buffer.length) v)[((acc ++ [v]).length + 10 - i) % 10]? =
        some (if h : i < (acc ++ [v]).length then (acc ++ [v])[(acc ++ [v]).length - 1 - i] else 0) := by
      intro i hi
      rw [hs.len, hs.ptr, List.getElem?_set]
      have hlen : (acc ++ [v]).length = acc.length + 1 := by simp
      by_cases h0 : i = 0
      · subst h0
        rw [if_pos (by rw [hlen]; omega), if_pos (by rw [hs.len]; omega), dif_pos (by simp)]
        simp
      · rw [if_neg (by rw [hlen]; omega)]
        have := hs.get (i - 1) (by omega)
        rw [show (acc.length + 10 - (i - 1)) % 10 = ((acc ++ [v]).length + 10 - i) % 10 by rw [hlen]; congr 1; omega] at this
        rw [this]
        congr 1
        by_cases hlt : i - 1 < acc.length
        · rw [dif_pos hlt, dif_pos (by rw [hlen]; omega), List.getElem_append_left]
          · congr 1
            rw [hlen]
            omega
          · rw [hlen]; omega
        · rw [dif_neg hlt, dif_neg (by rw [hlen]; omega)]
    refine ⟨hl, ?_, hg, ?_⟩
    · simp only [hs.len, hs.ptr, List.length_append, List.length_singleton]
      omega
    · obtain ⟨m1, m2⟩ := ring_mem (s := { s with buffer := s.buffer.set ((s.writePtr + 1) % s.buffer.length) v }) hl hg
      have hp := peaks_fold (s.buffer.set ((s.writePtr + 1) % s.buffer.length) v) (0, 0) [] peaks_nil
      rw [List.nil_append] at hp
      exact peaks_congr hp m1 m2

/-! ## C27 -/

theorem flips_append {α : Type} (cs : List (Bool × α)) : ∀ (b c : Bool) (v : α),
    flips b (cs ++ [(c, v)]) = flips b cs ++ (if (cs.getLast?.map Prod.fst).getD b = c then [] else [v]) := by
  induction cs with
  | nil => intro b c v; by_cases h : b = c <;> simp [flips, h]
  | cons x cs ih =>
    intro b c v
    obtain ⟨d, u⟩ := x
    rw [List.cons_append]
    simp only [flips]
    have hl : ((((d, u) :: cs).getLast?).map Prod.fst).getD b = ((cs.getLast?).map Prod.fst).getD d := by
      cases cs with
      | nil => rfl
      | cons y ys => simp [List.getLast?_cons]
    rw [hl, ih d c v]
    split <;> simp

/-- The filter after any history of calls. -/
theorem filter_run (cs : List (Bool × V)) :
    Ring ((Filter.new : Filter V).run cs) (flips false cs) ∧
    ((Filter.new : Filter V).run cs).recalcState = (cs.getLast?.map Prod.fst).getD false := by
  induction cs using List.reverseRecOn with
  | nil => exact ⟨ring_new, rfl⟩
  | append_singleton cs x ih =>
    obtain ⟨b, v⟩ := x
    obtain ⟨h1, h2, _⟩ := ring_get ih.1 b v
    have e : (Filter.new : Filter V).run (cs ++ [(b, v)]) = (((Filter.new : Filter V).run cs).get b v).2 := by
      simp [Filter.run, List.foldl_append]
    rw [e]
    refine ⟨?_, by simpa using h2⟩
    rw [flips_append, ← ih.2]
    by_cases hb : ((Filter.new : Filter V).run cs).recalcState = b
    · rw [if_pos hb] at h1 ⊢; simpa using h1
    · rw [if_neg hb] at h1 ⊢; exact h1

/-- **C27** After any history of calls, a call whose bit differs from that of the call before answers with the
peaks of the last ten samples handed in by such calls, this one included; any other call answers as if it
had not been made. -/
theorem filter_reports_peaks (cs : List (Bool × V)) (b : Bool) (v : V) :
    Peaks (lastTen (flips false (cs ++ [(b, v)]))) (((Filter.new : Filter V).run cs).get b v).1 := by
  obtain ⟨h, _⟩ := filter_run (cs ++ [(b, v)])
  have e : (Filter.new : Filter V).run (cs ++ [(b, v)]) = (((Filter.new : Filter V).run cs).get b v).2 := by
    simp [Filter.run, List.foldl_append]
  rw [e] at h
  rw [(ring_get (filter_run cs).1 b v).2.2]
  exact h.out

/-- The bits alternate, beginning with `b`. -/
def Alternating {α : Type} : Bool → List (Bool × α) → Prop
  | _, [] => True
  | b, (c, _) :: cs => c = b ∧ Alternating (!b) cs

theorem flips_alternating {α : Type} (cs : List (Bool × α)) : ∀ b, Alternating (!b) cs → flips b cs = cs.map Prod.snd := by
  induction cs with
  | nil => intro b _; rfl
  | cons x cs ih =>
    rintro b ⟨h1, h2⟩
    obtain ⟨c, v⟩ := x
    simp only at h1
    subst h1
    simp only [flips, List.map_cons]
    rw [if_neg (by cases b <;> decide), ih _ h2]

/-- **C27** If the bit flips with every call, beginning with `true`, the answer covers the last ten samples. -/
theorem filter_alternating (cs : List (Bool × V)) (b : Bool) (v : V) (h : Alternating true (cs ++ [(b, v)])) :
    Peaks (lastTen (cs.map Prod.snd ++ [v])) (((Filter.new : Filter V).run cs).get b v).1 := by
  have := filter_reports_peaks cs b v
  rw [flips_alternating _ false h] at this
  simpa using this

/-- Eleven calls with alternating bits: the first sample (9) is no longer in the window. -/
example : Alternating true [(true, (9 : Int)), (false, -3), (true, 2)] ∧
    ((Filter.new : Filter Int).run [(true, 9), (false, -3), (true, 2)]).lastOutput = (3, 9) ∧
    (((Filter.new : Filter Int).run [(true, 9), (false, -3), (true, 2), (false, 1), (true, 1), (false, 1), (true, 1), (false, 1),
      (true, 1), (false, -2)]).get true 4).1 = (3, 4) := by
  refine ⟨?_, by decide, by decide⟩
  simp [Alternating]

/-! ## C28 -/

/-- What holds for the filter of one key: it is the one of its own taken samples, and its bit tells whether the
next request will be taken. -/
def KeyInv (s : Feedback N V) (k : Key N) (acc : List V) (odd : Bool) : Prop :=
  Ring ((s.filters k).getD Filter.new) acc ∧ (odd = true ↔ ((s.filters k).getD Filter.new).recalcState ≠ s.recalcState)

theorem taken_append (k : Key N) (ops : List (Op N V)) : ∀ (odd : Bool) (ops' : List (Op N V)),
    ∃ odd', taken k odd (ops ++ ops') = taken k odd ops ++ taken k odd' ops' ∧
      ∀ ops'', taken k odd (ops ++ ops'') = taken k odd ops ++ taken k odd' ops'' := by
  induction ops with
  | nil => intro odd ops'; exact ⟨odd, rfl, fun _ => rfl⟩
  | cons op ops ih =>
    intro odd ops'
    cases op with
    | trigger =>
      obtain ⟨o, h1, h2⟩ := ih (!odd) ops'
      exact ⟨o, h1, h2⟩
    | get k' v =>
      by_cases hk : k' = k
      · obtain ⟨o, h1, h2⟩ := ih false ops'
        refine ⟨o, ?_, fun ops'' => ?_⟩
        · simp only [List.cons_append, taken, if_pos hk, h1]; split <;> simp
        · simp only [List.cons_append, taken, if_pos hk, h2]; split <;> simp
      · obtain ⟨o, h1, h2⟩ := ih odd ops'
        refine ⟨o, ?_, fun ops'' => ?_⟩
        · simp only [List.cons_append, taken, if_neg hk, h1]
        · simp only [List.cons_append, taken, if_neg hk, h2]

theorem keyInv_get {s : Feedback N V} {k : Key N} {acc : List V} {odd : Bool} (h : KeyInv s k acc odd) (v : V) :
    KeyInv (s.get k v).2 k (if odd then acc ++ [v] else acc) false ∧
    Peaks (lastTen (if odd then acc ++ [v] else acc)) (s.get k v).1 := by
  obtain ⟨h1, h2⟩ := h
  obtain ⟨r1, r2, r3⟩ := ring_get h1 s.recalcState v
  have e : (if ((s.filters k).getD Filter.new).recalcState = s.recalcState then acc else acc ++ [v]) =
      (if odd then acc ++ [v] else acc) := by
    cases odd with
    | true => rw [if_neg (h2.1 rfl), if_pos rfl]
    | false =>
      have : ((s.filters k).getD Filter.new).recalcState = s.recalcState := by
        by_contra hc; exact absurd (h2.2 hc) (by decide)
      rw [if_pos this]; simp
  rw [e] at r1
  refine ⟨⟨?_, ?_⟩, ?_⟩
  · simp only [Feedback.get, if_true, Option.getD_some]; exact r1
  · simp only [Feedback.get, if_true, Option.getD_some, r2]; simp
  · show Peaks _ (Filter.get _ _ _).1
    rw [r3]; exact r1.out

theorem keyInv_run (k : Key N) (ops : List (Op N V)) : ∀ (s : Feedback N V) (acc : List V) (odd : Bool), KeyInv s k acc odd →
    ∃ odd', KeyInv (s.run ops) k (acc ++ taken k odd ops) odd' ∧
      ∀ ops', taken k odd (ops ++ ops') = taken k odd ops ++ taken k odd' ops' := by
  induction ops with
  | nil => intro s acc odd h; exact ⟨odd, by simpa [taken, Feedback.run] using h, fun _ => rfl⟩
  | cons op ops ih =>
    intro s acc odd h
    cases op with
    | trigger =>
      have h' : KeyInv s.trigger k acc (!odd) := by
        refine ⟨h.1, ?_⟩
        have := h.2
        simp only [Feedback.trigger]
        cases odd <;> cases hs : s.recalcState <;> cases hf : ((s.filters k).getD Filter.new).recalcState <;> simp_all
      obtain ⟨o, a1, a2⟩ := ih _ _ _ h'
      exact ⟨o, a1, a2⟩
    | get k' v =>
      by_cases hk : k' = k
      · subst hk
        obtain ⟨o, a1, a2⟩ := ih _ _ _ (keyInv_get h v).1
        refine ⟨o, ?_, ?_⟩
        · have e : (if odd then acc ++ [v] else acc) ++ taken k' false ops = acc ++ taken k' odd (.get k' v :: ops) := by
            simp only [taken, if_true]; split <;> simp
          rw [← e]; exact a1
        · intro ops'
          simp only [List.cons_append, taken, if_true, a2]
          split <;> simp
      · have h' : KeyInv (s.get k' v).2 k acc odd := by
          unfold KeyInv
          simp only [Feedback.get, if_neg (Ne.symm hk)]
          exact h
        obtain ⟨o, a1, a2⟩ := ih _ _ _ h'
        refine ⟨o, ?_, ?_⟩
        · simp only [taken, if_neg hk]; exact a1
        · intro ops'
          simp only [List.cons_append, taken, if_neg hk, a2]

theorem keyInv_new (k : Key N) : KeyInv (Feedback.new : Feedback N V) k [] true :=
  ⟨ring_new, by simp [Feedback.new, Filter.new]⟩

/-- **C28** The answer to any request: the peaks of the last ten samples of this key that were taken over, this one
included. What was requested for other nodes and outputs plays no part. -/
theorem display_value (ops : List (Op N V)) (k : Key N) (v : V) :
    Peaks (lastTen (taken k true (ops ++ [.get k v]))) (((Feedback.new : Feedback N V).run ops).get k v).1 := by
  obtain ⟨o, h1, h2⟩ := keyInv_run k ops _ _ _ (keyInv_new (V := V) k)
  have := (keyInv_get h1 v).2
  rw [h2]
  simp only [taken, if_true]
  rw [List.nil_append] at this
  cases o <;> simpa using this

/-- The history with all requests for other keys left out. -/
def only (k : Key N) (ops : List (Op N V)) : List (Op N V) :=
  ops.filter (fun op => match op with | .trigger => true | .get k' _ => decide (k' = k))

/-- **C28** The answers for one key do not depend on the requests for others. -/
theorem display_independent (ops : List (Op N V)) (k : Key N) (v : V) :
    (((Feedback.new : Feedback N V).run ops).get k v).1 = (((Feedback.new : Feedback N V).run (only k ops)).get k v).1 := by
  have key : ∀ (ops : List (Op N V)) (odd : Bool) (tl : List (Op N V)),
      taken k odd (ops ++ tl) = taken k odd (only k ops ++ tl) := by
    intro ops
    induction ops with
    | nil => intro odd tl; rfl
    | cons op ops ih =>
      intro odd tl
      cases op with
      | trigger => simpa [only, taken] using ih (!odd) tl
      | get k' u =>
        by_cases hk : k' = k
        · have := ih false tl
          simp [only, taken, hk] at this ⊢
          rw [this]
        · have := ih odd tl
          simp [only, taken, hk] at this ⊢
          exact this
  have h1 := display_value ops k v
  have h2 := display_value (only k ops) k v
  rw [key ops true] at h1
  exact peaks_unique h1 h2

/-- **C28** Within one frame every further request for the same key gives the same answer, whatever its sample and
whatever else is requested in between. -/
theorem same_frame_same_answer (ops mid : List (Op N V)) (hm : SameFrame mid) (k : Key N) (v v' : V) :
    (((Feedback.new : Feedback N V).run (ops ++ .get k v :: mid)).get k v').1 =
      (((Feedback.new : Feedback N V).run ops).get k v).1 := by
  have h1 := display_value (ops ++ .get k v :: mid) k v'
  have h2 := display_value ops k v
  have key : ∀ (mid : List (Op N V)), SameFrame mid → taken k false (mid ++ [.get k v']) = [] := by
    intro mid
    induction mid with
    | nil => intro _; simp [taken]
    | cons op mid ih =>
      intro h
      cases op with
      | trigger => exact absurd (List.mem_cons_self) h
      | get k' u =>
        have := ih (fun hc => h (List.mem_cons_of_mem _ hc))
        simp only [List.cons_append, taken]
        split <;> simpa using this
  obtain ⟨o, _, g⟩ := taken_append k ops true ([] : List (Op N V))
  have e : taken k true (ops ++ .get k v :: mid ++ [.get k v']) = taken k true (ops ++ [.get k v]) := by
    rw [List.append_assoc, g, g]
    congr 1
    simp only [List.cons_append, taken, if_true, key mid hm]
  rw [e] at h1
  exact peaks_unique h1 h2

/-- A history of complete UI frames: each begins with `trigger_recalc` and contains at least one request for `k`;
`f` is the sample of the first request of each frame. -/
inductive Frames (k : Key N) : List (Op N V) → List V → Prop where
  | nil : Frames k [] []
  | frame {ops f} (v : V) (a b : List (Op N V)) : Frames k ops f → SameFrame a → SameFrame b → (∀ u, Op.get k u ∉ a) →
      Frames k (ops ++ .trigger :: a ++ .get k v :: b) (f ++ [v])

theorem taken_sameFrame_false (k : Key N) (b : List (Op N V)) (h : SameFrame b) : ∀ tl, taken k false (b ++ tl) = taken k false tl := by
  induction b with
  | nil => intro tl; rfl
  | cons op b ih =>
    intro tl
    cases op with
    | trigger => exact absurd (List.mem_cons_self) h
    | get k' u =>
      have := ih (fun hc => h (List.mem_cons_of_mem _ hc)) tl
      simp only [List.cons_append, taken]
      split <;> simpa using this

theorem taken_none (k : Key N) (a : List (Op N V)) (h : SameFrame a) (hk : ∀ u, Op.get k u ∉ a) :
    ∀ odd tl, taken k odd (a ++ tl) = taken k odd tl := by
  induction a with
  | nil => intro odd tl; rfl
  | cons op a ih =>
    intro odd tl
    cases op with
    | trigger => exact absurd (List.mem_cons_self) h
    | get k' u =>
      have hne : k' ≠ k := by rintro rfl; exact hk u List.mem_cons_self
      have := ih (fun hc => h (List.mem_cons_of_mem _ hc)) (fun u hc => hk u (List.mem_cons_of_mem _ hc)) odd tl
      simp only [List.cons_append, taken, if_neg hne, this]

theorem taken_frames {k : Key N} {ops : List (Op N V)} {f : List V} (h : Frames k ops f) :
    ∀ tl, taken k false (ops ++ tl) = f ++ taken k false tl := by
  induction h with
  | nil => intro tl; rfl
  | @frame ops f v a b _ ha hb hk ih =>
    intro tl
    rw [List.append_assoc, List.append_assoc, ih]
    simp only [List.cons_append, taken, Bool.not_false]
    rw [taken_none k a ha hk]
    simp only [taken, if_true]
    rw [taken_sameFrame_false k b hb]
    simp

theorem taken_before (k : Key N) (pre : List (Op N V)) : ∀ (odd : Bool) (tl : List (Op N V)), (∀ u, Op.get k u ∉ pre) →
    taken k odd (pre ++ tl) = taken k (if pre.count .trigger % 2 = 0 then odd else !odd) tl := by
  induction pre with
  | nil => intro odd tl _; rfl
  | cons op pre ih =>
    intro odd tl hc
    cases op with
    | trigger =>
      simp only [List.cons_append, taken]
      rw [ih (!odd) tl (fun u hh => hc u (List.mem_cons_of_mem _ hh))]
      rw [List.count_cons_self]
      congr 1
      rcases Nat.mod_two_eq_zero_or_one (pre.count .trigger) with hz | hz
      · rw [if_pos hz, if_neg (by omega)]
      · rw [if_neg (by omega), if_pos (by omega), Bool.not_not]
    | get k' u =>
      have hne : k' ≠ k := by rintro rfl; exact hc u List.mem_cons_self
      simp only [List.cons_append, taken, if_neg hne]
      rw [ih odd tl (fun u hh => hc u (List.mem_cons_of_mem _ hh)), List.count_cons_of_ne (by simp)]

/-- **C28** If a key is requested in every frame from its first request on, every answer is the pair of peaks of the
last ten samples, one per frame. The first sample counts if it is requested in a frame with an even number
(counting from zero, as after start up), otherwise it is lost. -/
theorem every_frame_answer (pre a fr : List (Op N V)) (k : Key N) (v0 v : V) (f : List V)
    (hpre : ∀ u, Op.get k u ∉ pre) (hfr : Frames k fr f) (ha : SameFrame a) :
    Peaks (lastTen ((if pre.count .trigger % 2 = 0 then [v0] else []) ++ f ++ [v]))
      (((Feedback.new : Feedback N V).run (pre ++ .get k v0 :: a ++ fr ++ [.trigger])).get k v).1 := by
  have h := display_value (pre ++ .get k v0 :: a ++ fr ++ [.trigger]) k v
  have e : taken k true (pre ++ .get k v0 :: a ++ fr ++ [.trigger] ++ [.get k v]) =
      (if pre.count .trigger % 2 = 0 then [v0] else []) ++ f ++ [v] := by
    rw [List.append_assoc, List.append_assoc, List.append_assoc, taken_before k pre true _ hpre]
    by_cases heven : pre.count .trigger % 2 = 0
    · rw [if_pos heven, if_pos heven]
      simp only [List.cons_append, taken, if_true]
      rw [taken_sameFrame_false k a ha, taken_frames hfr]
      simp [taken]
    · rw [if_neg heven, if_neg heven]
      simp only [List.cons_append, taken, if_true, Bool.not_true]
      simp only [Bool.false_eq_true, if_false]
      rw [taken_sameFrame_false k a ha, taken_frames hfr]
      simp [taken]
  rw [e] at h
  exact h

/-- **C28** (negation of a stronger claim) A key that is requested in every second frame only never shows anything but
its first sample. -/
theorem every_second_frame_frozen (k : Key N) (v0 v : V) (vs : List V) :
    (((Feedback.new : Feedback N V).run (.get k v0 :: (vs.flatMap (fun u => [.trigger, .trigger, .get k u])) ++
      [.trigger, .trigger])).get k v).1 = (((Feedback.new : Feedback N V).run []).get k v0).1 := by
  have h1 := display_value (.get k v0 :: (vs.flatMap (fun u => [.trigger, .trigger, .get k u])) ++ [.trigger, .trigger]) k v
  have h2 := display_value [] k v0
  have key : ∀ vs : List V, taken k false (vs.flatMap (fun u => [Op.trigger, .trigger, .get k u]) ++ [.trigger, .trigger] ++ [.get k v]) = [] := by
    intro vs
    induction vs with
    | nil => simp [taken]
    | cons u vs ih => simpa [taken] using ih
  have e : taken k true (.get k v0 :: (vs.flatMap (fun u => [.trigger, .trigger, .get k u])) ++ [.trigger, .trigger] ++ [.get k v]) =
      taken k true ([] ++ [.get k v0]) := by
    simp only [List.cons_append, List.nil_append, taken, if_true]
    rw [key]
  rw [e] at h1
  exact peaks_unique h1 h2

/-- **C28** (negation of a stronger claim) A key whose first request happens in an odd frame is answered with zero there,
whatever the sample. -/
theorem first_request_in_odd_frame_zero (k : Key N) (v : V) :
    (((Feedback.new : Feedback N V).run [.trigger]).get k v).1 = (0, 0) := by
  have h := display_value [.trigger] k v
  have e : taken k true ([.trigger] ++ [Op.get k v]) = [] := by simp [taken]
  rw [e] at h
  exact peaks_unique h peaks_nil

/-- A concrete history: two keys, three frames. -/
example : Frames (.led 1) ([] ++ .trigger :: [.get (.out 1 0) 7] ++ .get (.led 1) (-5 : Int) :: [.get (.led 1) 99]) [-5] ∧
    (((Feedback.new : Feedback Nat Int).run ([.get (.led 1) 3, .trigger, .get (.out 1 0) 7, .get (.led 1) (-5), .get (.led 1) 99,
      .trigger])).get (.led 1) 2).1 = (5, 3) :=
  ⟨.frame (-5) [.get (.out 1 0) 7] [.get (.led 1) 99] .nil (by simp [SameFrame]) (by simp [SameFrame]) (by simp), by decide⟩

end HexoDSP.VisualProps
