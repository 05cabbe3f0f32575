import Verif.Lemmas.TrackerFlow
import Mathlib.Order.Lattice.Nat
/-!
# The tracker (C31, C32, C33, C34, C57, C58)
-/

set_option linter.unusedSectionVars false

namespace HexoDSP.TrackerProps
open HexoDSP.Tracker HexoDSP.TrackerSpec

/-! ## C31: edits of cell values -/

theorem getCellValue_set {p : PatternData} {row col v : Nat} (hr : row < 256) (hc : col < 6) :
    (p.setCellValue row col v).getCellValue row col = v := by
  unfold PatternData.setCellValue PatternData.getCellValue PatternData.modifiedCol
  simp [Nat.not_le_of_lt hr, Nat.not_le_of_lt hc, hc, upd2]

theorem data_set {p : PatternData} {row col v r c : Nat} (h : ¬(r = row ∧ c = col)) :
    (p.setCellValue row col v).data r c = p.data r c := by
  unfold PatternData.setCellValue PatternData.modifiedCol
  split
  · rfl
  · split
    · rfl
    · split <;> simp only [upd2, if_neg h]

theorem asU16_clamped (s : Int) : asU16 (min (max s 0) 0xFFF) = (min (max s 0) 0xFFF).toNat := by
  unfold asU16
  congr 1
  omega

/-- **C31** Whatever the cell holds and whatever the offset: the value stored by `change_value` is between 0 and 0xFFF, and no other
cell changes (in builds with and without overflow checks). -/
theorem change_value_in_range {checked : Bool} {p p' : PatternData} {row col : Nat} {offs : Int} (hr : row < 256) (hc : col < 6)
    (h : p.changeValue checked row col offs = some p') :
    p'.getCellValue row col ≤ 0xFFF ∧ ∀ r c, ¬(r = row ∧ c = col) → p'.data r c = p.data r c := by
  unfold PatternData.changeValue at h
  split at h
  · cases h
  · obtain rfl := Option.some.inj h
    refine ⟨?_, fun r c hn => data_set hn⟩
    rw [getCellValue_set hr hc, asU16_clamped]
    omega

/-- **C31** For a cell of at most 12 bit and an offset of at most 28672 the result is the clamped sum. -/
theorem change_value_clamps_partial (checked : Bool) (p : PatternData) (row col : Nat) (offs : Int) (hr : row < 256) (hc : col < 6)
    (hv : p.getCellValue row col ≤ 0xFFF) (h1 : -32768 ≤ offs) (h2 : offs ≤ 28672) :
    ∃ p', p.changeValue checked row col offs = some p' ∧
      (p'.getCellValue row col : Int) = min (max ((p.getCellValue row col : Int) + offs) 0) 0xFFF := by
  have ha : asI16 (p.getCellValue row col) = p.getCellValue row col := by unfold asI16; omega
  unfold PatternData.changeValue addI16
  rw [ha, if_pos ⟨by omega, by omega⟩]
  refine ⟨_, rfl, ?_⟩
  rw [getCellValue_set hr hc, asU16_clamped]
  omega

/-- **C31** (negation) With a larger offset the sum overflows: a panic, or 0 where 0xFFF is expected. -/
theorem change_value_overflow :
    (((PatternData.new 256).setCellValue 0 0 1).changeValue true 0 0 32767).isNone = true ∧
    (((PatternData.new 256).setCellValue 0 0 1).changeValue false 0 0 32767).map (fun p => p.getCellValue 0 0) = some 0 := by
  constructor <;> decide +kernel

/-- All cells have at most 12 bit. -/
def TwelveBit (p : PatternData) : Prop := ∀ r c v, p.data r c = some v → v ≤ 0xFFF

/-- Only values of at most 12 bit are typed in or loaded. -/
def inputs12 (op : Op) : Prop :=
  match op with
  | .setCell _ _ v => v ≤ 0xFFF
  | .load repr => ∀ row ∈ repr.data, ∀ v ∈ row, v ≤ 0xFFF
  | _ => True

theorem twelve_set {p : PatternData} (h : TwelveBit p) {r c v : Nat} (hv : v ≤ 0xFFF) : TwelveBit (p.setCellValue r c v) := by
  intro r' c' v' h'
  unfold PatternData.setCellValue PatternData.modifiedCol at h'
  split at h'
  · exact h r' c' v' h'
  · split at h'
    · exact h r' c' v' h'
    · have : upd2 p.data r c (some v) r' c' = some v' := by split at h' <;> exact h'
      unfold upd2 at this
      split at this
      · rw [← Option.some.inj this]; exact hv
      · exact h r' c' v' this

theorem twelve_step {checked : Bool} {w w' : World} {op : Op} (h : TwelveBit w.pat) (hop : inputs12 op)
    (hs : w.step checked op = some w') : TwelveBit w'.pat := by
  cases op with
  | setCell r c v => rw [← Option.some.inj hs]; exact twelve_set h hop
  | clearCell r c =>
    rw [← Option.some.inj hs]
    intro r' c' v' h'
    simp only [PatternData.clearCell, PatternData.modifiedCol] at h'
    split at h'
    · exact h r' c' v' h'
    · split at h'
      · exact h r' c' v' h'
      · have : upd2 w.pat.data r c none r' c' = some v' := by split at h' <;> exact h'
        unfold upd2 at this
        split at this
        · cases this
        · exact h r' c' v' this
  | changeValue r c o =>
    simp only [World.step] at hs
    cases hv : w.pat.changeValue checked r c o with
    | none => rw [hv] at hs; cases hs
    | some p =>
      rw [hv] at hs
      rw [← Option.some.inj hs]
      unfold PatternData.changeValue at hv
      split at hv
      · cases hv
      · rw [← Option.some.inj hv]
        refine twelve_set h ?_
        rw [asU16_clamped]; omega
  | setColType c t =>
    rw [← Option.some.inj hs]
    intro r' c' v' h'
    simp only [PatternData.setColType, PatternData.modifiedCol] at h'
    split at h'
    · exact h r' c' v' h'
    · split at h' <;> exact h r' c' v' h'
  | setRows n => rw [← Option.some.inj hs]; exact h
  | setCursor r c => rw [← Option.some.inj hs]; exact h
  | setEditStep n => rw [← Option.some.inj hs]; exact h
  | load repr =>
    simp only [World.step] at hs
    cases hv : w.pat.fromRepr repr with
    | none => rw [hv] at hs; cases hs
    | some p =>
      rw [hv] at hs
      rw [← Option.some.inj hs]
      unfold PatternData.fromRepr at hv
      split at hv
      · rw [← Option.some.inj hv]
        intro r' c' v' h'
        simp only at h'
        split at h'
        · exact h r' c' v' h'
        · next row hrow =>
          split at h'
          · exact h r' c' v' h'
          · next x hx =>
            have := hop row (List.mem_of_getElem? hrow) x (List.mem_of_getElem? hx)
            unfold cellOfRepr at h'
            split at h'
            · cases h'
            · rw [← Option.some.inj h']; omega
      · cases hv
  | getCell r c =>
    rw [← Option.some.inj hs]
    intro r' c' v' h'
    simp only [PatternData.getCell] at h'
    split at h'
    · exact h r' c' v' h'
    · split at h'
      · exact h r' c' v' h'
      · split at h'
        · exact h r' c' v' h'
        · split at h' <;> exact h r' c' v' h'
  | send =>
    simp only [World.step, World.sendOneUpdate] at hs
    have key : ∀ (l : List Nat) (x : Bool × World), w.sendFrom l = some x → x.2.pat.data = w.pat.data := by
      intro l
      induction l with
      | nil => intro x hx; rw [← Option.some.inj hx]
      | cons col cols ih =>
        intro x hx
        rw [World.sendFrom] at hx
        split at hx
        · simp only at hx
          split at hx
          · cases hx
          · next p hp =>
            rw [← Option.some.inj hx]
            simp only
            unfold PatternData.syncOutData at hp
            split at hp
            · cases hp
            · split at hp
              · rw [← Option.some.inj hp]
              · simp only at hp
                split at hp
                · simp only [Option.map_eq_some_iff] at hp
                  obtain ⟨_, _, rfl⟩ := hp; rfl
                · rw [← Option.some.inj hp]
                · rw [← Option.some.inj hp]
                · rw [← Option.some.inj hp]
        · exact ih x hx
    cases hx : w.sendFrom (List.range 6) with
    | none => rw [hx] at hs; cases hs
    | some x =>
      rw [hx] at hs
      rw [← Option.some.inj hs]
      intro r' c' v' h'
      rw [key _ x hx] at h'
      exact h r' c' v' h'
  | poll =>
    simp only [World.step, World.checkUpdates] at hs
    split at hs
    · split at hs
      · split at hs
        · cases hs
        · rw [← Option.some.inj hs]; exact h
      · cases hs
    · rw [← Option.some.inj hs]; exact h
  | getBackend => rw [← Option.some.inj hs]; exact h

/-- **C31** In every history in which only values of at most 12 bit are entered, all cells keep at most 12 bit. -/
theorem cells_stay_12_bit {checked : Bool} : ∀ (ops : List Op) (w w' : World), TwelveBit w.pat → (∀ op ∈ ops, inputs12 op) →
    w.run checked ops = some w' → TwelveBit w'.pat
  | [], w, w', h, _, hr => by rw [← Option.some.inj hr]; exact h
  | op :: ops, w, w', h, hop, hr => by
    rw [World.run] at hr
    cases hs : w.step checked op with
    | none => rw [hs] at hr; cases hr
    | some w1 =>
      rw [hs, Option.bind_some] at hr
      exact cells_stay_12_bit ops w1 w' (twelve_step h (hop op List.mem_cons_self) hs) (fun o ho => hop o (List.mem_cons_of_mem _ ho)) hr

example : TwelveBit World.new.pat ∧ (∀ op ∈ [Op.setCell 3 1 0xFF0, .changeValue 3 1 100], inputs12 op) ∧
    (World.new.run true [Op.setCell 3 1 0xFF0, .changeValue 3 1 100]).map (fun w => w.pat.getCellValue 3 1) = some 0xFFF := by
  refine ⟨fun r c v h => absurd h (by simp [World.new, PatternData.new]), ?_, by decide +kernel⟩
  intro op h
  simp only [List.mem_cons, List.not_mem_nil, or_false] at h
  rcases h with rfl | rfl
  · exact (by omega : (0xFF0 : Nat) ≤ 0xFFF)
  · trivial

/-! ## C32: representation -/

theorem code_ofCode (t : ColType) : ColType.ofCode t.code = t := by cases t <;> rfl

/-- **C32** Loading the representation of `p` into any pattern `q` reproduces the cells, the column types, the number of rows, the
edit step and the cursor. (The cells are 16 bit numbers.) -/
theorem pattern_round_trip (p q : PatternData) (h16 : ∀ r c v, p.data r c = some v → v < 65536) :
    ∃ q', q.fromRepr p.toRepr = some q' ∧ (∀ r c, r < 256 → c < 6 → q'.data r c = p.data r c) ∧
      (∀ c, c < 6 → q'.colTypes c = p.colTypes c) ∧ q'.rows = p.rows ∧ q'.editStep = p.editStep ∧ q'.cursor = p.cursor ∧
      (∀ r c, q'.getCellValue r c = p.getCellValue r c) := by
  have hlen : p.toRepr.data.length = 256 := by simp [PatternData.toRepr]
  have hall : p.toRepr.data.all (fun row => decide (row.length ≤ 6)) = true := by
    simp [PatternData.toRepr]
  have hcell : ∀ r c, r < 256 → c < 6 → (p.toRepr.data[r]?).bind (fun row => row[c]?) =
      some (match p.data r c with | some v => (v : Int) | none => -1) := by
    intro r c hr hc
    simp only [PatternData.toRepr, List.getElem?_map, List.getElem?_range hr, List.getElem?_range hc, Option.map_some, Option.bind_some]
    rfl
  have hdata : ∀ r c, r < 256 → c < 6 → (match p.toRepr.data[r]? with
      | none => q.data r c
      | some row =>
        match row[c]? with
        | none => q.data r c
        | some v => cellOfRepr v) = p.data r c := by
    intro r c hr hc
    have := hcell r c hr hc
    cases h1 : p.toRepr.data[r]? with
    | none => rw [h1] at this; cases this
    | some row =>
      rw [h1, Option.bind_some] at this
      simp only [this]
      cases h2 : p.data r c with
      | none => rfl
      | some v =>
        have := h16 r c v h2
        have h3 : ¬ (v : Int) < 0 := by omega
        have h4 : ((v : Int) % 65536).toNat = v := by omega
        simp only [cellOfRepr, if_neg h3, h4]
  unfold PatternData.fromRepr
  rw [if_pos ⟨by omega, hall⟩]
  refine ⟨_, rfl, hdata, ?_, rfl, rfl, rfl, ?_⟩
  · intro c hc
    simp only [dif_pos hc, PatternData.toRepr, code_ofCode]
  · intro r c
    unfold PatternData.getCellValue
    split
    · rfl
    · split
      · rfl
      · exact congrArg (fun o => o.getD 0) (hdata r c (by omega) (by omega))

example : ∀ r c v, ((PatternData.new 16).setCellValue 3 1 0xABC).data r c = some v → v < 65536 := by
  intro r c v h
  simp only [PatternData.setCellValue, PatternData.modifiedCol, PatternData.new] at h
  norm_num [upd2] at h
  omega

/-! ## C57: the shown text -/

/-- Texts in the cache show the stored values. -/
def TextOk (p : PatternData) : Prop := ∀ r c s, p.strings r c = some s → p.data r c = some s

theorem text_set {p : PatternData} (h : TextOk p) (r c v : Nat) : TextOk (p.setCellValue r c v) := by
  unfold PatternData.setCellValue PatternData.modifiedCol
  split
  · exact h
  · split
    · exact h
    · next h1 h2 =>
      simp only [if_pos (Nat.lt_of_not_le h2)]
      intro r' c' s hs
      simp only [upd2] at hs ⊢
      split at hs
      · cases hs
      · next hn => rw [if_neg hn]; exact h r' c' s hs

theorem text_step {checked : Bool} {w w' : World} {op : Op} (h : TextOk w.pat) (hop : ∀ repr, op ≠ .load repr)
    (hs : w.step checked op = some w') : TextOk w'.pat := by
  have sync : ∀ p p' : PatternData, ∀ col, p.syncOutData col = some p' → p'.strings = p.strings ∧ p'.data = p.data := by
    intro p p' col hp
    unfold PatternData.syncOutData at hp
    split at hp
    · cases hp
    · split at hp
      · rw [← Option.some.inj hp]; exact ⟨rfl, rfl⟩
      · simp only at hp
        split at hp
        · simp only [Option.map_eq_some_iff] at hp
          obtain ⟨_, _, rfl⟩ := hp; exact ⟨rfl, rfl⟩
        · rw [← Option.some.inj hp]; exact ⟨rfl, rfl⟩
        · rw [← Option.some.inj hp]; exact ⟨rfl, rfl⟩
        · rw [← Option.some.inj hp]; exact ⟨rfl, rfl⟩
  cases op with
  | setCell r c v => rw [← Option.some.inj hs]; exact text_set h r c v
  | clearCell r c =>
    rw [← Option.some.inj hs]
    simp only [PatternData.clearCell, PatternData.modifiedCol]
    split
    · exact h
    · split
      · exact h
      · next h1 h2 =>
        simp only [if_pos (Nat.lt_of_not_le h2)]
        intro r' c' s hs
        simp only [upd2] at hs ⊢
        split at hs
        · cases hs
        · next hn => rw [if_neg hn]; exact h r' c' s hs
  | changeValue r c o =>
    simp only [World.step] at hs
    cases hv : w.pat.changeValue checked r c o with
    | none => rw [hv] at hs; cases hs
    | some p =>
      rw [hv] at hs
      rw [← Option.some.inj hs]
      obtain ⟨v, rfl⟩ := changeValue_eq hv
      exact text_set h r c v
  | setColType c t =>
    rw [← Option.some.inj hs]
    simp only [PatternData.setColType, PatternData.modifiedCol]
    split
    · exact h
    · split <;> exact h
  | setRows n => rw [← Option.some.inj hs]; exact h
  | setCursor r c => rw [← Option.some.inj hs]; exact h
  | setEditStep n => rw [← Option.some.inj hs]; exact h
  | load repr => exact absurd rfl (hop repr)
  | getCell r c =>
    rw [← Option.some.inj hs]
    simp only [PatternData.getCell]
    split
    · exact h
    · split
      · exact h
      · split
        · exact h
        · split
          · next v hv =>
            intro r' c' s hs
            simp only [upd2] at hs ⊢
            split at hs
            · next hn => rw [hn.1, hn.2, hv, ← Option.some.inj hs]
            · exact h r' c' s hs
          · exact h
  | send =>
    simp only [World.step, World.sendOneUpdate] at hs
    have key : ∀ (l : List Nat) (x : Bool × World), w.sendFrom l = some x → x.2.pat.data = w.pat.data ∧ x.2.pat.strings = w.pat.strings := by
      intro l
      induction l with
      | nil => intro x hx; rw [← Option.some.inj hx]; exact ⟨rfl, rfl⟩
      | cons col cols ih =>
        intro x hx
        rw [World.sendFrom] at hx
        split at hx
        · simp only at hx
          split at hx
          · cases hx
          · next p hp =>
            rw [← Option.some.inj hx]
            have := sync _ _ _ hp
            exact ⟨this.2, this.1⟩
        · exact ih x hx
    cases hx : w.sendFrom (List.range 6) with
    | none => rw [hx] at hs; cases hs
    | some x =>
      rw [hx] at hs
      rw [← Option.some.inj hs]
      obtain ⟨h1, h2⟩ := key _ x hx
      intro r' c' s hs
      rw [h1]; rw [h2] at hs
      exact h r' c' s hs
  | poll =>
    simp only [World.step, World.checkUpdates] at hs
    split at hs
    · split at hs
      · split at hs
        · cases hs
        · rw [← Option.some.inj hs]; exact h
      · cases hs
    · rw [← Option.some.inj hs]; exact h
  | getBackend => rw [← Option.some.inj hs]; exact h

theorem text_run {checked : Bool} : ∀ (ops : List Op) (w w' : World), TextOk w.pat → (∀ op ∈ ops, ∀ repr, op ≠ .load repr) →
    w.run checked ops = some w' → TextOk w'.pat
  | [], w, w', h, _, hr => by rw [← Option.some.inj hr]; exact h
  | op :: ops, w, w', h, hop, hr => by
    rw [World.run] at hr
    cases hs : w.step checked op with
    | none => rw [hs] at hr; cases hr
    | some w1 =>
      rw [hs, Option.bind_some] at hr
      exact text_run ops w1 w' (text_step h (hop op List.mem_cons_self) hs) (fun o ho => hop o (List.mem_cons_of_mem _ ho)) hr

/-- No text is cached. -/
theorem nocache_run {checked : Bool} : ∀ (ops : List Op) (w w' : World), (∀ r c, w.pat.strings r c = none) →
    (∀ op ∈ ops, ∀ r c, op ≠ .getCell r c) → w.run checked ops = some w' → ∀ r c, w'.pat.strings r c = none
  | [], w, w', h, _, hr => by rw [← Option.some.inj hr]; exact h
  | op :: ops, w, w', h, hop, hr => by
    rw [World.run] at hr
    cases hs : w.step checked op with
    | none => rw [hs] at hr; cases hr
    | some w1 =>
      rw [hs, Option.bind_some] at hr
      refine nocache_run ops w1 w' ?_ (fun o ho => hop o (List.mem_cons_of_mem _ ho)) hr
      by_cases hld : ∃ repr, op = .load repr
      · obtain ⟨repr, rfl⟩ := hld
        simp only [World.step] at hs
        cases hv : w.pat.fromRepr repr with
        | none => rw [hv] at hs; cases hs
        | some p =>
          rw [hv] at hs
          rw [← Option.some.inj hs]
          unfold PatternData.fromRepr at hv
          split at hv
          · rw [← Option.some.inj hv]; exact h
          · cases hv
      · intro r c
        -- the cache is empty, so every text in it afterwards would have to come from `get_cell`
        have hset : ∀ (p : PatternData) (r' c' v : Nat), (∀ r c, p.strings r c = none) → ∀ r c, (p.setCellValue r' c' v).strings r c = none := by
          intro p r' c' v hp r c
          unfold PatternData.setCellValue PatternData.modifiedCol
          split
          · exact hp r c
          · split
            · exact hp r c
            · split <;> (simp only [upd2]; split <;> [rfl; exact hp r c])
        cases op with
        | setCell r' c' v => rw [← Option.some.inj hs]; exact hset _ _ _ _ h r c
        | clearCell r' c' =>
          rw [← Option.some.inj hs]
          simp only [PatternData.clearCell, PatternData.modifiedCol]
          split
          · exact h r c
          · split
            · exact h r c
            · split <;> (simp only [upd2]; split <;> [rfl; exact h r c])
        | changeValue r' c' o =>
          simp only [World.step] at hs
          cases hv : w.pat.changeValue checked r' c' o with
          | none => rw [hv] at hs; cases hs
          | some p =>
            rw [hv] at hs
            rw [← Option.some.inj hs]
            obtain ⟨v, rfl⟩ := changeValue_eq hv
            exact hset _ _ _ _ h r c
        | setColType c' t =>
          rw [← Option.some.inj hs]
          simp only [PatternData.setColType, PatternData.modifiedCol]
          split
          · exact h r c
          · split <;> exact h r c
        | setRows n => rw [← Option.some.inj hs]; exact h r c
        | setCursor r' c' => rw [← Option.some.inj hs]; exact h r c
        | setEditStep n => rw [← Option.some.inj hs]; exact h r c
        | load repr => exact absurd ⟨repr, rfl⟩ hld
        | getCell r' c' => exact absurd rfl (hop _ List.mem_cons_self r' c')
        | send =>
          simp only [World.step, World.sendOneUpdate] at hs
          have key : ∀ (l : List Nat) (x : Bool × World), w.sendFrom l = some x → x.2.pat.strings = w.pat.strings := by
            intro l
            induction l with
            | nil => intro x hx; rw [← Option.some.inj hx]
            | cons col cols ih =>
              intro x hx
              rw [World.sendFrom] at hx
              split at hx
              · simp only at hx
                split at hx
                · cases hx
                · next p hp =>
                  rw [← Option.some.inj hx]
                  unfold PatternData.syncOutData at hp
                  split at hp
                  · cases hp
                  · split at hp
                    · rw [← Option.some.inj hp]
                    · simp only at hp
                      split at hp
                      · simp only [Option.map_eq_some_iff] at hp
                        obtain ⟨_, _, rfl⟩ := hp; rfl
                      · rw [← Option.some.inj hp]
                      · rw [← Option.some.inj hp]
                      · rw [← Option.some.inj hp]
              · exact ih x hx
          cases hx : w.sendFrom (List.range 6) with
          | none => rw [hx] at hs; cases hs
          | some x =>
            rw [hx] at hs
            rw [← Option.some.inj hs, key _ x hx]
            exact h r c
        | poll =>
          simp only [World.step, World.checkUpdates] at hs
          split at hs
          · split at hs
            · split at hs
              · cases hs
              · rw [← Option.some.inj hs]; exact h r c
            · cases hs
          · rw [← Option.some.inj hs]; exact h r c
        | getBackend => rw [← Option.some.inj hs]; exact h r c

/-- **C57** If no pattern is loaded after cells have been shown, the text shown for a cell is that of the stored value. -/
theorem text_is_value_partial {checked : Bool} (pre post : List Op) (w : World) (h1 : ∀ op ∈ pre, ∀ r c, op ≠ .getCell r c)
    (h2 : ∀ op ∈ post, ∀ repr, op ≠ .load repr) (hr : World.new.run checked (pre ++ post) = some w) (r c : Nat) (hr' : r < 256) (hc : c < 6) :
    (w.pat.getCell r c).1 = w.pat.data r c := by
  rw [run_append] at hr
  cases h3 : World.new.run checked pre with
  | none => rw [h3] at hr; cases hr
  | some w1 =>
    rw [h3, Option.bind_some] at hr
    have hn := nocache_run pre World.new w1 (fun _ _ => rfl) h1 h3
    have ht := text_run post w1 w (fun r c s hs => by rw [hn r c] at hs; cases hs) h2 hr
    unfold PatternData.getCell
    rw [if_neg (by omega), if_neg (by omega)]
    cases hs : w.pat.strings r c with
    | some s => simp only [ht r c s hs]
    | none =>
      simp only
      cases hd : w.pat.data r c <;> simp only

/-- **C57** (negation) After loading another pattern the text of a cell shown before stays: here the cell holds 2 and shows 1. -/
theorem stale_text_after_load (checked : Bool) :
    ∃ w, World.new.run checked [.setCell 0 0 1, .getCell 0 0, .load ((PatternData.new 256).setCellValue 0 0 2).toRepr] = some w ∧
      w.pat.getCellValue 0 0 = 2 ∧ (w.pat.getCell 0 0).1 = some 1 := by
  obtain ⟨q', h1, h2, _⟩ := pattern_round_trip ((PatternData.new 256).setCellValue 0 0 2)
    ((World.new.pat.setCellValue 0 0 1).getCell 0 0).2 (by
      intro r c v h
      simp only [PatternData.setCellValue, PatternData.modifiedCol, PatternData.new] at h
      norm_num [upd2] at h
      omega)
  refine ⟨{ World.new with pat := q' }, ?_, ?_, ?_⟩
  · simp only [World.run, World.step, Option.bind_some]
    rw [h1]; rfl
  · unfold PatternData.getCellValue
    rw [h2 0 0 (by omega) (by omega)]; rfl
  · have : q'.strings = ((World.new.pat.setCellValue 0 0 1).getCell 0 0).2.strings := by
      unfold PatternData.fromRepr at h1
      split at h1
      · rw [← Option.some.inj h1]
      · cases h1
    unfold PatternData.getCell
    simp only [this]
    rfl

/-! ## C34: compilation of the columns -/

/-- **C34** For every pattern of 1 to 256 rows compiling a column succeeds, changes only the compiled signal of that column, and that
signal is the one the column type stands for. -/
theorem columns_compile (p : PatternData) (col : Nat) (hc : col < 6) (h0 : p.rows ≠ 0) (h : p.rows ≤ 256) :
    ∃ o, p.syncOutData col = some { p with outData := upd p.outData col o } ∧
      Sounds (p.colTypes col) p.rows (fun r => p.data r col) o :=
  sync_sounds p col hc h0 h

theorem fixed_below {rows : Nat} {cell : Nat → Option Nat} : ∀ (r : Nat), 0 < r →
    ∃ a qa, a < r ∧ fixedAt rows cell a = some qa ∧ ∀ i, a < i → i < r → fixedAt rows cell i = none
  | 0, h => absurd h (by omega)
  | 1, _ => by
    cases hf : fixedAt rows cell 0 with
    | some q => exact ⟨0, q, by omega, hf, by intro i a b; omega⟩
    | none =>
      unfold fixedAt at hf
      split at hf
      · cases hf
      · rw [if_pos (Or.inl rfl)] at hf; cases hf
  | r + 2, _ => by
    cases hf : fixedAt rows cell (r + 1) with
    | some q => exact ⟨r + 1, q, by omega, hf, by intro i a b; omega⟩
    | none =>
      obtain ⟨a, qa, h1, h2, h3⟩ := fixed_below (rows := rows) (cell := cell) (r + 1) (by omega)
      refine ⟨a, qa, by omega, h2, ?_⟩
      intro i x y
      rcases Nat.lt_or_ge i (r + 1) with h | h
      · exact h3 i x h
      · obtain rfl : i = r + 1 := by omega
        exact hf

theorem fixed_above {rows : Nat} {cell : Nat → Option Nat} : ∀ (k r : Nat), r + k + 2 = rows →
    ∃ b qb, r < b ∧ b < rows ∧ fixedAt rows cell b = some qb ∧ ∀ i, r < i → i < b → fixedAt rows cell i = none
  | 0, r, h => by
    cases hf : fixedAt rows cell (r + 1) with
    | some q => exact ⟨r + 1, q, by omega, by omega, hf, by intro i a b; omega⟩
    | none =>
      unfold fixedAt at hf
      split at hf
      · cases hf
      · rw [if_pos (Or.inr (by omega))] at hf; cases hf
  | k + 1, r, h => by
    cases hf : fixedAt rows cell (r + 1) with
    | some q => exact ⟨r + 1, q, by omega, by omega, hf, by intro i a b; omega⟩
    | none =>
      obtain ⟨b, qb, h1, h2, h3, h4⟩ := fixed_above (rows := rows) (cell := cell) k (r + 1) (by omega)
      refine ⟨b, qb, by omega, h2, h3, ?_⟩
      intro i x y
      rcases Nat.lt_or_ge (r + 1) i with h | h
      · exact h4 i h y
      · obtain rfl : i = r + 1 := by omega
        exact hf

theorem lastSet_or_none (cell : Nat → Option Nat) : ∀ (r : Nat), (∃ s v, LastSet cell r s v) ∨ NoneSet cell r
  | 0 => by
    cases h : cell 0 with
    | some v => exact Or.inl ⟨0, v, Nat.le_refl 0, h, by intro i a b; omega⟩
    | none => right; intro i hi; obtain rfl : i = 0 := by omega
              exact h
  | r + 1 => by
    cases h : cell (r + 1) with
    | some v => exact Or.inl ⟨r + 1, v, Nat.le_refl _, h, by intro i a b; omega⟩
    | none =>
      rcases lastSet_or_none cell r with ⟨s, v, h1, h2, h3⟩ | hn
      · left
        refine ⟨s, v, by omega, h2, ?_⟩
        intro i a b
        rcases Nat.lt_or_ge i (r + 1) with h' | h'
        · exact h3 i a (by omega)
        · obtain rfl : i = r + 1 := by omega
          exact h
      · right
        intro i hi
        rcases Nat.lt_or_ge i (r + 1) with h' | h'
        · exact hn i (by omega)
        · obtain rfl : i = r + 1 := by omega
          exact h

/-- **C34** The specification leaves nothing open: the signal in the rows of the pattern is determined by the cells. -/
theorem sounds_unique {t : ColType} {rows : Nat} {cell : Nat → Option Nat} {s1 s2 : Nat → OutCell} (hr : rows ≤ 256)
    (h1 : Sounds t rows cell s1) (h2 : Sounds t rows cell s2) (r : Nat) (h : r < rows) : s1 r = s2 r := by
  have hold : ∀ conv, Holds conv cell s1 → Holds conv cell s2 → s1 r = s2 r := by
    intro conv a b
    refine Prod.ext ?_ ?_
    · rcases lastSet_or_none cell r with ⟨s, v, hs⟩ | hn
      · rw [a.held r s v (by omega) hs, b.held r s v (by omega) hs]
      · rw [a.before r (by omega) hn, b.before r (by omega) hn]
    · cases hc : cell r with
      | some v => rw [a.gateOn r v (by omega) hc, b.gateOn r v (by omega) hc]
      | none => rw [a.gateOff r (by omega) hc, b.gateOff r (by omega) hc]
  cases t with
  | step => exact hold _ h1 h2
  | note => exact hold _ h1 h2
  | value =>
    refine Prod.ext ?_ (by rw [h1.gate r h, h2.gate r h])
    cases hf : fixedAt rows cell r with
    | some q => rw [h1.fixed r q h hf, h2.fixed r q h hf]
    | none =>
      have h0 : r ≠ 0 ∧ r + 1 ≠ rows := by
        unfold fixedAt at hf
        split at hf
        · cases hf
        · constructor
          · rintro rfl; rw [if_pos (Or.inl rfl)] at hf; cases hf
          · intro he; rw [if_pos (Or.inr he)] at hf; cases hf
      obtain ⟨a, qa, a1, a2, a3⟩ := fixed_below (rows := rows) (cell := cell) r (by omega)
      obtain ⟨b, qb, b1, b2, b3, b4⟩ := fixed_above (rows := rows) (cell := cell) (rows - r - 2) r (by omega)
      have hb : ∀ i, a < i → i < b → fixedAt rows cell i = none := by
        intro i x y
        rcases Nat.lt_trichotomy i r with h' | rfl | h'
        · exact a3 i x h'
        · exact hf
        · exact b4 i h' y
      rw [h1.line a b qa qb r a1 b1 b2 a2 b3 hb, h2.line a b qa qb r a1 b1 b2 a2 b3 hb]
  | gate =>
    cases hc : cell r with
    | some v => rw [h1.on r v (by omega) hc, h2.on r v (by omega) hc]
    | none => rw [h1.off r (by omega) hc, h2.off r (by omega) hc]

/-- A value column of 5 rows with 0xFFF in row 2: it rises to 1 and falls to 0, with the gate in the last row. -/
def exValue : PatternData := ((PatternData.new 256).setRows 5).setCellValue 2 0 0xFFF

example : exValue.rows ≠ 0 ∧ exValue.rows ≤ 256 ∧ exValue.colTypes 0 = .value ∧
    (exValue.syncOutData 0).map (fun p => (List.range 5).map (p.outData 0)) =
      some [(.num 0, 0), (.num (1 / 2), 0), (.num 1, 0), (.num (1 / 2), 0), (.num 0, 1)] := by
  refine ⟨by decide, by decide, rfl, by decide +kernel⟩

/-! ## C33: edits arrive -/

/-- Updates left to send. -/
def pending (w : World) : Nat := (List.range 6).countP (fun c => w.pat.dirty c)

theorem countP_upd {f : Nat → Bool} {d : Nat} (hf : f d = true) : ∀ (l : List Nat), d ∈ l →
    l.countP (fun c => upd f d false c) + 1 ≤ l.countP (fun c => f c)
  | [], h => by cases h
  | x :: l, h => by
    have mono : ∀ (l : List Nat), l.countP (fun c => upd f d false c) ≤ l.countP (fun c => f c) := by
      intro l
      refine List.countP_mono_left ?_
      intro c _ hc
      unfold upd at hc
      split at hc
      · cases hc
      · exact hc
    by_cases hx : x = d
    · subst hx
      rw [List.countP_cons, List.countP_cons]
      have := mono l
      simp only [upd, if_true, hf]
      simp only [upd] at this
      simpa using this
    · rw [List.countP_cons, List.countP_cons]
      have := countP_upd hf l (by rcases List.mem_cons.1 h with h | h; exact absurd h.symm hx; exact h)
      have e : upd f d false x = f x := by simp [upd, hx]
      rw [e]
      omega

theorem recent_sends (b : Bool) (c : Nat) (h : List Op) : ∀ n, recent b c (List.replicate n Op.send ++ h) = recent b c h
  | 0 => rfl
  | n + 1 => by rw [List.replicate_succ, List.cons_append]; simp only [recent, touches]; exact recent_sends b c h n

theorem recent_polls (b : Bool) (c : Nat) (h : List Op) : ∀ n, recent b c (List.replicate n Op.poll ++ h) = recent b c h
  | 0 => rfl
  | n + 1 => by rw [List.replicate_succ, List.cons_append]; simp only [recent, touches]; exact recent_polls b c h n

/-- The displayed pattern and the presence of a sequencer are the same. -/
structure SameShown (w w' : World) : Prop where
  data : w'.pat.data = w.pat.data
  types : w'.pat.colTypes = w.pat.colTypes
  rows : w'.pat.rows = w.pat.rows
  back : w'.backend.isSome = w.backend.isSome

theorem flush_sends {b checked : Bool} : ∀ (n : Nat) (w : World) (h : List Op), Inv b w h → pending w ≤ n → w.queue.length + n ≤ 64 →
    ∃ w', w.run checked (List.replicate n .send) = some w' ∧ Inv b w' (List.replicate n .send ++ h) ∧
      (∀ c, c < 6 → w'.pat.dirty c = false) ∧ SameShown w w' ∧ w'.queue.length ≤ w.queue.length + n
  | 0, w, h, hi, hp, _ => by
    refine ⟨w, rfl, hi, ?_, ⟨rfl, rfl, rfl, rfl⟩, by omega⟩
    intro c hc
    unfold pending at hp
    have := List.countP_eq_zero.1 (Nat.le_zero.1 hp) c (List.mem_range.2 hc)
    simpa using this
  | n + 1, w, h, hi, hp, hq => by
    have step : ∀ w1, w.sendOneUpdate.map Prod.snd = some w1 → Inv b w1 (.send :: h) := by
      intro w1 h1
      exact inv_step (checked := checked) hi h1 (fun _ h => by cases h) (fun _ => ⟨fun _ h => (by cases h), fun h => (by cases h)⟩) (fun _ => by omega)
    have finish : ∀ w1, w.sendOneUpdate.map Prod.snd = some w1 → pending w1 ≤ n → SameShown w w1 → w1.queue.length ≤ w.queue.length + 1 →
        ∃ w', w.run checked (List.replicate (n + 1) .send) = some w' ∧ Inv b w' (List.replicate (n + 1) .send ++ h) ∧
          (∀ c, c < 6 → w'.pat.dirty c = false) ∧ SameShown w w' ∧ w'.queue.length ≤ w.queue.length + (n + 1) := by
      intro w1 h1 hp1 hs hq1
      obtain ⟨w', a1, a2, a3, a4, a5⟩ := flush_sends (checked := checked) n w1 (.send :: h) (step w1 h1) hp1 (by omega)
      refine ⟨w', ?_, ?_, a3, ⟨a4.data.trans hs.data, a4.types.trans hs.types, a4.rows.trans hs.rows, a4.back.trans hs.back⟩, by omega⟩
      · rw [List.replicate_succ, World.run, World.step, h1, Option.bind_some]; exact a1
      · rw [List.replicate_succ', List.append_assoc]; exact a2
    rcases sendFrom_spec w hi.rows (List.range 6) (fun c hc => List.mem_range.1 hc) with ⟨h1, h2⟩ | ⟨d, o, h1, h2, _, h3⟩
    · refine finish w (by rw [World.sendOneUpdate, h1]; rfl) ?_ ⟨rfl, rfl, rfl, rfl⟩ (by omega)
      have : pending w = 0 := by
        unfold pending
        rw [List.countP_eq_zero]
        intro c hc; simp [h2 c hc]
      omega
    · have h4 := congrArg (Option.map Prod.snd) h3
      refine finish _ h4 ?_ ⟨rfl, rfl, rfl, rfl⟩ ?_
      · have := countP_upd h2 (List.range 6) h1
        unfold pending at hp ⊢
        simp only
        omega
      · simp only
        split
        · rw [List.length_append]; simp
        · omega

theorem flush_polls {b checked : Bool} : ∀ (n : Nat) (w : World) (h : List Op), Inv b w h → w.backend.isSome = true → w.queue.length ≤ n →
    ∃ w', w.run checked (List.replicate n .poll) = some w' ∧ Inv b w' (List.replicate n .poll ++ h) ∧ w'.pat = w.pat ∧
      w'.backend.isSome = true ∧ w'.queue = []
  | 0, w, h, hi, hb, hq => ⟨w, rfl, hi, rfl, hb, List.eq_nil_of_length_eq_zero (by omega)⟩
  | n + 1, w, h, hi, hb, hq => by
    have step : ∀ w1, w.checkUpdates.map Prod.snd = some w1 → Inv b w1 (.poll :: h) := by
      intro w1 h1
      exact inv_step (checked := checked) hi h1 (fun _ h => by cases h) (fun _ => ⟨fun _ h => (by cases h), fun h => (by cases h)⟩) (fun h => by cases h)
    have finish : ∀ w1, w.checkUpdates.map Prod.snd = some w1 → w1.backend.isSome = true → w1.queue.length ≤ n → w1.pat = w.pat →
        ∃ w', w.run checked (List.replicate (n + 1) .poll) = some w' ∧ Inv b w' (List.replicate (n + 1) .poll ++ h) ∧ w'.pat = w.pat ∧
          w'.backend.isSome = true ∧ w'.queue = [] := by
      intro w1 h1 hb1 hq1 hp1
      obtain ⟨w', a1, a2, a3, a4, a5⟩ := flush_polls (checked := checked) n w1 (.poll :: h) (step w1 h1) hb1 hq1
      refine ⟨w', ?_, ?_, a3.trans hp1, a4, a5⟩
      · rw [List.replicate_succ, World.run, World.step, h1, Option.bind_some]; exact a1
      · rw [List.replicate_succ', List.append_assoc]; exact a2
    rcases checkUpdates_spec w hi.cols with ⟨h1, h2⟩ | ⟨bk, m, q, h1, h2, h3⟩
    · refine finish w (by rw [h1]; rfl) hb ?_ rfl
      rcases h2 with h2 | h2
      · rw [h2] at hb; cases hb
      · rw [h2]; simp
    · have h4 := congrArg (Option.map Prod.snd) h3
      refine finish _ h4 rfl ?_ rfl
      rw [h2] at hq
      simp only [List.length_cons] at hq ⊢
      omega

/-- The columns of the sequencer after the edits have stopped, six updates were sent and at least 64 were received. -/
theorem flush_all {b checked : Bool} (ops : List Op) (w : World) (hr : World.new.run checked ops = some w) (hl : okLoads ops)
    (hs : b = false → someRows ops) (hroom : Roomy checked ops) (hb : w.backend.isSome = true) (hq : w.queue.length ≤ 58)
    (n : Nat) (hn : 64 ≤ n) :
    ∃ w' bk, w.run checked (List.replicate 6 .send ++ List.replicate n .poll) = some w' ∧ w'.backend = some bk ∧ w'.queue = [] ∧
      w'.pat.data = w.pat.data ∧ w'.pat.colTypes = w.pat.colTypes ∧ w'.pat.rows = w.pat.rows ∧
      ∀ c, c < 6 → recent b c ops.reverse = true →
        (b = true → bk.seq.rows = w.pat.rows) ∧ bk.colTypes c = w.pat.colTypes c ∧
        (w.pat.rows ≠ 0 → (b = true ∨ w.pat.colTypes c ≠ .value) →
          Sounds (w.pat.colTypes c) w.pat.rows (fun r => w.pat.data r c) (bk.seq.data c)) := by
  have hi := inv_run (b := b) ops w hr hl hs hroom
  obtain ⟨w1, a1, a2, a3, a4, a5⟩ := flush_sends (checked := checked) 6 w _ hi (by unfold pending; exact List.countP_le_length.trans (by simp)) (by omega)
  obtain ⟨w2, b1, b2, b3, b4, b5⟩ := flush_polls (checked := checked) n w1 _ a2 (by rw [a4.back]; exact hb) (by omega)
  cases hbk : w2.backend with
  | none => rw [hbk] at b4; cases b4
  | some bk =>
    refine ⟨w2, bk, ?_, hbk, b5, ?_, ?_, ?_, ?_⟩
    · rw [run_append, a1, Option.bind_some]; exact b1
    · rw [b3]; exact a4.data
    · rw [b3]; exact a4.types
    · rw [b3]; exact a4.rows
    · intro c hc hrec
      have hrec' : recent b c (List.replicate n Op.poll ++ (List.replicate 6 Op.send ++ ops.reverse)) = true := by
        rw [recent_polls, recent_sends]; exact hrec
      have f := b2.flushed c hc hrec' (by rw [b3]; exact a3 c hc)
      have hd : drained w2 = bk := by unfold drained; rw [b5, hbk]; rfl
      rw [← a4.rows, ← a4.types, ← b3]
      refine ⟨fun hb => by rw [← hd]; exact f.rows hb, by rw [← hd]; exact f.type, ?_⟩
      intro h0 ht
      have := f.sounds h0 ht
      rw [← a4.data, ← b3]
      refine sounds_congr b2.rows (fun r hr => ?_) this
      rw [← hd]; exact f.data r hr

/-- **C33** For every interleaving of edits, updates and polls in which the queue has room: once edits stop and the updates are sent and
received, the sequencer has the number of rows shown and plays the cells shown, in every column changed since the last change of the number of
rows and the last re-creation of the sequencer. -/
theorem edits_arrive_partial (checked : Bool) (ops : List Op) (w : World) (hr : World.new.run checked ops = some w) (hl : okLoads ops)
    (hroom : Roomy checked ops) (hb : w.backend.isSome = true) (hq : w.queue.length ≤ 58) :
    ∃ w' bk, w.run checked (List.replicate 6 .send ++ List.replicate 64 .poll) = some w' ∧ w'.backend = some bk ∧
      w'.pat.data = w.pat.data ∧ w'.pat.colTypes = w.pat.colTypes ∧ w'.pat.rows = w.pat.rows ∧
      ∀ c, c < 6 → recent true c ops.reverse = true →
        bk.seq.rows = w.pat.rows ∧ bk.colTypes c = w.pat.colTypes c ∧
        (w.pat.rows ≠ 0 → Sounds (w.pat.colTypes c) w.pat.rows (fun r => w.pat.data r c) (bk.seq.data c)) := by
  obtain ⟨w', bk, h1, h2, _, h3, h4, h5, h6⟩ := flush_all (b := true) ops w hr hl (fun h => by cases h) hroom hb hq 64 (Nat.le_refl 64)
  refine ⟨w', bk, h1, h2, h3, h4, h5, ?_⟩
  intro c hc hrec
  obtain ⟨a, b, d⟩ := h6 c hc hrec
  exact ⟨a rfl, b, fun h0 => d h0 (Or.inl rfl)⟩

/-- **C33** For note, step and gate columns changes of the number of rows do not matter (as long as there is a row). -/
theorem held_columns_arrive_partial (checked : Bool) (ops : List Op) (w : World) (hr : World.new.run checked ops = some w) (hl : okLoads ops)
    (hs : someRows ops) (hroom : Roomy checked ops) (hb : w.backend.isSome = true) (hq : w.queue.length ≤ 58) :
    ∃ w' bk, w.run checked (List.replicate 6 .send ++ List.replicate 64 .poll) = some w' ∧ w'.backend = some bk ∧
      w'.pat.data = w.pat.data ∧ w'.pat.colTypes = w.pat.colTypes ∧ w'.pat.rows = w.pat.rows ∧
      ∀ c, c < 6 → recent false c ops.reverse = true → w.pat.colTypes c ≠ .value →
        bk.colTypes c = w.pat.colTypes c ∧
        Sounds (w.pat.colTypes c) w.pat.rows (fun r => w.pat.data r c) (bk.seq.data c) := by
  obtain ⟨w', bk, h1, h2, _, h3, h4, h5, h6⟩ := flush_all (b := false) ops w hr hl (fun _ => hs) hroom hb hq 64 (Nat.le_refl 64)
  refine ⟨w', bk, h1, h2, h3, h4, h5, ?_⟩
  intro c hc hrec ht
  obtain ⟨a, b, d⟩ := h6 c hc hrec
  exact ⟨b, d ((inv_run (b := false) ops w hr hl (fun _ => hs) hroom).rows0 rfl) (Or.inr ht)⟩

theorem queue_le_sends {checked : Bool} : ∀ (ops : List Op) (w w' : World), w.run checked ops = some w' →
    w'.queue.length ≤ w.queue.length + ops.countP (fun o => match o with | .send => true | _ => false)
  | [], w, w', h => by rw [← Option.some.inj h]; simp
  | op :: ops, w, w', h => by
    rw [World.run] at h
    cases hs : w.step checked op with
    | none => rw [hs] at h; cases h
    | some w1 =>
      rw [hs, Option.bind_some] at h
      have ih := queue_le_sends ops w1 w' h
      rw [List.countP_cons]
      cases op with
      | send =>
        have : w1.queue.length ≤ w.queue.length + 1 := by
          simp only [World.step, World.sendOneUpdate] at hs
          have key : ∀ (l : List Nat) (x : Bool × World), w.sendFrom l = some x → x.2.queue.length ≤ w.queue.length + 1 := by
            intro l
            induction l with
            | nil => intro x hx; rw [← Option.some.inj hx]; simp
            | cons col cols ih =>
              intro x hx
              rw [World.sendFrom] at hx
              split at hx
              · simp only at hx
                split at hx
                · cases hx
                · rw [← Option.some.inj hx]; simp only
                  split
                  · rw [List.length_append]; simp
                  · omega
              · exact ih x hx
          cases hx : w.sendFrom (List.range 6) with
          | none => rw [hx] at hs; cases hs
          | some x =>
            rw [hx] at hs
            rw [← Option.some.inj hs]
            exact key _ x hx
        simp only [if_true]
        omega
      | poll =>
        have : w1.queue.length ≤ w.queue.length := by
          simp only [World.step, World.checkUpdates] at hs
          split at hs
          · next hq =>
            split at hs
            · split at hs
              · cases hs
              · rw [← Option.some.inj hs, hq]; simp
            · cases hs
          · rw [← Option.some.inj hs]
        simp only [Bool.false_eq_true, if_false]
        omega
      | getBackend =>
        have : w1.queue.length ≤ w.queue.length := by
          rw [← Option.some.inj hs]
          simp only [World.getBackend]
          split
          · simp
          · exact Nat.le_refl _
        simp only [Bool.false_eq_true, if_false]
        omega
      | changeValue r c o =>
        have : w1.queue = w.queue := by
          simp only [World.step] at hs
          cases hv : w.pat.changeValue checked r c o with
          | none => rw [hv] at hs; cases hs
          | some p => rw [hv] at hs; rw [← Option.some.inj hs]
        simp only [Bool.false_eq_true, if_false]
        rw [this] at ih; omega
      | load repr =>
        have : w1.queue = w.queue := by
          simp only [World.step] at hs
          cases hv : w.pat.fromRepr repr with
          | none => rw [hv] at hs; cases hs
          | some p => rw [hv] at hs; rw [← Option.some.inj hs]
        simp only [Bool.false_eq_true, if_false]
        rw [this] at ih; omega
      | _ =>
        have : w1.queue = w.queue := by rw [← Option.some.inj hs]
        simp only [Bool.false_eq_true, if_false]
        rw [this] at ih; omega

theorem roomy_of_few {checked : Bool} {ops : List Op} (h : ops.countP (fun o => match o with | .send => true | _ => false) < 64) :
    Roomy checked ops := by
  intro a b w e hr
  have := queue_le_sends a World.new w hr
  rw [e, List.countP_append] at h
  have h0 : World.new.queue.length = 0 := rfl
  omega

/-- Column 1 is a value column with a cell in row 0 and the pattern gets 16, then 8 rows. -/
def exRows : List Op :=
  [.getBackend, .setRows 16, .setCell 0 1 0xFFF] ++ List.replicate 6 .send ++ List.replicate 6 .poll ++ [.setRows 8]

example : okLoads exRows ∧ Roomy true exRows ∧ recent true 0 exRows.reverse = true ∧ recent true 1 (exRows.dropLast).reverse = true ∧
    (World.new.run true exRows).map (fun w => (w.backend.isSome, w.queue.length)) = some (true, 0) := by
  refine ⟨?_, roomy_of_few (by decide), by decide, by decide, by decide +kernel⟩
  intro repr h
  simp [exRows, List.replicate] at h

/-- Runs two histories after each other and looks at the result. -/
def runCheck (ops flush : List Op) (P : World → Backend → Bool) : Bool :=
  match World.new.run true ops with
  | none => false
  | some w =>
    match w.run true flush with
    | none => false
    | some w' =>
      match w'.backend with
      | none => false
      | some bk => P w' bk

theorem runCheck_spec {ops flush : List Op} {P : World → Backend → Bool} (h : runCheck ops flush P = true) :
    ∃ w w' bk, World.new.run true ops = some w ∧ w.run true flush = some w' ∧ w'.backend = some bk ∧ P w' bk = true := by
  unfold runCheck at h
  split at h
  · cases h
  · next w hw =>
    split at h
    · cases h
    · next w' hw' =>
      split at h
      · cases h
      · next bk hbk => exact ⟨w, w', bk, hw, hw', hbk, h⟩

/-- **C33** (negation) A change of the number of rows marks only the first column: value columns keep the compiled signal of the old
length. After going from 16 to 8 rows and sending and receiving all updates, column 1 still falls to 0 in row 15 and has no gate in row 7. -/
theorem row_change_not_compiled :
    ∃ w w' bk, World.new.run true exRows = some w ∧
      w.run true (List.replicate 6 .send ++ List.replicate 64 .poll) = some w' ∧ w'.backend = some bk ∧
      w'.sendOneUpdate.map Prod.fst = some false ∧ w'.checkUpdates.map Prod.fst = some false ∧
      bk.seq.rows = 8 ∧ w'.pat.colTypes 1 = .value ∧ ¬ Sounds .value 8 (fun r => w'.pat.data r 1) (bk.seq.data 1) := by
  obtain ⟨w, w', bk, h1, h2, h3, h4⟩ := runCheck_spec (ops := exRows) (flush := List.replicate 6 .send ++ List.replicate 64 .poll)
    (P := fun w' bk => decide (w'.sendOneUpdate.map Prod.fst = some false) && decide (w'.checkUpdates.map Prod.fst = some false) &&
      decide (bk.seq.rows = 8) && decide (w'.pat.colTypes 1 = .value) && decide ((bk.seq.data 1 7).2 = 0)) (by decide +kernel)
  simp only [Bool.and_eq_true, decide_eq_true_eq] at h4
  obtain ⟨⟨⟨⟨a1, a2⟩, a3⟩, a4⟩, a5⟩ := h4
  refine ⟨w, w', bk, h1, h2, h3, a1, a2, a3, a4, ?_⟩
  intro hs
  have := hs.gate 7 (by omega)
  rw [a5] at this
  revert this
  decide

/-- A step column, sent and received; then the sequencer is created again. -/
def exAgain : List Op :=
  [.getBackend, .setColType 0 .step, .setCell 0 0 0xFFF] ++ List.replicate 6 .send ++ List.replicate 6 .poll ++ [.getBackend]

/-- **C33** (negation) A sequencer created again (a removed and re-inserted node) gets nothing: the pattern is shown with a cell that
is not played. -/
theorem new_sequencer_silent :
    ∃ w w' bk, World.new.run true exAgain = some w ∧
      w.run true (List.replicate 6 .send ++ List.replicate 64 .poll) = some w' ∧ w'.backend = some bk ∧
      w'.sendOneUpdate.map Prod.fst = some false ∧ w'.checkUpdates.map Prod.fst = some false ∧
      w'.pat.getCellValue 0 0 = 0xFFF ∧ bk.seq.data 0 0 = (.num 0, 0) ∧ bk.colTypes 0 = .value := by
  obtain ⟨w, w', bk, h1, h2, h3, h4⟩ := runCheck_spec (ops := exAgain) (flush := List.replicate 6 .send ++ List.replicate 64 .poll)
    (P := fun w' bk => decide (w'.sendOneUpdate.map Prod.fst = some false) && decide (w'.checkUpdates.map Prod.fst = some false) &&
      decide (w'.pat.getCellValue 0 0 = 0xFFF) && decide (bk.seq.data 0 0 = (.num 0, 0)) && decide (bk.colTypes 0 = .value)) (by decide +kernel)
  simp only [Bool.and_eq_true, decide_eq_true_eq] at h4
  obtain ⟨⟨⟨⟨a1, a2⟩, a3⟩, a4⟩, a5⟩ := h4
  exact ⟨w, w', bk, h1, h2, h3, a1, a2, a3, a4, a5⟩

/-- Sixty edits of one cell, each sent, and one more with another column type, while the audio thread does not run. -/
def exFull : List Op :=
  .getBackend :: (List.replicate 6 Op.send ++ (List.range 60).flatMap (fun i => [.setCell 0 0 i, .send]) ++
    [.setColType 0 .gate, .setCell 0 0 0xABC, .send])

/-- **C33** (negation) If 64 updates wait, a further one is lost and not sent again: the last edit never arrives. -/
theorem full_queue_loses_edit :
    ∃ w w' bk, World.new.run true exFull = some w ∧
      w.run true (List.replicate 64 .poll ++ List.replicate 6 .send ++ List.replicate 64 .poll) = some w' ∧ w'.backend = some bk ∧
      w'.pat.getCellValue 0 0 = 0xABC ∧ w'.pat.colTypes 0 = .gate ∧ bk.colTypes 0 = .value := by
  obtain ⟨w, w', bk, h1, h2, h3, h4⟩ := runCheck_spec (ops := exFull)
    (flush := List.replicate 64 .poll ++ List.replicate 6 .send ++ List.replicate 64 .poll)
    (P := fun w' bk => decide (w'.pat.getCellValue 0 0 = 0xABC) && decide (w'.pat.colTypes 0 = .gate) && decide (bk.colTypes 0 = .value))
    (by decide +kernel)
  simp only [Bool.and_eq_true, decide_eq_true_eq] at h4
  exact ⟨w, w', bk, h1, h2, h3, h4.1.1, h4.1.2, h4.2⟩

/-- **C33** (negation) A loaded pattern with more than 256 rows makes sending an update panic. -/
theorem too_many_rows_panic :
    (World.new.run true [.load { (PatternData.new 300).toRepr with rows := 300 }, .send]).isNone = true := by
  decide +kernel

/-! ## C58: the generation counter -/

/-- What the pattern editor shows. -/
structure Shown where
  data : Nat → Nat → Option Nat
  types : Nat → ColType
  rows : Nat
  cursor : Nat × Nat
  editStep : Nat

/-- What is shown of a pattern. -/
def shown (p : PatternData) : Shown := ⟨p.data, p.colTypes, p.rows, p.cursor, p.editStep⟩

/-- **C58** Every call that changes what the editor shows raises the generation number, and no call lowers it. -/
theorem generation_tracks_changes {checked : Bool} {w w' : World} {op : Op} (h : w.step checked op = some w') :
    w.pat.generation ≤ w'.pat.generation ∧ (shown w'.pat ≠ shown w.pat → w.pat.generation < w'.pat.generation) := by
  have refl : ∀ p : PatternData, shown p = shown w.pat → p.generation = w.pat.generation →
      w.pat.generation ≤ p.generation ∧ (shown p ≠ shown w.pat → w.pat.generation < p.generation) :=
    fun p h1 h2 => ⟨by omega, fun h => absurd h1 h⟩
  have up : ∀ p : PatternData, p.generation = w.pat.generation + 1 →
      w.pat.generation ≤ p.generation ∧ (shown p ≠ shown w.pat → w.pat.generation < p.generation) :=
    fun p h => ⟨by omega, fun _ => by omega⟩
  have set : ∀ r c v, (w.pat.setCellValue r c v) = w.pat ∨ (w.pat.setCellValue r c v).generation = w.pat.generation + 1 := by
    intro r c v
    unfold PatternData.setCellValue PatternData.modifiedCol
    split
    · exact Or.inl rfl
    · split
      · exact Or.inl rfl
      · right; split <;> rfl
  cases op with
  | setCell r c v =>
    rw [← Option.some.inj h]
    rcases set r c v with e | e
    · exact refl _ (by rw [e]) (by rw [e])
    · exact up _ e
  | clearCell r c =>
    rw [← Option.some.inj h]
    simp only [PatternData.clearCell, PatternData.modifiedCol]
    split
    · exact refl _ rfl rfl
    · split
      · exact refl _ rfl rfl
      · split <;> exact up _ rfl
  | changeValue r c o =>
    simp only [World.step] at h
    cases hv : w.pat.changeValue checked r c o with
    | none => rw [hv] at h; cases h
    | some p =>
      rw [hv] at h
      rw [← Option.some.inj h]
      obtain ⟨v, rfl⟩ := changeValue_eq hv
      rcases set r c v with e | e
      · exact refl _ (by rw [e]) (by rw [e])
      · exact up _ e
  | setColType c t =>
    rw [← Option.some.inj h]
    simp only [PatternData.setColType, PatternData.modifiedCol]
    split
    · exact refl _ rfl rfl
    · split <;> exact up _ rfl
  | setRows n => rw [← Option.some.inj h]; exact up _ rfl
  | setCursor r c => rw [← Option.some.inj h]; exact up _ rfl
  | setEditStep n => rw [← Option.some.inj h]; exact up _ rfl
  | load repr =>
    simp only [World.step] at h
    cases hv : w.pat.fromRepr repr with
    | none => rw [hv] at h; cases h
    | some p =>
      rw [hv] at h
      rw [← Option.some.inj h]
      unfold PatternData.fromRepr at hv
      split at hv
      · rw [← Option.some.inj hv]; exact up _ rfl
      · cases hv
  | getCell r c =>
    rw [← Option.some.inj h]
    simp only [PatternData.getCell]
    split
    · exact refl _ rfl rfl
    · split
      · exact refl _ rfl rfl
      · split
        · exact refl _ rfl rfl
        · split <;> exact refl _ rfl rfl
  | send =>
    simp only [World.step, World.sendOneUpdate] at h
    have key : ∀ (l : List Nat) (x : Bool × World), w.sendFrom l = some x → shown x.2.pat = shown w.pat ∧ x.2.pat.generation = w.pat.generation := by
      intro l
      induction l with
      | nil => intro x hx; rw [← Option.some.inj hx]; exact ⟨rfl, rfl⟩
      | cons col cols ih =>
        intro x hx
        rw [World.sendFrom] at hx
        split at hx
        · simp only at hx
          split at hx
          · cases hx
          · next p hp =>
            rw [← Option.some.inj hx]
            unfold PatternData.syncOutData at hp
            split at hp
            · cases hp
            · split at hp
              · rw [← Option.some.inj hp]; exact ⟨rfl, rfl⟩
              · simp only at hp
                split at hp
                · simp only [Option.map_eq_some_iff] at hp
                  obtain ⟨_, _, rfl⟩ := hp; exact ⟨rfl, rfl⟩
                · rw [← Option.some.inj hp]; exact ⟨rfl, rfl⟩
                · rw [← Option.some.inj hp]; exact ⟨rfl, rfl⟩
                · rw [← Option.some.inj hp]; exact ⟨rfl, rfl⟩
        · exact ih x hx
    cases hx : w.sendFrom (List.range 6) with
    | none => rw [hx] at h; cases h
    | some x =>
      rw [hx] at h
      rw [← Option.some.inj h]
      obtain ⟨h1, h2⟩ := key _ x hx
      exact refl _ h1 h2
  | poll =>
    simp only [World.step, World.checkUpdates] at h
    split at h
    · split at h
      · split at h
        · cases h
        · rw [← Option.some.inj h]; exact refl _ rfl rfl
      · cases h
    · rw [← Option.some.inj h]; exact refl _ rfl rfl
  | getBackend => rw [← Option.some.inj h]; exact refl _ rfl rfl

example : (World.new.step true (.setCell 1 1 5)).map (fun w => w.pat.generation) = some 1 := rfl

end HexoDSP.TrackerProps
