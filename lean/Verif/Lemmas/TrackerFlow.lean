import Verif.Lemmas.TrackerSync
import Mathlib.Data.List.Induction
/-!
# Edits on the way to the sequencer (for C33)
-/

set_option linter.unusedSectionVars false

namespace HexoDSP.TrackerProps
open HexoDSP.Tracker HexoDSP.TrackerSpec

theorem sounds_congr {t : ColType} {rows : Nat} {cell : Nat → Option Nat} {sig sig' : Nat → OutCell} (hr : rows ≤ 256)
    (h : ∀ r, r < 256 → sig' r = sig r) (hs : Sounds t rows cell sig) : Sounds t rows cell sig' := by
  have hh : ∀ conv, Holds conv cell sig → Holds conv cell sig' := by
    intro conv hs
    exact ⟨fun r s v a b => by rw [h r a]; exact hs.held r s v a b, fun r a b => by rw [h r a]; exact hs.before r a b,
      fun r v a b => by rw [h r a]; exact hs.gateOn r v a b, fun r a b => by rw [h r a]; exact hs.gateOff r a b⟩
  cases t with
  | note => exact hh _ hs
  | step => exact hh _ hs
  | value =>
    refine ⟨fun r q a b => ?_, fun a b qa qb r x y z u v w => ?_, fun r a => ?_⟩
    · rw [h r (by omega)]; exact hs.fixed r q a b
    · rw [h r (by omega)]; exact hs.line a b qa qb r x y z u v w
    · rw [h r (by omega)]; exact hs.gate r a
  | gate =>
    exact ⟨fun r v a b => by rw [h r a]; exact hs.on r v a b, fun r a b => by rw [h r a]; exact hs.off r a b⟩

theorem sounds_rows {t : ColType} (ht : t ≠ .value) {rows rows' : Nat} {cell : Nat → Option Nat} {sig : Nat → OutCell}
    (hs : Sounds t rows cell sig) : Sounds t rows' cell sig := by
  cases t with
  | value => exact absurd rfl ht
  | _ => exact hs

/-- One message applied. -/
def applyMsg (b : Backend) (m : Msg) : Backend :=
  { seq := { rows := m.patternLen, data := upd b.seq.data m.col (fun r => if r < 256 then m.data r else b.seq.data m.col r) },
    colTypes := upd b.colTypes m.col m.colType }

/-- The backend when all waiting messages have arrived. -/
def drained (w : World) : Backend :=
  w.queue.foldl applyMsg (w.backend.getD { seq := Sequencer.new 256, colTypes := fun _ => .value })

/-- Column `c` plays what is shown, once the waiting messages have arrived. -/
structure Flushed (b : Bool) (w : World) (c : Nat) : Prop where
  rows : b = true → (drained w).seq.rows = w.pat.rows
  type : (drained w).colTypes c = w.pat.colTypes c
  data : ∀ r, r < 256 → (drained w).seq.data c r = w.pat.outData c r
  sounds : w.pat.rows ≠ 0 → (b = true ∨ w.pat.colTypes c ≠ .value) →
    Sounds (w.pat.colTypes c) w.pat.rows (fun r => w.pat.data r c) (w.pat.outData c)

/-- The invariant of histories (`h`: latest call first). -/
structure Inv (b : Bool) (w : World) (h : List Op) : Prop where
  rows : w.pat.rows ≤ 256
  rows0 : b = false → w.pat.rows ≠ 0
  taken : w.taken = h.any isNewBackend
  backend : w.taken = false → w.backend = none
  cols : ∀ m ∈ w.queue, m.col < 6
  flushed : ∀ c, c < 6 → recent b c h = true → w.pat.dirty c = false → Flushed b w c

theorem inv_new (b : Bool) : Inv b World.new [] where
  rows := Nat.le_refl 256
  rows0 := by intro _; simp [World.new, PatternData.new]
  taken := rfl
  backend := fun _ => rfl
  cols := by intro m h; simp [World.new] at h
  flushed := by intro c _ _ h; simp [World.new, PatternData.new] at h

/-- An edit, seen from column `c`: the column is marked, or nothing about it changed. -/
structure Edit (p p' : PatternData) (c : Nat) : Prop where
  out : p'.outData = p.outData
  col : p'.dirty c = true ∨ (p'.dirty c = p.dirty c ∧ p'.colTypes c = p.colTypes c ∧ ∀ r, p'.data r c = p.data r c)

theorem edit_refl (p : PatternData) (c : Nat) : Edit p p c := ⟨rfl, Or.inr ⟨rfl, rfl, fun _ => rfl⟩⟩

theorem edit_setCell (p : PatternData) (r c' v c : Nat) : Edit p (p.setCellValue r c' v) c := by
  unfold PatternData.setCellValue
  split
  · exact edit_refl p c
  · split
    · exact edit_refl p c
    · next h1 h2 =>
      unfold PatternData.modifiedCol
      simp only [if_pos (Nat.lt_of_not_le h2)]
      refine ⟨rfl, ?_⟩
      by_cases hc : c = c'
      · left; simp [upd, hc]
      · right; refine ⟨by simp [upd, hc], rfl, fun i => by simp [upd2, hc]⟩

theorem edit_clearCell (p : PatternData) (r c' c : Nat) : Edit p (p.clearCell r c') c := by
  unfold PatternData.clearCell
  split
  · exact edit_refl p c
  · split
    · exact edit_refl p c
    · next h1 h2 =>
      unfold PatternData.modifiedCol
      simp only [if_pos (Nat.lt_of_not_le h2)]
      refine ⟨rfl, ?_⟩
      by_cases hc : c = c'
      · left; simp [upd, hc]
      · right; refine ⟨by simp [upd, hc], rfl, fun i => by simp [upd2, hc]⟩

theorem edit_setColType (p : PatternData) (c' : Nat) (t : ColType) (c : Nat) : Edit p (p.setColType c' t) c := by
  unfold PatternData.setColType
  split
  · exact edit_refl p c
  · next h2 =>
    unfold PatternData.modifiedCol
    simp only [if_pos (Nat.lt_of_not_le h2)]
    refine ⟨rfl, ?_⟩
    by_cases hc : c = c'
    · left; simp [upd, hc]
    · right; refine ⟨by simp [upd, hc], by simp [upd, hc], fun i => rfl⟩

theorem edit_setRows (p : PatternData) (n c : Nat) : Edit p (p.setRows n) c := by
  unfold PatternData.setRows PatternData.modifiedCol
  simp only [if_pos (show 0 < 6 by omega)]
  refine ⟨rfl, ?_⟩
  by_cases hc : c = 0
  · left; simp [upd, hc]
  · right; exact ⟨by simp [upd, hc], rfl, fun i => rfl⟩

theorem edit_getCell (p : PatternData) (r c' c : Nat) : Edit p (p.getCell r c').2 c := by
  unfold PatternData.getCell
  split
  · exact edit_refl p c
  · split
    · exact edit_refl p c
    · split
      · exact edit_refl p c
      · split
        · exact ⟨rfl, Or.inr ⟨rfl, rfl, fun _ => rfl⟩⟩
        · exact edit_refl p c

theorem rows_setCell (p : PatternData) (r c v : Nat) : (p.setCellValue r c v).rows = p.rows := by
  unfold PatternData.setCellValue PatternData.modifiedCol
  split
  · rfl
  · split
    · rfl
    · split <;> rfl

theorem rows_clearCell (p : PatternData) (r c : Nat) : (p.clearCell r c).rows = p.rows := by
  unfold PatternData.clearCell PatternData.modifiedCol
  split
  · rfl
  · split
    · rfl
    · split <;> rfl

theorem rows_setColType (p : PatternData) (c : Nat) (t : ColType) : (p.setColType c t).rows = p.rows := by
  unfold PatternData.setColType PatternData.modifiedCol
  split
  · rfl
  · split <;> rfl

theorem rows_setRows (p : PatternData) (n : Nat) : (p.setRows n).rows = min n 256 := by
  unfold PatternData.setRows PatternData.modifiedCol
  rfl

theorem rows_getCell (p : PatternData) (r c : Nat) : (p.getCell r c).2.rows = p.rows := by
  unfold PatternData.getCell
  split
  · rfl
  · split
    · rfl
    · split
      · rfl
      · split <;> rfl

theorem changeValue_eq {checked : Bool} {p p' : PatternData} {r c : Nat} {o : Int} (h : p.changeValue checked r c o = some p') :
    ∃ v, p' = p.setCellValue r c v := by
  unfold PatternData.changeValue at h
  split at h
  · cases h
  · exact ⟨_, (Option.some.inj h).symm⟩

theorem edit_fromRepr {p p' : PatternData} {repr : PatternRepr} (h : p.fromRepr repr = some p') (c : Nat) (hc : c < 6) :
    Edit p p' c ∧ p'.rows = repr.rows ∧ p'.dirty c = true := by
  unfold PatternData.fromRepr at h
  split at h
  · obtain rfl := Option.some.inj h
    exact ⟨⟨rfl, Or.inl (by simp [hc])⟩, rfl, by simp [hc]⟩
  · cases h

/-- Transfer along an edit that leaves queue and backend alone. -/
theorem flushed_edit {b : Bool} {w : World} {p' : PatternData} {c : Nat} (he : Edit w.pat p' c) (hd : p'.dirty c = false)
    (hrows : p'.rows = w.pat.rows ∨ (b = false ∧ w.pat.rows ≠ 0))
    (hf : w.pat.dirty c = false → Flushed b w c) : Flushed b { w with pat := p' } c := by
  rcases he.col with h | ⟨h1, h2, h3⟩
  · rw [h] at hd; cases hd
  · have f := hf (by rw [← h1]; exact hd)
    have hcell : (fun r => p'.data r c) = (fun r => w.pat.data r c) := funext h3
    refine ⟨?_, ?_, ?_, ?_⟩
    · intro hb
      rcases hrows with h | ⟨h, _⟩
      · rw [show (drained { w with pat := p' }) = drained w from rfl, f.rows hb]; exact h.symm
      · rw [h] at hb; cases hb
    · rw [show (drained { w with pat := p' }) = drained w from rfl, f.type]; exact h2.symm
    · intro r hr
      rw [show (drained { w with pat := p' }) = drained w from rfl, f.data r hr]
      simp only [he.out]
    · intro h0 hb
      simp only [h2, he.out, hcell] at hb ⊢
      rcases hrows with h | ⟨h, h'⟩
      · rw [h]; rw [show p'.rows = w.pat.rows from h] at h0; exact f.sounds h0 hb
      · have hnv : w.pat.colTypes c ≠ .value := by
          rcases hb with hb | hb
          · rw [h] at hb; cases hb
          · exact hb
        exact sounds_rows hnv (f.sounds h' (Or.inr hnv))

/-- `send_one_update`. -/
theorem sendFrom_spec (w : World) (hr : w.pat.rows ≤ 256) : ∀ (l : List Nat), (∀ c ∈ l, c < 6) →
    (w.sendFrom l = some (false, w) ∧ ∀ c ∈ l, w.pat.dirty c = false) ∨
    (∃ d o, d ∈ l ∧ w.pat.dirty d = true ∧
      (w.pat.rows ≠ 0 → Sounds (w.pat.colTypes d) w.pat.rows (fun r => w.pat.data r d) o) ∧
      w.sendFrom l = some (true, { w with
        pat := { w.pat with dirty := upd w.pat.dirty d false, outData := upd w.pat.outData d o },
        queue := if w.queue.length < 64 then w.queue ++ [⟨d, w.pat.colTypes d, w.pat.rows, o⟩] else w.queue }))
  | [], _ => Or.inl ⟨rfl, by simp⟩
  | col :: cols, hl => by
    rw [World.sendFrom]
    by_cases hd : w.pat.dirty col = true
    · right
      rw [if_pos hd]
      by_cases h0 : w.pat.rows = 0
      · refine ⟨col, w.pat.outData col, List.mem_cons_self, hd, fun h => absurd h0 h, ?_⟩
        have hu : upd w.pat.outData col (w.pat.outData col) = w.pat.outData := by
          funext i; unfold upd; split
          · next h => rw [h]
          · rfl
        unfold PatternData.syncOutData
        have hlt := hl col List.mem_cons_self
        simp only [if_neg (Nat.not_le_of_lt hlt), if_pos h0, hu]
      · obtain ⟨o, h1, h2⟩ := sync_sounds { w.pat with dirty := upd w.pat.dirty col false } col (hl col List.mem_cons_self) h0 hr
        refine ⟨col, o, List.mem_cons_self, hd, fun _ => h2, ?_⟩
        simp only [h1]
        simp [upd]
    · rw [if_neg hd]
      rcases sendFrom_spec w hr cols (fun c hc => hl c (List.mem_cons_of_mem _ hc)) with ⟨h1, h2⟩ | ⟨d, o, h1, h2⟩
      · left
        refine ⟨h1, ?_⟩
        intro c hc
        rcases List.mem_cons.1 hc with rfl | hc
        · simpa using hd
        · exact h2 c hc
      · exact Or.inr ⟨d, o, List.mem_cons_of_mem _ h1, h2⟩

theorem checkUpdates_spec (w : World) (hc : ∀ m ∈ w.queue, m.col < 6) :
    (w.checkUpdates = some (false, w) ∧ (w.backend = none ∨ w.queue = [])) ∨
    (∃ b m q, w.backend = some b ∧ w.queue = m :: q ∧
      w.checkUpdates = some (true, { w with queue := q, backend := some (applyMsg b m) })) := by
  unfold World.checkUpdates
  cases hb : w.backend with
  | none => left; exact ⟨rfl, Or.inl rfl⟩
  | some b =>
    cases hq : w.queue with
    | nil => left; exact ⟨rfl, Or.inr rfl⟩
    | cons m q =>
      right
      have hm := hc m (by rw [hq]; exact List.mem_cons_self)
      refine ⟨b, m, q, rfl, rfl, ?_⟩
      simp only [hm, if_true, Sequencer.setCol, applyMsg]

theorem drained_poll {w : World} {b : Backend} {m : Msg} {q : List Msg} (hb : w.backend = some b) (hq : w.queue = m :: q) :
    drained { w with queue := q, backend := some (applyMsg b m) } = drained w := by
  unfold drained
  rw [hb, hq]
  rfl

theorem inv_step {b checked : Bool} {w w' : World} {h : List Op} {op : Op} (hi : Inv b w h) (hs : w.step checked op = some w')
    (hload : ∀ repr, op = .load repr → repr.rows ≤ 256)
    (hsome : b = false → (∀ repr, op = .load repr → repr.rows ≠ 0) ∧ op ≠ .setRows 0)
    (hroom : op = .send → w.queue.length < 64) : Inv b w' (op :: h) := by
  -- edits that keep the number of rows
  have edit : ∀ p', w' = { w with pat := p' } → isNewBackend op = false → p'.rows = w.pat.rows → (∀ c, Edit w.pat p' c) →
      (∀ c, recent b c (op :: h) = true → touches c op = true ∨ recent b c h = true) →
      (∀ c, c < 6 → touches c op = true → p'.dirty c = true ∨ recent b c h = true) → Inv b w' (op :: h) := by
    rintro p' rfl hnb hrows hed hrec ht
    refine ⟨by simpa [hrows] using hi.rows, by simpa [hrows] using hi.rows0, by simp [List.any_cons, hnb, hi.taken], hi.backend, hi.cols, ?_⟩
    intro c hc hr hd
    have hr' : recent b c h = true := by
      rcases hrec c hr with h1 | h1
      · rcases ht c hc h1 with h2 | h2
        · simp only at hd; rw [h2] at hd; cases hd
        · exact h2
      · exact h1
    exact flushed_edit (hed c) hd (Or.inl hrows) (hi.flushed c hc hr')
  have hrecdef : ∀ c, touches c op = false → (∀ n, op ≠ .setRows n) → op ≠ .getBackend → recent b c (op :: h) = recent b c h := by
    intro c ht h1 h2
    cases op <;> first | exact absurd rfl (h1 _) | exact absurd rfl h2 | simp only [recent, ht, Bool.false_eq_true, if_false]
  have hrec : (∀ n, op ≠ .setRows n) → op ≠ .getBackend → ∀ c, recent b c (op :: h) = true → touches c op = true ∨ recent b c h = true := by
    intro h1 h2 c hr
    cases ht : touches c op with
    | true => exact Or.inl rfl
    | false => right; rw [hrecdef c ht h1 h2] at hr; exact hr
  have dirtyCell : ∀ (r c c' v : Nat), c < 6 → r < 256 ∧ c' = c → (w.pat.setCellValue r c' v).dirty c = true := by
    rintro r c c' v hc ⟨h1, rfl⟩
    unfold PatternData.setCellValue PatternData.modifiedCol
    rw [if_neg (by omega), if_neg (by omega)]
    simp [hc, upd]
  cases op with
  | setCell r c v =>
    exact edit _ (Option.some.inj hs).symm rfl (rows_setCell _ _ _ _) (edit_setCell _ _ _ _)
      (hrec (by intro n; exact fun h => by cases h) (by intro h; cases h))
      (fun c' hc ht => Or.inl (dirtyCell r c' c v hc (by simpa [touches] using ht)))
  | clearCell r c =>
    refine edit _ (Option.some.inj hs).symm rfl (rows_clearCell _ _ _) (edit_clearCell _ _ _)
      (hrec (by intro n; exact fun h => by cases h) (by intro h; cases h)) ?_
    intro c' hc ht
    left
    obtain ⟨h1, rfl⟩ : r < 256 ∧ c = c' := by simpa [touches] using ht
    unfold PatternData.clearCell PatternData.modifiedCol
    rw [if_neg (by omega), if_neg (by omega)]
    simp [hc, upd]
  | changeValue r c o =>
    simp only [World.step] at hs
    cases hv : w.pat.changeValue checked r c o with
    | none => rw [hv] at hs; cases hs
    | some p =>
      rw [hv] at hs
      obtain ⟨v, rfl⟩ := changeValue_eq hv
      exact edit _ (Option.some.inj hs).symm rfl (rows_setCell _ _ _ _) (edit_setCell _ _ _ _)
        (hrec (by intro n; exact fun h => by cases h) (by intro h; cases h))
        (fun c' hc ht => Or.inl (dirtyCell r c' c v hc (by simpa [touches] using ht)))
  | setColType c t =>
    refine edit _ (Option.some.inj hs).symm rfl (rows_setColType _ _ _) (edit_setColType _ _ _)
      (hrec (by intro n; exact fun h => by cases h) (by intro h; cases h)) ?_
    intro c' hc ht
    left
    obtain rfl : c = c' := by simpa [touches] using ht
    unfold PatternData.setColType PatternData.modifiedCol
    rw [if_neg (by omega)]
    simp [hc, upd]
  | setCursor r c =>
    exact edit _ (Option.some.inj hs).symm rfl rfl (fun _ => ⟨rfl, Or.inr ⟨rfl, rfl, fun _ => rfl⟩⟩)
      (hrec (by intro n; exact fun h => by cases h) (by intro h; cases h)) (fun c' _ ht => by simp [touches] at ht)
  | setEditStep n =>
    exact edit _ (Option.some.inj hs).symm rfl rfl (fun _ => ⟨rfl, Or.inr ⟨rfl, rfl, fun _ => rfl⟩⟩)
      (hrec (by intro n; exact fun h => by cases h) (by intro h; cases h)) (fun c' _ ht => by simp [touches] at ht)
  | getCell r c =>
    exact edit _ (Option.some.inj hs).symm rfl (rows_getCell _ _ _) (edit_getCell _ _ _)
      (hrec (by intro n; exact fun h => by cases h) (by intro h; cases h)) (fun c' _ ht => by simp [touches] at ht)
  | setRows n =>
    obtain rfl := Option.some.inj hs
    refine ⟨?_, ?_, by simp [List.any_cons, isNewBackend, hi.taken], hi.backend, hi.cols, ?_⟩
    · simp only [rows_setRows]; omega
    · intro hb
      have := (hsome hb).2
      simp only [rows_setRows]
      have hn : n ≠ 0 := by rintro rfl; exact this rfl
      omega
    · intro c hc hr hd
      have he := edit_setRows w.pat n c
      by_cases h0 : c = 0
      · have : (w.pat.setRows n).dirty c = true := by
          unfold PatternData.setRows PatternData.modifiedCol
          simp [h0, upd]
        simp only at hd
        rw [this] at hd; cases hd
      · have ht : touches c (.setRows n) = false := by simp [touches, h0]
        rw [recent, ht] at hr
        simp only [Bool.false_eq_true, if_false, Bool.and_eq_true, Bool.not_eq_true'] at hr
        exact flushed_edit he hd (Or.inr ⟨hr.1, hi.rows0 hr.1⟩) (hi.flushed c hc hr.2)
  | load repr =>
    simp only [World.step] at hs
    cases hv : w.pat.fromRepr repr with
    | none => rw [hv] at hs; cases hs
    | some p =>
      rw [hv] at hs
      obtain rfl := Option.some.inj hs
      have h6 := (edit_fromRepr hv 0 (by omega)).2.1
      refine ⟨by simpa [h6] using hload repr rfl, by intro hb; simpa [h6] using (hsome hb).1 repr rfl, by simp [List.any_cons, isNewBackend, hi.taken], hi.backend, hi.cols, ?_⟩
      intro c hc hr hd
      have := (edit_fromRepr hv c hc).2.2
      simp only at hd
      rw [this] at hd; cases hd
  | send =>
    simp only [World.step, World.sendOneUpdate] at hs
    rcases sendFrom_spec w hi.rows (List.range 6) (fun c hc => List.mem_range.1 hc) with ⟨h1, _⟩ | ⟨d, o, hd6, hdd, hsnd, h1⟩
    · rw [h1] at hs
      obtain rfl : w = w' := Option.some.inj hs
      refine ⟨hi.rows, hi.rows0, by simp [List.any_cons, isNewBackend, hi.taken], hi.backend, hi.cols, ?_⟩
      intro c hc hr hd
      rw [hrecdef c rfl (by intro n h; cases h) (by intro h; cases h)] at hr
      exact hi.flushed c hc hr hd
    · rw [h1] at hs
      rw [if_pos (hroom rfl)] at hs
      obtain rfl := Option.some.inj hs
      have hd6 : d < 6 := List.mem_range.1 hd6
      refine ⟨hi.rows, hi.rows0, by simp [List.any_cons, isNewBackend, hi.taken], hi.backend, ?_, ?_⟩
      · intro m hm
        rcases List.mem_append.1 hm with hm | hm
        · exact hi.cols m hm
        · rw [List.mem_singleton.1 hm]; exact hd6
      · intro c hc hr hdc
        rw [hrecdef c rfl (by intro n h; cases h) (by intro h; cases h)] at hr
        have hdr : drained { w with
            pat := { w.pat with dirty := upd w.pat.dirty d false, outData := upd w.pat.outData d o },
            queue := w.queue ++ [⟨d, w.pat.colTypes d, w.pat.rows, o⟩] } = applyMsg (drained w) ⟨d, w.pat.colTypes d, w.pat.rows, o⟩ := by
          unfold drained; rw [List.foldl_append]; rfl
        by_cases hcd : c = d
        · subst hcd
          refine ⟨?_, ?_, ?_, ?_⟩
          · intro _; rw [hdr]; rfl
          · rw [hdr]; simp [applyMsg, upd]
          · intro r hr; rw [hdr]; simp [applyMsg, upd, hr]
          · intro h0 _; simpa [upd] using hsnd h0
        · have f := hi.flushed c hc hr (by simpa [upd, hcd] using hdc)
          refine ⟨?_, ?_, ?_, ?_⟩
          · intro _; rw [hdr]; rfl
          · rw [hdr]; simpa [applyMsg, upd, hcd] using f.type
          · intro r hr; rw [hdr]; simpa [applyMsg, upd, hcd] using f.data r hr
          · intro h0 hb; simpa [upd, hcd] using f.sounds h0 hb
  | poll =>
    simp only [World.step] at hs
    rcases checkUpdates_spec w hi.cols with ⟨h1, _⟩ | ⟨bk, m, q, hb, hq, h1⟩
    · rw [h1] at hs
      obtain rfl : w = w' := Option.some.inj hs
      refine ⟨hi.rows, hi.rows0, by simp [List.any_cons, isNewBackend, hi.taken], hi.backend, hi.cols, ?_⟩
      intro c hc hr hd
      rw [hrecdef c rfl (by intro n h; cases h) (by intro h; cases h)] at hr
      exact hi.flushed c hc hr hd
    · rw [h1] at hs
      obtain rfl := Option.some.inj hs
      refine ⟨hi.rows, hi.rows0, by simp [List.any_cons, isNewBackend, hi.taken], ?_, ?_, ?_⟩
      · intro ht; have := hi.backend ht; rw [hb] at this; cases this
      · intro m' hm'; exact hi.cols m' (by rw [hq]; exact List.mem_cons_of_mem _ hm')
      · intro c hc hr hd
        rw [hrecdef c rfl (by intro n h; cases h) (by intro h; cases h)] at hr
        have f := hi.flushed c hc hr hd
        have hdr := drained_poll hb hq
        exact ⟨fun x => by rw [hdr]; exact f.rows x, by rw [hdr]; exact f.type, fun r hr => by rw [hdr]; exact f.data r hr, f.sounds⟩
  | getBackend =>
    obtain rfl := Option.some.inj hs
    refine ⟨hi.rows, hi.rows0, by simp [World.getBackend, List.any_cons, isNewBackend], by simp [World.getBackend], ?_, ?_⟩
    · intro m hm
      simp only [World.getBackend] at hm
      split at hm
      · cases hm
      · exact hi.cols m hm
    · intro c hc hr hd
      rw [recent] at hr
      simp only [touches, Bool.false_eq_true, if_false, Bool.and_eq_true, Bool.not_eq_true'] at hr
      have htk : w.taken = false := by rw [hi.taken]; exact hr.1
      have f := hi.flushed c hc hr.2 hd
      have hdr : drained w.getBackend = drained w := by
        unfold drained World.getBackend
        simp only [htk, hi.backend htk]
        rfl
      exact ⟨fun x => by rw [hdr]; exact f.rows x, by rw [hdr]; exact f.type, fun r hr => by rw [hdr]; exact f.data r hr, f.sounds⟩

theorem run_append {checked : Bool} : ∀ (a b : List Op) (w : World), w.run checked (a ++ b) = (w.run checked a).bind (fun w => w.run checked b)
  | [], b, w => rfl
  | op :: a, b, w => by
    simp only [List.cons_append, World.run]
    cases w.step checked op with
    | none => rfl
    | some w1 => simp only [Option.bind_some]; exact run_append a b w1

theorem inv_run {b checked : Bool} : ∀ (ops : List Op) (w : World), World.new.run checked ops = some w → okLoads ops →
    (b = false → someRows ops) → Roomy checked ops → Inv b w ops.reverse := by
  intro ops
  induction ops using List.reverseRecOn with
  | nil => intro w h _ _ _; rw [← Option.some.inj h]; exact inv_new b
  | append_singleton ops op ih =>
    intro w h hl hsm hrm
    rw [run_append] at h
    cases h1 : World.new.run checked ops with
    | none => rw [h1] at h; cases h
    | some w1 =>
      rw [h1, Option.bind_some, World.run] at h
      cases h2 : w1.step checked op with
      | none => rw [h2] at h; cases h
      | some w2 =>
        rw [h2, Option.bind_some, World.run] at h
        obtain rfl := Option.some.inj h
        rw [List.reverse_append]
        refine inv_step (ih w1 h1 (fun r hr => hl r (List.mem_append_left _ hr)) ?_ ?_) h2 ?_ ?_ ?_
        · intro hb; exact ⟨fun r hr => (hsm hb).1 r (List.mem_append_left _ hr), fun hr => (hsm hb).2 (List.mem_append_left _ hr)⟩
        · intro x y w' e hw'
          exact hrm x (y ++ [op]) w' (by rw [e]; simp) hw'
        · rintro r rfl; exact hl r (by simp)
        · intro hb
          refine ⟨?_, ?_⟩
          · rintro r rfl; exact (hsm hb).1 r (by simp)
          · rintro rfl; exact (hsm hb).2 (by simp)
        · rintro rfl
          exact hrm ops [] w1 rfl h1

end HexoDSP.TrackerProps
