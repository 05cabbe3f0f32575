import Verif.Spec.Tracker
import Mathlib.Tactic.Ring
import Mathlib.Tactic.FieldSimp
import Mathlib.Data.Nat.Bitwise
/-!
# Compilation of the columns (for C33, C34)
-/

set_option linter.unusedSectionVars false

namespace HexoDSP.TrackerProps
open HexoDSP.Tracker HexoDSP.TrackerSpec

theorem unit12_eq (v : Nat) : unit12 v = unit v := by
  have h : v &&& 0xFFF = v % 4096 := Nat.and_two_pow_sub_one_eq_mod v 12
  unfold unit12 unit
  rw [h]

theorem notePitch_eq (v : Nat) : clamp (notePitch v) (-1) 1 = pitch v := by
  have h : notePitch v = ((v : ℚ) - 69) / 120 := by unfold notePitch; push_cast; ring
  unfold clamp pitch
  rw [h, min_comm]

/-- The part of a value column before row `n` is done. -/
structure Done (rows : Nat) (cell : Nat → Option Nat) (out : Nat → OutCell) (n : Nat) : Prop where
  fixed : ∀ r q, r < n → fixedAt rows cell r = some q → (out r).1 = .num q
  line : ∀ a b qa qb r, a < r → r < b → b ≤ n → b < rows → fixedAt rows cell a = some qa → fixedAt rows cell b = some qb →
    (∀ i, a < i → i < b → fixedAt rows cell i = none) →
    (out r).1 = .num (qa + (qb - qa) * (((r : ℚ) - a) / ((b : ℚ) - a)))
  gate : ∀ r, r < n → (out r).2 = 0

theorem writeSpan_before {out : Nat → OutCell} {sv ev : ℚ} {si ei r : Nat} (h : si ≤ ei) (hr : r < si) :
    writeSpan out sv si ev ei r = out r := by
  unfold writeSpan
  rw [if_neg (by omega), if_neg (by omega), if_neg (by omega)]

theorem writeSpan_end {out : Nat → OutCell} {sv ev : ℚ} {si ei : Nat} :
    writeSpan out sv si ev ei ei = (.num ev, 1) := by
  unfold writeSpan
  rw [if_neg (by omega), if_pos rfl]

theorem writeSpan_start {out : Nat → OutCell} {sv ev : ℚ} {si ei : Nat} (h : si < ei) :
    writeSpan out sv si ev ei si = (.num sv, 0) := by
  unfold writeSpan
  rw [if_neg (by omega), if_neg (by omega), if_pos rfl]

theorem writeSpan_mid {out : Nat → OutCell} {sv ev : ℚ} {si ei r : Nat} (h1 : si < r) (h2 : r < ei) :
    writeSpan out sv si ev ei r = (.num (sv + (ev - sv) * (((r : ℚ) - si) / ((ei : ℚ) - si))), 0) := by
  unfold writeSpan
  rw [if_pos ⟨h1, h2⟩, Nat.cast_sub h1.le, Nat.cast_sub (h1.trans h2).le]
  simp only [Prod.mk.injEq, Sig.num.injEq, and_true]
  ring

theorem span_done {rows : Nat} {cell : Nat → Option Nat} {out : Nat → OutCell} {sv ev : ℚ} {si ei : Nat}
    (hle : si ≤ ei) (hd : Done rows cell out si) (hs : si < ei → fixedAt rows cell si = some sv)
    (he : fixedAt rows cell ei = some ev)
    (hb : ∀ i, si < i → i < ei → fixedAt rows cell i = none) :
    Done rows cell (writeSpan out sv si ev ei) ei := by
  refine ⟨?_, ?_, ?_⟩
  · intro r q hr hf
    rcases Nat.lt_trichotomy r si with h | h | h
    · rw [writeSpan_before hle h]; exact hd.fixed r q h hf
    · subst h
      rw [writeSpan_start hr]
      rw [hs hr] at hf
      rw [Option.some.inj hf]
    · rw [hb r h hr] at hf; cases hf
  · intro a b qa qb r har hrb hbe hbr hfa hfb hn
    rcases Nat.lt_or_ge si b with h | h
    · have h1 : si ≤ a := by
        by_contra hc
        have := hn si (by omega) h
        rw [hs (by omega)] at this; cases this
      have h2 : a = si := by
        by_contra hc
        have := hb a (by omega) (by omega)
        rw [hfa] at this; cases this
      have h3 : b = ei := by
        by_contra hc
        have := hb b h (by omega)
        rw [hfb] at this; cases this
      subst h2 h3
      rw [writeSpan_mid har hrb]
      rw [hs (by omega)] at hfa
      rw [he] at hfb
      rw [Option.some.inj hfa, Option.some.inj hfb]
    · rw [writeSpan_before hle (by omega)]
      exact hd.line a b qa qb r har hrb h hbr hfa hfb hn
  · intro r hr
    rcases Nat.lt_trichotomy r si with h | h | h
    · rw [writeSpan_before hle h]; exact hd.gate r h
    · subst h; rw [writeSpan_start hr]
    · rw [writeSpan_mid h hr]

theorem fixedAt_of_some {rows : Nat} {cell : Nat → Option Nat} {r : Nat} {q : ℚ} (h : (cell r).map unit12 = some q) :
    fixedAt rows cell r = some q := by
  cases hc : cell r with
  | none => rw [hc] at h; cases h
  | some v =>
    rw [hc] at h
    simp only [fixedAt, hc]
    rw [← h, Option.map_some, unit12_eq]

theorem valueLoop_spec {rows : Nat} {cell : Nat → Option Nat} (h1 : 1 ≤ rows) (h2 : rows ≤ 256) :
    ∀ (left : Nat) (out : Nat → OutCell) (sv : ℚ) (si ei : Nat), left + ei = 257 → ei ≤ rows → (si < ei ∨ (si = 0 ∧ ei = 0)) →
      (ei = 0 → sv = 0) → (0 < ei → fixedAt rows cell si = some sv) → (∀ i, si < i → i < ei → cell i = none) →
      Done rows cell out si →
      ∃ o, valueLoop rows cell left out sv si ei = some o ∧ Lines rows cell o
  | 0, out, sv, si, ei, hl, hei, _, _, _, _, _ => by omega
  | left + 1, out, sv, si, ei, hl, hei, hsi, h0, hpos, hno, hd => by
    rw [valueLoop]
    split
    · next he =>
      subst he
      refine ⟨_, rfl, ?_⟩
      have hf : fixedAt ei cell (ei - 1) = some (((cell (ei - 1)).map unit12).getD 0) := by
        cases hc : cell (ei - 1) with
        | none => simp only [fixedAt, hc]; rw [if_pos (by omega)]; rfl
        | some v => simp only [fixedAt, hc, Option.map_some, Option.getD_some, unit12_eq]
      have hd' := span_done (sv := sv) (ei := ei - 1) (by omega) hd (fun _ => hpos (by omega)) hf (by
        intro i a b
        have := hno i a (by omega)
        simp only [fixedAt, this]
        rw [if_neg (by omega)])
      refine ⟨?_, ?_, ?_⟩
      · intro r q hr hq
        rcases Nat.lt_or_ge r (ei - 1) with h | h
        · exact hd'.fixed r q h hq
        · obtain rfl : r = ei - 1 := by omega
          rw [writeSpan_end]
          rw [hf] at hq
          rw [Option.some.inj hq]
      · intro a b qa qb r har hrb hb hfa hfb hn
        exact hd'.line a b qa qb r har hrb (by omega) hb hfa hfb hn
      · intro r hr
        rcases Nat.lt_or_ge r (ei - 1) with h | h
        · rw [hd'.gate r h, if_neg (by omega)]
        · obtain rfl : r = ei - 1 := by omega
          rw [writeSpan_end, if_pos (by omega)]
    · next he =>
      rw [if_neg (by omega)]
      cases hc : (cell ei).map unit12 with
      | some ev =>
        simp only
        have hf := fixedAt_of_some (rows := rows) hc
        refine valueLoop_spec h1 h2 left _ ev ei (ei + 1) (by omega) (by omega) (Or.inl (by omega)) (by omega) (fun _ => hf) (by intro i a b; omega) ?_
        refine span_done (by omega) hd (fun h => hpos (by omega)) hf ?_
        intro i a b
        have := hno i a b
        simp only [fixedAt, this]
        rw [if_neg (by omega)]
      | none =>
        simp only
        have hcn : cell ei = none := by
          cases hc' : cell ei with
          | none => rfl
          | some v => rw [hc'] at hc; cases hc
        refine valueLoop_spec h1 h2 left out sv si (ei + 1) (by omega) (by omega) (Or.inl (by omega)) (by omega) ?_ ?_ hd
        · intro _
          rcases hsi with h | ⟨rfl, rfl⟩
          · exact hpos (by omega)
          · simp only [fixedAt, hcn]
            rw [if_pos (Or.inl trivial), h0 rfl]
        · intro i a b
          rcases Nat.lt_or_ge i ei with h | h
          · exact hno i a h
          · obtain rfl : i = ei := by omega
            exact hcn

/-- The rows before `n` of a holding column are done; `cur` is the value held. -/
structure Held (conv : Nat → ℚ) (post : ℚ → ℚ) (cell : Nat → Option Nat) (out : Nat → OutCell) (n : Nat) (cur : ℚ) : Prop where
  now : ∀ s v, n ≠ 0 → LastSet cell (n - 1) s v → cur = conv v
  now0 : (∀ i, i < n → cell i = none) → cur = 0
  held : ∀ r s v, r < n → LastSet cell r s v → (out r).1 = .num (post (conv v))
  before : ∀ r, r < n → NoneSet cell r → (out r).1 = .num (post 0)
  gateOn : ∀ r v, r < n → cell r = some v → (out r).2 = 1
  gateOff : ∀ r, r < n → cell r = none → (out r).2 = 0

theorem holdLoop_spec {conv : Nat → ℚ} {post : ℚ → ℚ} {cell : Nat → Option Nat} :
    ∀ (k n : Nat) (out : Nat → OutCell) (cur : ℚ), Held conv post cell out n cur →
      ∃ cur', Held conv post cell (holdLoop conv post cell (List.range' n k) out cur) (n + k) cur'
  | 0, n, out, cur, h => ⟨cur, by simpa [holdLoop] using h⟩
  | k + 1, n, out, cur, h => by
    rw [List.range'_succ]
    cases hc : cell n with
    | some v =>
      have hstep : Held conv post cell (upd out n (.num (post (conv v)), 1)) (n + 1) (conv v) := by
        refine ⟨?_, ?_, ?_, ?_, ?_, ?_⟩
        · intro s v' _ hl
          obtain ⟨a, b, c⟩ := hl
          simp only [Nat.add_sub_cancel] at a c
          have : s = n := by
            by_contra hne
            have := c n (by omega) (by omega)
            rw [hc] at this; cases this
          subst this
          rw [hc] at b; rw [Option.some.inj b]
        · intro hn; have := hn n (by omega); rw [hc] at this; cases this
        · intro r s v' hr hl
          rcases Nat.lt_or_ge r n with h' | h'
          · rw [upd, if_neg (by omega)]; exact h.held r s v' h' hl
          · obtain rfl : r = n := by omega
            have : s = r := by
              by_contra hne
              have := hl.2.2 r (by have := hl.1; omega) (by omega)
              rw [hc] at this; cases this
            subst this
            have hb := hl.2.1
            rw [hc] at hb; rw [upd, if_pos rfl, Option.some.inj hb]
        · intro r hr hn
          rcases Nat.lt_or_ge r n with h' | h'
          · rw [upd, if_neg (by omega)]; exact h.before r h' hn
          · obtain rfl : r = n := by omega
            have := hn r (Nat.le_refl r); rw [hc] at this; cases this
        · intro r v' hr hr2
          rcases Nat.lt_or_ge r n with h' | h'
          · rw [upd, if_neg (by omega)]; exact h.gateOn r v' h' hr2
          · obtain rfl : r = n := by omega
            rw [upd, if_pos rfl]
        · intro r hr hr2
          rcases Nat.lt_or_ge r n with h' | h'
          · rw [upd, if_neg (by omega)]; exact h.gateOff r h' hr2
          · obtain rfl : r = n := by omega
            rw [hc] at hr2; cases hr2
      obtain ⟨cur', h'⟩ := holdLoop_spec k (n + 1) _ _ hstep
      refine ⟨cur', ?_⟩
      rw [holdLoop]; simp only [hc]
      rw [show n + (k + 1) = n + 1 + k by omega]
      exact h'
    | none =>
      have hprev : ∀ s v', LastSet cell n s v' → n ≠ 0 ∧ LastSet cell (n - 1) s v' := by
        intro s v' hl
        obtain ⟨a, b, c⟩ := hl
        have hne : s ≠ n := by rintro rfl; rw [hc] at b; cases b
        exact ⟨by omega, by omega, b, fun i x y => c i x (by omega)⟩
      have hstep : Held conv post cell (upd out n (.num (post cur), 0)) (n + 1) cur := by
        refine ⟨?_, ?_, ?_, ?_, ?_, ?_⟩
        · intro s v' _ hl
          rw [Nat.add_sub_cancel] at hl
          obtain ⟨a, b⟩ := hprev s v' hl
          exact h.now s v' a b
        · intro hn; exact h.now0 (fun i hi => hn i (by omega))
        · intro r s v' hr hl
          rcases Nat.lt_or_ge r n with h' | h'
          · rw [upd, if_neg (by omega)]; exact h.held r s v' h' hl
          · obtain rfl : r = n := by omega
            obtain ⟨a, b⟩ := hprev s v' hl
            rw [upd, if_pos rfl, h.now s v' a b]
        · intro r hr hn
          rcases Nat.lt_or_ge r n with h' | h'
          · rw [upd, if_neg (by omega)]; exact h.before r h' hn
          · obtain rfl : r = n := by omega
            rw [upd, if_pos rfl, h.now0 (fun i hi => hn i (by omega))]
        · intro r v' hr hr2
          rcases Nat.lt_or_ge r n with h' | h'
          · rw [upd, if_neg (by omega)]; exact h.gateOn r v' h' hr2
          · obtain rfl : r = n := by omega
            rw [hc] at hr2; cases hr2
        · intro r hr hr2
          rcases Nat.lt_or_ge r n with h' | h'
          · rw [upd, if_neg (by omega)]; exact h.gateOff r h' hr2
          · obtain rfl : r = n := by omega
            rw [upd, if_pos rfl]
      obtain ⟨cur', h'⟩ := holdLoop_spec k (n + 1) _ _ hstep
      refine ⟨cur', ?_⟩
      rw [holdLoop]; simp only [hc]
      rw [show n + (k + 1) = n + 1 + k by omega]
      exact h'

theorem held_zero {conv : Nat → ℚ} {post : ℚ → ℚ} {cell : Nat → Option Nat} {out : Nat → OutCell} :
    Held conv post cell out 0 0 :=
  ⟨fun _ _ h => absurd rfl h, fun _ => rfl, fun _ _ _ h => absurd h (by omega), fun _ h => absurd h (by omega),
   fun _ _ h => absurd h (by omega), fun _ h => absurd h (by omega)⟩

theorem holdLoop_holds {conv : Nat → ℚ} {post : ℚ → ℚ} {cell : Nat → Option Nat} {out : Nat → OutCell} (hp : post 0 = 0) :
    Holds (fun v => post (conv v)) cell (holdLoop conv post cell (List.range 256) out 0) := by
  obtain ⟨cur, h⟩ := holdLoop_spec (conv := conv) (post := post) (cell := cell) 256 0 out 0 held_zero
  rw [Nat.zero_add, ← List.range_eq_range'] at h
  exact ⟨h.held, fun r a b => by rw [h.before r a b, hp], h.gateOn, h.gateOff⟩

/-- Compilation of one column. -/
theorem sync_sounds (p : PatternData) (col : Nat) (hc : col < 6) (h0 : p.rows ≠ 0) (h : p.rows ≤ 256) :
    ∃ o, p.syncOutData col = some { p with outData := upd p.outData col o } ∧
      Sounds (p.colTypes col) p.rows (fun r => p.data r col) o := by
  unfold PatternData.syncOutData
  rw [if_neg (by omega), if_neg h0]
  cases ht : p.colTypes col with
  | value =>
    obtain ⟨o, h1, h2⟩ := valueLoop_spec (cell := fun r => p.data r col) (Nat.pos_of_ne_zero h0) h 257 (p.outData col) 0 0 0 rfl (by omega)
      (Or.inr ⟨rfl, rfl⟩) (fun _ => rfl) (by omega) (by intro i a b; omega) ⟨fun _ _ h => absurd h (by omega), by intros; omega, fun _ h => absurd h (by omega)⟩
    refine ⟨o, ?_, h2⟩
    simp only [h1, Option.map_some]
  | note =>
    refine ⟨_, rfl, ?_⟩
    have := holdLoop_holds (conv := notePitch) (post := fun x => clamp x (-1) 1) (cell := fun r => p.data r col) (out := p.outData col)
      (by unfold clamp; norm_num)
    simp only [notePitch_eq] at this
    exact this
  | step =>
    refine ⟨_, rfl, ?_⟩
    have := holdLoop_holds (conv := unit12) (post := fun x => x) (cell := fun r => p.data r col) (out := p.outData col) rfl
    simp only [unit12_eq] at this
    exact this
  | gate =>
    refine ⟨_, rfl, ?_⟩
    refine ⟨?_, ?_⟩
    · intro r v hr hv
      simp only [if_pos hr, hv, gateCell]
    · intro r hr hv
      simp only [if_pos hr, hv, gateCell]

end HexoDSP.TrackerProps
