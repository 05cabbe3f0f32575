import Verif.Spec.Rounding
import Verif.Props.Norm
/-! # Rounding to the marks of a scale -/

set_option linter.unusedSectionVars false

namespace HexoDSP.RoundingProps
open HexoDSP.Table HexoDSP.NormProps

theorem roundAway_int (x : ℝ) : ∃ k : ℤ, roundAway x = k := by
  unfold roundAway
  split
  · exact ⟨_, rfl⟩
  · exact ⟨_, rfl⟩

theorem roundAway_near (x : ℝ) : |roundAway x - x| ≤ 1 / 2 := by
  unfold roundAway
  split
  · have h1 := Int.floor_le (x + 1 / 2)
    have h2 := Int.lt_floor_add_one (x + 1 / 2)
    rw [abs_le]; constructor <;> linarith
  · have h1 := Int.le_ceil (x - 1 / 2)
    have h2 := Int.ceil_lt_add_one (x - 1 / 2)
    rw [abs_le]; constructor <;> linarith

theorem roundAway_of_int (k : ℤ) : roundAway (k : ℝ) = k := by
  obtain ⟨m, hm⟩ := roundAway_int (k : ℝ)
  have h := roundAway_near (k : ℝ)
  rw [hm] at h ⊢
  rw [abs_le] at h
  have h1 : m - k < 1 := by
    have : (m : ℝ) - k < 1 := by linarith [h.2]
    exact_mod_cast this
  have h2 : -1 < m - k := by
    have : (-1 : ℝ) < m - k := by linarith [h.1]
    exact_mod_cast this
  have : m = k := by omega
  rw [this]

theorem roundAway_mono {x y : ℝ} (h : x ≤ y) : roundAway x ≤ roundAway y := by
  unfold roundAway
  by_cases hx : 0 ≤ x
  · rw [if_pos hx, if_pos (le_trans hx h)]
    exact_mod_cast Int.floor_le_floor (by linarith)
  · rw [if_neg hx]
    by_cases hy : 0 ≤ y
    · rw [if_pos hy]
      have h1 : ⌈x - 1 / 2⌉ ≤ 0 := Int.ceil_le.2 (by push_cast; linarith [not_le.1 hx])
      have h2 : 0 ≤ ⌊y + 1 / 2⌋ := Int.floor_nonneg.2 (by linarith)
      exact_mod_cast le_trans h1 h2
    · rw [if_neg hy]
      exact_mod_cast Int.ceil_le_ceil (by linarith)

/-- To the nearest multiple. -/
noncomputable def mult (s v : ℝ) : ℝ := roundAway (v / s) * s

theorem mult_grid (s v : ℝ) : ∃ k : ℤ, mult s v = k * s := by
  obtain ⟨k, hk⟩ := roundAway_int (v / s)
  exact ⟨k, by unfold mult; rw [hk]⟩

theorem mult_near {s : ℝ} (hs : 0 < s) (v : ℝ) : |mult s v - v| ≤ s / 2 := by
  have h := roundAway_near (v / s)
  have : mult s v - v = (roundAway (v / s) - v / s) * s := by unfold mult; field_simp
  rw [this, abs_mul, abs_of_pos hs]
  nlinarith

theorem mult_fix {s : ℝ} (hs : 0 < s) (k : ℤ) : mult s (k * s) = k * s := by
  unfold mult
  rw [mul_div_assoc, div_self hs.ne', mul_one, roundAway_of_int]

theorem mult_mono {s : ℝ} (hs : 0 < s) {v w : ℝ} (h : v ≤ w) : mult s v ≤ mult s w := by
  unfold mult
  exact mul_le_mul_of_nonneg_right (roundAway_mono (by gcongr)) hs.le

theorem mult_idem {s : ℝ} (hs : 0 < s) (v : ℝ) : mult s (mult s v) = mult s v := by
  obtain ⟨k, hk⟩ := mult_grid s v
  rw [hk, mult_fix hs]

/-- A rounding between `l` and `h`. -/
structure Snap (ρ : ℝ → ℝ) (l h : ℝ) : Prop where
  within : ∀ v, l ≤ v → v ≤ h → l ≤ ρ v ∧ ρ v ≤ h
  mono : ∀ v w, l ≤ v → v ≤ w → w ≤ h → ρ v ≤ ρ w
  idem : ∀ v, l ≤ v → v ≤ h → ρ (ρ v) = ρ v

theorem Snap.congr {ρ σ : ℝ → ℝ} {l h : ℝ} (a : Snap ρ l h) (he : ∀ v, l ≤ v → v ≤ h → ρ v = σ v) : Snap σ l h where
  within v h1 h2 := by rw [← he v h1 h2]; exact a.within v h1 h2
  mono v w h1 h2 h3 := by rw [← he v h1 (le_trans h2 h3), ← he w (le_trans h1 h2) h3]; exact a.mono v w h1 h2 h3
  idem v h1 h2 := by
    have hw := a.within v h1 h2
    rw [← he v h1 h2, ← he _ hw.1 hw.2]; exact a.idem v h1 h2

/-- The rounding to a multiple. -/
def Multiple (s v w : ℝ) : Prop := (∃ k : ℤ, w = k * s) ∧ |w - v| ≤ s / 2

theorem mult_multiple {s : ℝ} (hs : 0 < s) (v : ℝ) : Multiple s v (mult s v) := ⟨mult_grid s v, mult_near hs v⟩

theorem snap_mult {s l h : ℝ} (hs : 0 < s) (hl : l ≤ mult s l) (hh : mult s h ≤ h) : Snap (mult s) l h where
  within _ h1 h2 := ⟨le_trans hl (mult_mono hs h1), le_trans (mult_mono hs h2) hh⟩
  mono _ _ _ h2 _ := mult_mono hs h2
  idem v _ _ := mult_idem hs v

theorem snap_id {l h : ℝ} : Snap (fun v => v) l h :=
  ⟨fun _ h1 h2 => ⟨h1, h2⟩, fun _ _ _ h _ => h, fun _ _ _ => rfl⟩

/-- Two roundings one after the other on the scale. -/
theorem Snap.splice {ρ σ : ℝ → ℝ} {l m h : ℝ} (hl : l ≤ m) (hm : m ≤ h) (a : Snap ρ l m) (b : Snap σ m h)
    (hσ : σ m = m) : Snap (fun v => if v < m then ρ v else σ v) l h where
  within v h1 h2 := by
    split
    · next hv => exact ⟨(a.within v h1 hv.le).1, le_trans (a.within v h1 hv.le).2 hm⟩
    · next hv => exact ⟨le_trans hl (b.within v (not_lt.1 hv) h2).1, (b.within v (not_lt.1 hv) h2).2⟩
  mono v w h1 h2 h3 := by
    by_cases hw : w < m
    · rw [if_pos hw, if_pos (lt_of_le_of_lt h2 hw)]
      exact a.mono v w h1 h2 hw.le
    · rw [if_neg hw]
      by_cases hv : v < m
      · rw [if_pos hv]
        exact le_trans (a.within v h1 hv.le).2 (b.within w (not_lt.1 hw) h3).1
      · rw [if_neg hv]
        exact b.mono v w (not_lt.1 hv) h2 h3
  idem v h1 h2 := by
    by_cases hv : v < m
    · rw [if_pos hv]
      have hin := a.within v h1 hv.le
      by_cases hw : ρ v < m
      · rw [if_pos hw]; exact a.idem v h1 hv.le
      · have : ρ v = m := le_antisymm hin.2 (not_lt.1 hw)
        rw [if_neg hw, this, hσ]
    · rw [if_neg hv]
      have hin := b.within v (not_lt.1 hv) h2
      rw [if_neg (not_lt.2 hin.1)]
      exact b.idem v (not_lt.1 hv) h2

/-- The same with the border on the other side. -/
theorem Snap.splice' {ρ σ : ℝ → ℝ} {l m h : ℝ} (hl : l ≤ m) (hm : m ≤ h) (a : Snap ρ l m) (b : Snap σ m h)
    (hρ : ρ m = m) (hσ : σ m = m) : Snap (fun v => if m < v then σ v else ρ v) l h := by
  refine (Snap.splice hl hm a b hσ).congr ?_
  intro v h1 h2
  rcases lt_trichotomy v m with hv | rfl | hv
  · rw [if_pos hv, if_neg (not_lt.2 hv.le)]
  · rw [if_neg (lt_irrefl _), if_neg (lt_irrefl _), hρ, hσ]
  · rw [if_neg (not_lt.2 hv.le), if_pos hv]

/-! ## Rounded knobs -/

/-- `x` between `lo` and `hi`. -/
noncomputable def clamp (lo hi x : ℝ) : ℝ := max lo (min hi x)

theorem clamp_mono {lo hi x y : ℝ} (h : x ≤ y) : clamp lo hi x ≤ clamp lo hi y := max_le_max (le_refl _) (min_le_min (le_refl _) h)

theorem clamp_in {lo hi x : ℝ} (h : lo ≤ hi) : lo ≤ clamp lo hi x ∧ clamp lo hi x ≤ hi :=
  ⟨le_max_left _ _, max_le h (min_le_left _ _)⟩

theorem clamp_id {lo hi x : ℝ} (h1 : lo ≤ x) (h2 : x ≤ hi) : clamp lo hi x = x := by
  unfold clamp; rw [min_eq_right h2, max_eq_right h1]

/-- The rounding `f` of a knob between `a` and `b` is a rounding `ρ` of displayed values. -/
structure Fits (P : ℝ → ℝ → Prop) (f disp : ℝ → ℝ) (a b : ℝ) : Prop where
  ex : ∃ (n : ℝ → ℝ) (l h : ℝ) (ρ : ℝ → ℝ), Good n disp a b l h ∧ Snap ρ l h ∧ (∀ v, l ≤ v → v ≤ h → P v (ρ v)) ∧
    ∀ x lo hi, a ≤ x → x ≤ b → a ≤ lo → hi ≤ b → clamp lo hi (f x) = clamp lo hi (n (ρ (disp x)))

theorem _root_.HexoDSP.NormProps.Good.bounds {n d : ℝ → ℝ} {a b l h : ℝ} (g : Good n d a b l h) {x : ℝ} (h1 : a ≤ x) (h2 : x ≤ b) : l ≤ d x ∧ d x ≤ h := by
  rw [← g.lo, ← g.hi]
  constructor
  · rcases h1.eq_or_lt with he | hlt
    · rw [he]
    · exact (g.mono _ _ (le_refl _) hlt h2).le
  · rcases h2.eq_or_lt with he | hlt
    · rw [he]
    · exact (g.mono _ _ h1 hlt (le_refl _)).le

theorem _root_.HexoDSP.NormProps.Good.mono_le {n d : ℝ → ℝ} {a b l h : ℝ} (g : Good n d a b l h) {x y : ℝ} (h1 : a ≤ x) (hxy : x ≤ y) (h2 : y ≤ b) : d x ≤ d y := by
  rcases hxy.eq_or_lt with rfl | hlt
  · exact le_refl _
  · exact (g.mono _ _ h1 hlt h2).le

theorem _root_.HexoDSP.NormProps.Good.norm_mono {n d : ℝ → ℝ} {a b l h : ℝ} (g : Good n d a b l h) {v w : ℝ} (h1 : l ≤ v) (hvw : v ≤ w) (h2 : w ≤ h) : n v ≤ n w := by
  obtain ⟨a1, a2, a3⟩ := g.onto v h1 (le_trans hvw h2)
  obtain ⟨b1, b2, b3⟩ := g.onto w (le_trans h1 hvw) h2
  by_contra hlt
  have := g.mono _ _ b1 (not_le.1 hlt) a2
  rw [a3, b3] at this
  linarith

variable {P : ℝ → ℝ → Prop} {f disp : ℝ → ℝ} {a b lo hi : ℝ}

theorem Fits.mono (F : Fits P f disp a b) (h1 : a ≤ lo) (h2 : hi ≤ b) {x y : ℝ} (hx : lo ≤ x) (hxy : x ≤ y) (hy : y ≤ hi) :
    clamp lo hi (f x) ≤ clamp lo hi (f y) := by
  obtain ⟨n, l, h, ρ, g, s, hP, e⟩ := F.ex
  rw [e x lo hi (le_trans h1 hx) (le_trans (le_trans hxy hy) h2) h1 h2, e y lo hi (le_trans h1 (le_trans hx hxy)) (le_trans hy h2) h1 h2]
  refine clamp_mono ?_
  obtain ⟨x1, x2⟩ := g.bounds (le_trans h1 hx) (le_trans (le_trans hxy hy) h2)
  obtain ⟨y1, y2⟩ := g.bounds (le_trans h1 (le_trans hx hxy)) (le_trans hy h2)
  exact g.norm_mono (s.within _ x1 x2).1 (s.mono _ _ x1 (g.mono_le (le_trans h1 hx) hxy (le_trans hy h2)) y2) (s.within _ y1 y2).2

theorem Fits.idem (F : Fits P f disp a b) (h1 : a ≤ lo) (hh : lo ≤ hi) (h2 : hi ≤ b) {x : ℝ} (hx : lo ≤ x) (hy : x ≤ hi) :
    clamp lo hi (f (clamp lo hi (f x))) = clamp lo hi (f x) := by
  obtain ⟨hc1, hc2⟩ := clamp_in (x := f x) hh
  have hmono1 : clamp lo hi (f lo) ≤ clamp lo hi (f x) := F.mono h1 h2 (le_refl _) hx hy
  have hmono2 : clamp lo hi (f x) ≤ clamp lo hi (f hi) := F.mono h1 h2 hx hy (le_refl _)
  by_cases hlo : clamp lo hi (f x) = lo
  · rw [hlo]
    rw [hlo] at hmono1
    exact le_antisymm hmono1 (clamp_in hh).1
  · by_cases hhi : clamp lo hi (f x) = hi
    · rw [hhi]
      rw [hhi] at hmono2
      exact le_antisymm (clamp_in hh).2 hmono2
    · obtain ⟨n, l, h, ρ, g, s, hP, e⟩ := F.ex
      have ex := e x lo hi (le_trans h1 hx) (le_trans hy h2) h1 h2
      obtain ⟨x1, x2⟩ := g.bounds (le_trans h1 hx) (le_trans hy h2)
      obtain ⟨w1, w2⟩ := s.within _ x1 x2
      obtain ⟨n1, n2, n3⟩ := g.onto _ w1 w2
      have hval : clamp lo hi (f x) = n (ρ (disp x)) := by
        rw [ex] at hlo hhi ⊢
        unfold clamp at hlo hhi ⊢
        rcases le_total hi (n (ρ (disp x))) with h3 | h3
        · rw [min_eq_left h3, max_eq_right hh] at hhi
          exact absurd rfl hhi
        · rw [min_eq_right h3] at hlo ⊢
          rcases le_total lo (n (ρ (disp x))) with h4 | h4
          · rw [max_eq_right h4]
          · rw [max_eq_left h4] at hlo
            exact absurd rfl hlo
      rw [e _ lo hi (le_trans h1 hc1) (le_trans hc2 h2) h1 h2, hval, n3, s.idem _ x1 x2, ← hval, clamp_id hc1 hc2]

/-- The rounded knob displays the rounded value, or is at an end of its range on the way there. -/
theorem Fits.near (F : Fits P f disp a b) (h1 : a ≤ lo) (hh : lo ≤ hi) (h2 : hi ≤ b) {x : ℝ} (hx : lo ≤ x) (hy : x ≤ hi) :
    ∃ w, P (disp x) w ∧ ((disp x ≤ disp (clamp lo hi (f x)) ∧ disp (clamp lo hi (f x)) ≤ w) ∨
        (w ≤ disp (clamp lo hi (f x)) ∧ disp (clamp lo hi (f x)) ≤ disp x)) ∧
      (clamp lo hi (f x) = lo ∨ clamp lo hi (f x) = hi ∨ disp (clamp lo hi (f x)) = w) := by
  obtain ⟨n, l, h, ρ, g, s, hP, e⟩ := F.ex
  have ex := e x lo hi (le_trans h1 hx) (le_trans hy h2) h1 h2
  obtain ⟨x1, x2⟩ := g.bounds (le_trans h1 hx) (le_trans hy h2)
  obtain ⟨w1, w2⟩ := s.within _ x1 x2
  obtain ⟨n1, n2, n3⟩ := g.onto _ w1 w2
  refine ⟨ρ (disp x), hP _ x1 x2, ?_⟩
  rw [ex]
  unfold clamp
  rcases le_total hi (n (ρ (disp x))) with h3 | h3
  · rw [min_eq_left h3, max_eq_right hh]
    refine ⟨Or.inl ⟨g.mono_le (le_trans h1 hx) hy h2, ?_⟩, Or.inr (Or.inl rfl)⟩
    rw [← n3]; exact g.mono_le (le_trans h1 hh) h3 n2
  · rw [min_eq_right h3]
    rcases le_total lo (n (ρ (disp x))) with h4 | h4
    · rw [max_eq_right h4, n3]
      refine ⟨?_, Or.inr (Or.inr rfl)⟩
      rcases le_total (disp x) (ρ (disp x)) with h5 | h5
      · exact Or.inl ⟨h5, le_refl _⟩
      · exact Or.inr ⟨le_refl _, h5⟩
    · rw [max_eq_left h4]
      refine ⟨Or.inr ⟨?_, g.mono_le h1 hx (le_trans hy h2)⟩, Or.inl rfl⟩
      rw [← n3]; exact g.mono_le n1 h4 (le_trans hh h2)

/-! ## The scales -/

theorem mult_half (v : ℝ) : roundAway (v * 2) * 0.5 = mult (1 / 2) v := by
  unfold mult; rw [show v / (1 / 2) = v * 2 by ring]; norm_num
theorem mult_tenth (v : ℝ) : roundAway (v * 10) * 0.1 = mult (1 / 10) v := by
  unfold mult; rw [show v / (1 / 10) = v * 10 by ring]; norm_num
theorem mult_inv {k : ℝ} (hk : k ≠ 0) (v : ℝ) : roundAway (v * k) / k = mult (1 / k) v := by
  unfold mult; rw [show v / (1 / k) = v * k by field_simp]; ring
theorem mult_one (v : ℝ) : roundAway v = mult 1 v := by unfold mult; rw [div_one, mul_one]

/-- A multiple is left as it is. -/
theorem mult_at {s v : ℝ} (hs : 0 < s) (k : ℤ) (h : v = k * s) : mult s v = v := by rw [h, mult_fix hs]

theorem snap_at {s l h : ℝ} (hs : 0 < s) (i k : ℤ) (hl : l = i * s) (hh : h = k * s) : Snap (mult s) l h :=
  snap_mult hs (by rw [mult_at hs i hl]) (by rw [mult_at hs k hh])

/-- Decibels are linear in the knob. -/
theorem db_lin {G : Gain} (hG : G.Ok) {l h : ℝ} (hl : l < h) (h1 : -90 ≤ l) (h2 : h ≤ 24) {x : ℝ} (hx : 0 ≤ x) (hx' : x ≤ 1) :
    G.toDb (dDb G l h x) = dLin l h x := by
  unfold dDb dLin
  rw [hG.inv _ (by nlinarith) (by nlinarith)]
  ring

theorem good_db_lin {G : Gain} (hG : G.Ok) {l h : ℝ} (hl : l < h) (h1 : -90 ≤ l) (h2 : h ≤ 24) :
    Good (nLin l h) (fun x => G.toDb (dDb G l h x)) 0 1 l h := by
  have g := good_lin hl
  have e : ∀ x, 0 ≤ x → x ≤ 1 → G.toDb (dDb G l h x) = dLin l h x := fun x hx hx' => db_lin hG hl h1 h2 hx hx'
  constructor
  · rw [e 0 (le_refl _) zero_le_one]; exact g.lo
  · rw [e 1 zero_le_one (le_refl _)]; exact g.hi
  · intro x y hx hxy hy
    rw [e x hx (by linarith), e y (by linarith) hy]; exact g.mono x y hx hxy hy
  · intro x hx hx'
    rw [e x hx hx']; exact g.inv x hx hx'
  · intro v hv hv'
    obtain ⟨a1, a2, a3⟩ := g.onto v hv hv'
    exact ⟨a1, a2, by rw [e _ a1 a2]; exact a3⟩

theorem fits_db {G : Gain} (hG : G.Ok) {l h : ℝ} (hl : l < h) (h1 : -90 ≤ l) (h2 : h ≤ 24) (coarse : Bool) (s : ℝ) (hs : s = if coarse then 1 / 2 else 1 / 10)
    (i k : ℤ) (hi : l = i * s) (hk : h = k * s) : Fits (Multiple s) (fun x => rDb G l h x coarse) (fun x => G.toDb (dDb G l h x)) 0 1 := by
  have hpos : 0 < s := by rw [hs]; split <;> norm_num
  refine ⟨nLin l h, l, h, mult s, good_db_lin hG hl h1 h2, snap_at hpos i k hi hk, fun v _ _ => mult_multiple hpos v, ?_⟩
  intro x lo hi' hx hx' _ _
  congr 1
  have hd := (good_db_lin hG hl h1 h2).bounds hx hx'
  have hw := (snap_at hpos i k hi hk).within _ hd.1 hd.2
  have : rDb G l h x coarse = nDb G l h (G.toCoef (mult s (G.toDb (dDb G l h x)))) := by
    unfold rDb
    cases coarse
    · rw [if_neg (by decide), mult_tenth]; rw [hs]; rfl
    · rw [if_pos rfl, mult_half]; rw [hs]; rfl
  rw [this]
  unfold nDb nLin
  rw [hG.inv _ (by linarith [hw.1]) (by linarith [hw.2])]

theorem fits_plain {n d : ℝ → ℝ} {a b l h : ℝ} (g : Good n d a b l h) {fine : ℝ} (hf : 0 < fine) (coarse : Bool) (s : ℝ)
    (hs : s = if coarse then 1 else 1 / fine) (i k : ℤ) (hi : l = i * s) (hk : h = k * s) : Fits (Multiple s) (fun x => rPlain n d fine x coarse) d a b := by
  have hpos : 0 < s := by rw [hs]; split <;> positivity
  refine ⟨n, l, h, mult s, g, snap_at hpos i k hi hk, fun v _ _ => mult_multiple hpos v, ?_⟩
  intro x lo hi' _ _ _ _
  congr 1
  unfold rPlain
  cases coarse
  · rw [if_neg (by decide), mult_inv hf.ne']; rw [hs]; rfl
  · rw [if_pos rfl, mult_one]; rw [hs]; rfl

/-- Two roundings one after the other if the first does not reach the border. -/
theorem Snap.splice_gap {ρ σ : ℝ → ℝ} {l m h : ℝ} (hl : l ≤ m) (hm : m ≤ h) (a : Snap ρ l m) (b : Snap σ m h)
    (hgap : ∀ v, l ≤ v → v ≤ m → ρ v < m) : Snap (fun v => if v < m then ρ v else σ v) l h where
  within v h1 h2 := by
    split
    · next hv => exact ⟨(a.within v h1 hv.le).1, le_trans (a.within v h1 hv.le).2 hm⟩
    · next hv => exact ⟨le_trans hl (b.within v (not_lt.1 hv) h2).1, (b.within v (not_lt.1 hv) h2).2⟩
  mono v w h1 h2 h3 := by
    by_cases hw : w < m
    · rw [if_pos hw, if_pos (lt_of_le_of_lt h2 hw)]
      exact a.mono v w h1 h2 hw.le
    · rw [if_neg hw]
      by_cases hv : v < m
      · rw [if_pos hv]
        exact le_trans (a.within v h1 hv.le).2 (b.within w (not_lt.1 hw) h3).1
      · rw [if_neg hv]
        exact b.mono v w (not_lt.1 hv) h2 h3
  idem v h1 h2 := by
    by_cases hv : v < m
    · rw [if_pos hv, if_pos (hgap v h1 hv.le)]
      exact a.idem v h1 hv.le
    · rw [if_neg hv]
      have hin := b.within v (not_lt.1 hv) h2
      rw [if_neg (not_lt.2 hin.1)]
      exact b.idem v (not_lt.1 hv) h2

theorem snap_const {c l h : ℝ} (h1 : l ≤ c) (h2 : c ≤ h) : Snap (fun _ => c) l h :=
  ⟨fun _ _ _ => ⟨h1, h2⟩, fun _ _ _ _ _ => le_refl _, fun _ _ _ => rfl⟩

theorem roundAway_half : roundAway (1 / 2) = 1 := by
  unfold roundAway
  rw [if_pos (by norm_num)]
  norm_num

/-- The rounding of times. -/
noncomputable def timeScale (v : ℝ) : ℝ := if 1000 < v then mult 100 v else if 100 < v then mult 10 v else mult 1 v

theorem snap_timeScale {l h : ℝ} (k : ℤ) (hk : h = k * 100) (hh : 1000 ≤ h) (first : Snap (mult 1) l 100) (hl : l ≤ 100) : Snap timeScale l h := by
  refine Snap.splice' (by linarith) hh ?_ (snap_at (by norm_num) 10 k (by norm_num) hk) ?_ (mult_at (by norm_num) 10 (by norm_num))
  · exact Snap.splice' hl (by norm_num) first (snap_at (by norm_num) 10 100 (by norm_num) (by norm_num))
      (mult_at (by norm_num) 100 (by norm_num)) (mult_at (by norm_num) 10 (by norm_num))
  · rw [if_pos (by norm_num)]
    exact mult_at (by norm_num) 100 (by norm_num)

/-- What a rounding has to do: to the next mark. Short times of filters are special. -/
def Near (r : Round) (coarse : Bool) (v w : ℝ) : Prop :=
  if r = .id then w = v
  else if r = .fms ∧ coarse = true ∧ v < 1 / 2 then w = 1 / 5
  else Multiple (r.step coarse v) (r.reading v v) (r.reading v w)

theorem near_plain {r : Round} {coarse : Bool} {v w : ℝ} (h1 : r ≠ .id) (h2 : r ≠ .fms ∨ coarse = false ∨ 1 / 2 ≤ v) (h3 : r ≠ .lfot ∨ 10 ≤ v)
    (h : Multiple (r.step coarse v) v w) : Near r coarse v w := by
  unfold Near
  rw [if_neg h1, if_neg]
  · unfold Round.reading
    rw [if_neg, if_neg]
    · exact h
    · rintro ⟨a, b⟩
      rcases h3 with h3 | h3
      · exact h3 a
      · linarith
    · rintro ⟨a, b⟩
      rcases h3 with h3 | h3
      · exact h3 a
      · linarith
  · rintro ⟨a, b, c⟩
    rcases h2 with h2 | h2 | h2
    · exact h2 a
    · rw [b] at h2; cases h2
    · linarith

theorem Fits.imp {P Q : ℝ → ℝ → Prop} {f f' disp disp' : ℝ → ℝ} {a b : ℝ} (F : Fits P f disp a b) (hf : ∀ x, f x = f' x) (hd : ∀ x, disp x = disp' x)
    (h : ∀ v w, P v w → Q v w) : Fits Q f' disp' a b := by
  have e1 : f = f' := funext hf
  have e2 : disp = disp' := funext hd
  subst e1; subst e2
  obtain ⟨n, l, k, ρ, g, s, hP, e⟩ := F.ex
  exact ⟨n, l, k, ρ, g, s, fun v h1 h2 => h _ _ (hP v h1 h2), e⟩

/-- Times of delays and slew limiters. -/
theorem fits_time {n d : ℝ → ℝ} {a b l h : ℝ} (g : Good n d a b l h) (r : Round) (hr : r = .tms ∨ r = .tmz) (i k : ℤ) (hl : l = i * (1 / 10)) (hk : h = k * 100)
    (hh : 1000 ≤ h) (hl2 : l ≤ 100) (first : Snap (mult 1) l 100) (coarse : Bool) : Fits (Near r coarse) (fun x => rTime n d x coarse) d a b := by
  have h1 : r ≠ .id := by rcases hr with rfl | rfl <;> decide
  have h2 : r ≠ .fms := by rcases hr with rfl | rfl <;> decide
  have h3 : r ≠ .lfot := by rcases hr with rfl | rfl <;> decide
  cases coarse
  · refine ⟨n, l, h, mult (1 / 10), g, snap_at (by norm_num) i (k * 1000) hl (by rw [hk]; push_cast; ring), ?_, ?_⟩
    · intro v _ _
      refine near_plain h1 (Or.inl h2) (Or.inl h3) ?_
      have : r.step false v = 1 / 10 := by rcases hr with rfl | rfl <;> rfl
      rw [this]
      exact mult_multiple (by norm_num) v
    · intro x lo hi _ _ _ _
      congr 1
      unfold rTime
      rw [if_neg (by decide), mult_inv (by norm_num)]
  · refine ⟨n, l, h, timeScale, g, snap_timeScale k hk hh first hl2, ?_, ?_⟩
    · intro v _ _
      refine near_plain h1 (Or.inl h2) (Or.inl h3) ?_
      have : r.step true v = if v ≤ 100 then 1 else if v ≤ 1000 then 10 else 100 := by rcases hr with rfl | rfl <;> rfl
      rw [this]
      unfold timeScale
      by_cases c1 : v ≤ 100
      · rw [if_pos c1, if_neg (by linarith), if_neg (by linarith)]; exact mult_multiple (by norm_num) v
      · rw [if_neg c1]
        by_cases c2 : v ≤ 1000
        · rw [if_pos c2, if_neg (by linarith), if_pos (by linarith)]; exact mult_multiple (by norm_num) v
        · rw [if_neg c2, if_pos (by linarith)]; exact mult_multiple (by norm_num) v
    · intro x lo hi _ _ _ _
      congr 1
      unfold rTime timeScale
      rw [if_pos rfl]
      unfold mult
      split
      · rfl
      · split
        · rfl
        · rw [div_one, mul_one]

/-- Times of filters, down to 0.1 ms. -/
theorem fits_fms (G : Gain) (hG : G.Ok) (coarse : Bool) :
    Fits (Near .fms coarse) (fun x => rTime (Curve.ftme.norm G) (Curve.ftme.denorm G) x coarse) (Curve.ftme.denorm G) 0 1 := by
  have g : Good (Curve.ftme.norm G) (Curve.ftme.denorm G) 0 1 (0.1 : ℝ) 1000 := by
    have := good_curve hG .ftme
    simpa only [Curve.normRange, Curve.physRange, Rat.cast_zero, Rat.cast_one] using this
  cases coarse
  · refine ⟨_, _, _, mult (1 / 10), g, snap_at (by norm_num) 1 10000 (by norm_num) (by norm_num), ?_, ?_⟩
    · intro v _ _
      refine near_plain (by decide) (Or.inr (Or.inl rfl)) (Or.inl (by decide)) ?_
      show Multiple (1 / 10) _ _
      exact mult_multiple (by norm_num) v
    · intro x lo hi _ _ _ _
      congr 1
      unfold rTime
      rw [if_neg (by decide), mult_inv (by norm_num)]
  · have sn : Snap (fun v => if v < 1 / 2 then (1 / 5 : ℝ) else timeScale v) (0.1 : ℝ) 1000 := by
      refine Snap.splice_gap (by norm_num) (by norm_num) (snap_const (by norm_num) (by norm_num)) ?_ (fun _ _ _ => by norm_num)
      refine snap_timeScale 10 (by norm_num) (le_refl _) ?_ (by norm_num)
      refine snap_mult (by norm_num) ?_ ?_
      · unfold mult; rw [div_one, roundAway_half]; norm_num
      · rw [mult_at (by norm_num) 100 (by norm_num)]
    refine ⟨_, _, _, _, g, sn, ?_, ?_⟩
    · intro v _ _
      by_cases hv : v < 1 / 2
      · rw [if_pos hv]
        unfold Near
        rw [if_neg (by decide), if_pos ⟨rfl, rfl, hv⟩]
      · rw [if_neg hv]
        refine near_plain (by decide) (Or.inr (Or.inr (not_lt.1 hv))) (Or.inl (by decide)) ?_
        show Multiple (if v ≤ 100 then 1 else if v ≤ 1000 then 10 else 100) _ _
        unfold timeScale
        by_cases c1 : v ≤ 100
        · rw [if_pos c1, if_neg (by linarith), if_neg (by linarith)]; exact mult_multiple (by norm_num) v
        · rw [if_neg c1]
          by_cases c2 : v ≤ 1000
          · rw [if_pos c2, if_neg (by linarith), if_pos (by linarith)]; exact mult_multiple (by norm_num) v
          · rw [if_neg c2, if_pos (by linarith)]; exact mult_multiple (by norm_num) v
    · intro x lo hi hx hx' _ _
      congr 1
      have hb := g.bounds hx hx'
      unfold rTime timeScale
      generalize Curve.ftme.denorm G x = v at hb ⊢
      rw [if_pos rfl]
      by_cases hv : v < 1 / 2
      · rw [if_pos hv, if_neg (by linarith), if_neg (by linarith)]
        have h0 : roundAway v = 0 := by
          have h1 : 0 ≤ roundAway v := by
            have := roundAway_mono (show (0 : ℝ) ≤ v by have := hb.1; norm_num at this ⊢; linarith)
            have e : roundAway 0 = 0 := by simpa using roundAway_of_int 0
            rwa [e] at this
          obtain ⟨k, hk⟩ := roundAway_int v
          have h2 := roundAway_near v
          rw [hk] at h1 h2 ⊢
          rw [abs_le] at h2
          have h3 : (k : ℝ) < 1 := by linarith [h2.2]
          have h4 : k < 1 := by exact_mod_cast h3
          have h5 : 0 ≤ k := by exact_mod_cast h1
          have : k = 0 := by omega
          rw [this]; norm_num
        rw [h0]
        show Real.sqrt |_| = Real.sqrt |_|
        congr 1
        norm_num [abs_div]
      · rw [if_neg hv]
        unfold mult
        split
        · rfl
        · split
          · rfl
          · rw [div_one, mul_one]

/-! ## Pitches -/

/-- `d_pit` without its limits. -/
noncomputable def pitch (x : ℝ) : ℝ := 440 * (2 : ℝ) ^ (x * 10)

theorem good_pitch {l h : ℝ} (hl : 0.01 ≤ l) (hh : l ≤ h) : Good nPit pitch (nPit l) (nPit h) l h := by
  have back : ∀ v, 0.01 ≤ v → pitch (nPit v) = v := by
    intro v hv
    have hq : 0 < v / 440 := by have : (0 : ℝ) < v := lt_of_lt_of_le (by norm_num) hv; positivity
    unfold pitch nPit
    rw [max_eq_left hv, show 0.1 * Real.logb 2 (v / 440) * 10 = Real.logb 2 (v / 440) by ring, Real.rpow_logb (by norm_num) (by norm_num) hq]
    field_simp
  have mono : ∀ v w, 0.01 ≤ v → v ≤ w → nPit v ≤ nPit w := by
    intro v w hv hvw
    unfold nPit
    rw [max_eq_left hv, max_eq_left (le_trans hv hvw)]
    have hq : 0 < v / 440 := by have : (0 : ℝ) < v := lt_of_lt_of_le (by norm_num) hv; positivity
    have := Real.logb_le_logb_of_le (b := 2) (by norm_num) hq (show v / 440 ≤ w / 440 by gcongr)
    linarith
  have up : ∀ x y : ℝ, x < y → pitch x < pitch y := by
    intro x y hxy
    unfold pitch
    have := Real.rpow_lt_rpow_of_exponent_lt (x := 2) (by norm_num) (show x * 10 < y * 10 by linarith)
    linarith
  constructor
  · exact back l hl
  · exact back h (le_trans hl hh)
  · intro x y _ hxy _; exact up x y hxy
  · intro x hx hx'
    have h1 : l ≤ pitch x := by
      rcases hx.eq_or_lt with he | hlt
      · rw [← he, back l hl]
      · have := up _ _ hlt; rw [back l hl] at this; exact this.le
    unfold nPit pitch
    rw [max_eq_left (le_trans hl (by unfold pitch at h1; exact h1))]
    rw [show 440 * (2 : ℝ) ^ (x * 10) / 440 = (2 : ℝ) ^ (x * 10) by field_simp, Real.logb_rpow (by norm_num) (by norm_num)]
    ring
  · intro v h1 h2
    exact ⟨mono l v hl h1, mono v h (le_trans hl h1) h2, back v (le_trans hl h1)⟩

/-- The rounding of frequencies. -/
noncomputable def freqScale (p : ℝ) : ℝ :=
  if p < 10 then mult (1 / 10) p else if p < 100 then mult 1 p else if p < 1000 then mult 10 p else if p < 10000 then mult 100 p else mult 1000 p

theorem snap_freqScale : Snap freqScale 0.4 451000 := by
  refine Snap.splice (by norm_num) (by norm_num) (snap_at (by norm_num) 4 100 (by norm_num) (by norm_num)) ?_ ?_
  · refine Snap.splice (by norm_num) (by norm_num) (snap_at (by norm_num) 10 100 (by norm_num) (by norm_num)) ?_ ?_
    · refine Snap.splice (by norm_num) (by norm_num) (snap_at (by norm_num) 10 100 (by norm_num) (by norm_num)) ?_ ?_
      · refine Snap.splice (by norm_num) (by norm_num) (snap_at (by norm_num) 10 100 (by norm_num) (by norm_num))
          (snap_at (by norm_num) 10 451 (by norm_num) (by norm_num)) (mult_at (by norm_num) 10 (by norm_num))
      · rw [if_pos (by norm_num)]; exact mult_at (by norm_num) 10 (by norm_num)
    · rw [if_pos (by norm_num)]; exact mult_at (by norm_num) 10 (by norm_num)
  · rw [if_pos (by norm_num)]; exact mult_at (by norm_num) 10 (by norm_num)

theorem near_freqScale (v : ℝ) : Near .fq false v (freqScale v) := by
  refine near_plain (by decide) (Or.inl (by decide)) (Or.inl (by decide)) ?_
  show Multiple (if v < 10 then 1 / 10 else if v < 100 then 1 else if v < 1000 then 10 else if v < 10000 then 100 else 1000) _ _
  unfold freqScale
  split_ifs <;> exact mult_multiple (by norm_num) v

theorem fits_fq_fine : Fits (Near .fq false) (fun x => nPit (freqScale (pitch x))) pitch (nPit 0.4) (nPit 451000) :=
  ⟨_, _, _, freqScale, good_pitch (by norm_num) (by norm_num), snap_freqScale, fun v _ _ => near_freqScale v, fun _ _ _ _ _ _ _ => rfl⟩

theorem rFq_fine (x : ℝ) : rFq x false = nPit (freqScale (dPit x)) := by
  unfold rFq freqScale
  rw [if_neg (by decide)]
  simp only [mult_inv (show (10 : ℝ) ≠ 0 by norm_num)]
  unfold mult
  split_ifs
  · rfl
  · rw [div_one, mul_one]
  · rfl
  · rfl
  · rfl

theorem good_scaled {k a b : ℝ} (hk : 0 < k) : Good (fun v => v / k) (fun x => x * k) a b (a * k) (b * k) := by
  constructor
  · rfl
  · rfl
  · intro x y _ h _; exact mul_lt_mul_of_pos_right h hk
  · intro x _ _; field_simp
  · intro v h1 h2
    refine ⟨?_, ?_, ?_⟩
    · rw [le_div_iff₀ hk]; exact h1
    · rw [div_le_iff₀ hk]; exact h2
    · field_simp

theorem fits_fq_coarse : Fits (Near .fq true) (fun x => rFq x true) (fun x => x * 10) (-1) 1 := by
  refine ⟨_, _, _, mult 1, good_scaled (by norm_num), snap_at (by norm_num) (-10) 10 (by norm_num) (by norm_num), ?_, ?_⟩
  · intro v _ _
    refine near_plain (by decide) (Or.inl (by decide)) (Or.inl (by decide)) ?_
    show Multiple 1 _ _
    exact mult_multiple (by norm_num) v
  · intro x lo hi _ _ _ _
    congr 1
    unfold rFq
    rw [if_pos rfl, mult_one]

theorem fits_s (coarse : Bool) : Fits (Near .s coarse) (fun x => if coarse = true then roundAway (x * 10) / 10 else roundAway (x * 100) / 100) (fun x => x) (-1) 1 := by
  have g : Good (fun v : ℝ => v) (fun x => x) (-1) 1 (-1) 1 := ⟨rfl, rfl, fun _ _ _ h _ => h, fun _ _ _ => rfl, fun _ h1 h2 => ⟨h1, h2, rfl⟩⟩
  cases coarse
  · refine ⟨_, _, _, mult (1 / 100), g, snap_at (by norm_num) (-100) 100 (by norm_num) (by norm_num), ?_, ?_⟩
    · intro v _ _
      refine near_plain (by decide) (Or.inl (by decide)) (Or.inl (by decide)) ?_
      show Multiple (1 / 100) _ _
      exact mult_multiple (by norm_num) v
    · intro x lo hi _ _ _ _
      rw [if_neg (by decide), mult_inv (by norm_num)]
  · refine ⟨_, _, _, mult (1 / 10), g, snap_at (by norm_num) (-10) 10 (by norm_num) (by norm_num), ?_, ?_⟩
    · intro v _ _
      refine near_plain (by decide) (Or.inl (by decide)) (Or.inl (by decide)) ?_
      show Multiple (1 / 10) _ _
      exact mult_multiple (by norm_num) v
    · intro x lo hi _ _ _ _
      rw [if_pos rfl, mult_inv (by norm_num)]

/-! ## Times of LFOs -/

/-- The rounding of the frequency of a time. -/
noncomputable def hzScale (s v : ℝ) : ℝ := 1000 / mult s (1000 / v)

theorem snap_hz {s : ℝ} (hs : 0 < s) (i k : ℤ) (hi : (100 : ℝ) = i * s) (hk : (10000 : ℝ) = k * s) : Snap (hzScale s) 0.1 10 := by
  have sn : Snap (mult s) 100 10000 := snap_at hs i k hi hk
  have fl : ∀ v : ℝ, 0.1 ≤ v → v ≤ 10 → 100 ≤ 1000 / v ∧ 1000 / v ≤ 10000 := by
    intro v h1 h2
    have hv : 0 < v := lt_of_lt_of_le (by norm_num) h1
    rw [le_div_iff₀ hv, div_le_iff₀ hv]
    constructor <;> norm_num at h1 ⊢ <;> linarith
  constructor
  · intro v h1 h2
    obtain ⟨f1, f2⟩ := fl v h1 h2
    obtain ⟨w1, w2⟩ := sn.within _ f1 f2
    have : 0 < mult s (1000 / v) := by linarith
    unfold hzScale
    rw [le_div_iff₀ this, div_le_iff₀ this]
    constructor <;> linarith
  · intro v w h1 h2 h3
    obtain ⟨f1, f2⟩ := fl v h1 (le_trans h2 h3)
    obtain ⟨g1, g2⟩ := fl w (le_trans h1 h2) h3
    have hv : 0 < v := lt_of_lt_of_le (by norm_num) h1
    have := sn.mono _ _ g1 (show 1000 / w ≤ 1000 / v by gcongr) f2
    have hp := (sn.within _ g1 g2).1
    unfold hzScale
    exact div_le_div_of_nonneg_left (by norm_num) (by linarith) this
  · intro v h1 h2
    obtain ⟨f1, f2⟩ := fl v h1 h2
    have hp := (sn.within _ f1 f2).1
    unfold hzScale
    have : (1000 : ℝ) / (1000 / mult s (1000 / v)) = mult s (1000 / v) := by
      have : mult s (1000 / v) ≠ 0 := by linarith
      field_simp
    rw [this, sn.idem _ f1 f2]

/-- The rounding of times of LFOs. -/
noncomputable def lfoScale (coarse : Bool) (v : ℝ) : ℝ :=
  if coarse then
    if v < 10 then hzScale 10 v else if v < 250 then mult 5 v else if v < 1500 then mult 50 v else if v < 2500 then mult 100 v
    else if v < 5000 then mult 500 v else if v < 60000 then mult 1000 v else mult 5000 v
  else
    if v < 10 then hzScale 1 v else if v < 100 then mult 1 v else if v < 1000 then mult 5 v else if v < 2500 then mult 10 v
    else if v < 25000 then mult 100 v else mult 500 v

theorem snap_lfoScale (coarse : Bool) : Snap (lfoScale coarse) 0.1 300000 := by
  cases coarse
  · refine Snap.congr (ρ := fun v => if v < 10 then hzScale 1 v else if v < 100 then mult 1 v else if v < 1000 then mult 5 v else if v < 2500 then mult 10 v
      else if v < 25000 then mult 100 v else mult 500 v) ?_ (fun v _ _ => by unfold lfoScale; rw [if_neg Bool.false_ne_true])
    refine Snap.splice (by norm_num) (by norm_num) (snap_hz (by norm_num) 100 10000 (by norm_num) (by norm_num)) ?_ ?_
    · refine Snap.splice (by norm_num) (by norm_num) (snap_at (by norm_num) 10 100 (by norm_num) (by norm_num)) ?_ ?_
      · refine Snap.splice (by norm_num) (by norm_num) (snap_at (by norm_num) 20 200 (by norm_num) (by norm_num)) ?_ ?_
        · refine Snap.splice (by norm_num) (by norm_num) (snap_at (by norm_num) 100 250 (by norm_num) (by norm_num)) ?_ ?_
          · exact Snap.splice (by norm_num) (by norm_num) (snap_at (by norm_num) 25 250 (by norm_num) (by norm_num))
              (snap_at (by norm_num) 50 600 (by norm_num) (by norm_num)) (mult_at (by norm_num) 50 (by norm_num))
          · rw [if_pos (by norm_num)]; exact mult_at (by norm_num) 25 (by norm_num)
        · rw [if_pos (by norm_num)]; exact mult_at (by norm_num) 100 (by norm_num)
      · rw [if_pos (by norm_num)]; exact mult_at (by norm_num) 20 (by norm_num)
    · rw [if_pos (by norm_num)]; exact mult_at (by norm_num) 10 (by norm_num)
  · refine Snap.congr (ρ := fun v => if v < 10 then hzScale 10 v else if v < 250 then mult 5 v else if v < 1500 then mult 50 v else if v < 2500 then mult 100 v
      else if v < 5000 then mult 500 v else if v < 60000 then mult 1000 v else mult 5000 v) ?_ (fun v _ _ => by unfold lfoScale; rw [if_pos rfl])
    refine Snap.splice (by norm_num) (by norm_num) (snap_hz (by norm_num) 10 1000 (by norm_num) (by norm_num)) ?_ ?_
    · refine Snap.splice (by norm_num) (by norm_num) (snap_at (by norm_num) 2 50 (by norm_num) (by norm_num)) ?_ ?_
      · refine Snap.splice (by norm_num) (by norm_num) (snap_at (by norm_num) 5 30 (by norm_num) (by norm_num)) ?_ ?_
        · refine Snap.splice (by norm_num) (by norm_num) (snap_at (by norm_num) 15 25 (by norm_num) (by norm_num)) ?_ ?_
          · refine Snap.splice (by norm_num) (by norm_num) (snap_at (by norm_num) 5 10 (by norm_num) (by norm_num)) ?_ ?_
            · exact Snap.splice (by norm_num) (by norm_num) (snap_at (by norm_num) 5 60 (by norm_num) (by norm_num))
                (snap_at (by norm_num) 12 60 (by norm_num) (by norm_num)) (mult_at (by norm_num) 12 (by norm_num))
            · rw [if_pos (by norm_num)]; exact mult_at (by norm_num) 5 (by norm_num)
          · rw [if_pos (by norm_num)]; exact mult_at (by norm_num) 5 (by norm_num)
        · rw [if_pos (by norm_num)]; exact mult_at (by norm_num) 15 (by norm_num)
      · rw [if_pos (by norm_num)]; exact mult_at (by norm_num) 5 (by norm_num)
    · rw [if_pos (by norm_num)]; exact mult_at (by norm_num) 2 (by norm_num)

theorem near_hz {coarse : Bool} {s v : ℝ} (hs : 0 < s) (hv : v < 10) (he : Round.lfot.step coarse v = s) : Near .lfot coarse v (hzScale s v) := by
  unfold Near
  rw [if_neg (by decide), if_neg (fun h => by have := h.1; cases this), he]
  unfold Round.reading
  rw [if_pos ⟨rfl, hv⟩, if_pos ⟨rfl, hv⟩]
  have : 1000 / hzScale s v = mult s (1000 / v) := by
    unfold hzScale
    by_cases h0 : mult s (1000 / v) = 0
    · rw [h0]; norm_num
    · field_simp
  rw [this]
  exact mult_multiple hs _

theorem near_lfoScale (coarse : Bool) (v : ℝ) : Near .lfot coarse v (lfoScale coarse v) := by
  cases coarse
  · unfold lfoScale
    rw [if_neg (by decide)]
    by_cases hv : v < 10
    · rw [if_pos hv]
      exact near_hz (by norm_num) hv (by show (if v < 10 then (1 : ℝ) else _) = 1; rw [if_pos hv])
    · rw [if_neg hv]
      refine near_plain (by decide) (Or.inl (by decide)) (Or.inr (not_lt.1 hv)) ?_
      show Multiple (if v < 10 then 1 else if v < 100 then 1 else if v < 1000 then 5 else if v < 2500 then 10 else if v < 25000 then 100 else 500) _ _
      rw [if_neg hv]
      split_ifs <;> exact mult_multiple (by norm_num) v
  · unfold lfoScale
    rw [if_pos rfl]
    by_cases hv : v < 10
    · rw [if_pos hv]
      exact near_hz (by norm_num) hv (by show (if v < 10 then (10 : ℝ) else _) = 10; rw [if_pos hv])
    · rw [if_neg hv]
      refine near_plain (by decide) (Or.inl (by decide)) (Or.inr (not_lt.1 hv)) ?_
      show Multiple (if v < 10 then 10 else if v < 250 then 5 else if v < 1500 then 50 else if v < 2500 then 100 else if v < 5000 then 500
        else if v < 60000 then 1000 else 5000) _ _
      rw [if_neg hv]
      split_ifs <;> exact mult_multiple (by norm_num) v

theorem fits_lfot (G : Gain) (hG : G.Ok) (coarse : Bool) :
    Fits (Near .lfot coarse) (fun x => rLfot (Curve.lfot.norm G) (Curve.lfot.denorm G) x coarse) (Curve.lfot.denorm G) 0 1 := by
  have g : Good (Curve.lfot.norm G) (Curve.lfot.denorm G) 0 1 (0.1 : ℝ) 300000 := by
    have := good_curve hG .lfot
    simpa only [Curve.normRange, Curve.physRange, Rat.cast_zero, Rat.cast_one] using this
  refine ⟨_, _, _, lfoScale coarse, g, snap_lfoScale coarse, fun v _ _ => near_lfoScale coarse v, ?_⟩
  intro x lo hi _ _ _ _
  congr 1
  unfold rLfot lfoScale
  generalize Curve.lfot.denorm G x = v
  cases coarse
  · rw [if_neg Bool.false_ne_true, if_neg Bool.false_ne_true]
    unfold hzScale mult
    simp only [div_one, mul_one]
    split_ifs <;> rfl
  · rw [if_pos rfl, if_pos rfl]
    unfold hzScale mult
    split_ifs <;> rfl

end HexoDSP.RoundingProps
