import Verif.Spec.Quant
import Mathlib.Tactic.Linarith
import Mathlib.Tactic.Ring
import Mathlib.Algebra.Order.Floor.Ring
import Mathlib.Data.Rat.Floor
/-! The quantizers Quant and CQnt. -/

namespace HexoDSP.QuantProps
open HexoDSP.Quant QuantSpec

variable {K Q C : Type}

theorem loop_oct (E : Ext K Q C) (o : Frame → ℚ) (fs : List Frame) : ∀ n : Node Q C,
    (loop E n (fs.map (fun f => { f with oct := o f }))).1 = (loop E n fs).1 ∧
    (loop E n (fs.map (fun f => { f with oct := o f }))).2 = List.zipWith (fun (f : Frame) (y : ℚ × ℚ) => (y.1 - f.oct + o f, y.2)) fs (loop E n fs).2 ∧
    (loop E n fs).2.length = fs.length := by
  induction fs with
  | nil => intro n; exact ⟨rfl, rfl, rfl⟩
  | cons f fs ih =>
    intro n
    obtain ⟨h1, h2, h3⟩ := ih ⟨(E.toPitch n.quant f.inp).1, (E.changeNext n.change (E.toPitch n.quant f.inp).2).1⟩
    simp only [List.map_cons, loop]
    refine ⟨h1, ?_, by simp [h3]⟩
    rw [List.zipWith_cons_cons, ← h2, add_sub_cancel_right]

/-- **C106** (the octave transposes) Other octave inputs move each pitch by exactly the difference and change no trigger, in every history. -/
theorem octave_transposes (E : Ext K Q C) (o : Frame → ℚ) (es : List (Ev K)) : ∀ n : Node Q C,
    (n.run E (mapInputs (fun f => { f with oct := o f }) es)).2 =
      List.zipWith (fun (kf : K × Frame) (y : ℚ × ℚ) => (y.1 - kf.2.oct + o kf.2, y.2)) (frames es) (n.run E es).2 := by
  induction es with
  | nil => intro n; rfl
  | cons e es ih =>
    intro n
    cases e with
    | reset => exact ih _
    | rate r => exact ih _
    | block k fs =>
      obtain ⟨h1, h2, h3⟩ := loop_oct E o fs { n with quant := E.setKeys n.quant k }
      simp only [mapInputs, Node.run, frames, Node.process, h1, h2]
      rw [List.zipWith_append (h := by simp [h3]), ih]
      congr 1
      generalize (loop E { n with quant := E.setKeys n.quant k } fs).2 = l
      clear h1 h2 h3
      induction fs generalizing l with
      | nil => rfl
      | cons f fs ih2 => cases l with
        | nil => rfl
        | cons y l => simp [ih2 l]

theorem loop_notes (E : Ext K Q C) {note : K → ℚ → Prop} {ready : Q → K → Prop} (h : OnlyNotes E note ready) (k : K) (fs : List Frame) : ∀ n : Node Q C,
    ready n.quant k → ∀ x ∈ (fs.map (fun f => (k, f))).zip (loop E n fs).2, note x.1.1 (x.2.1 - x.1.2.oct) := by
  induction fs with
  | nil => intro n _ x hx; exact absurd hx (by simp)
  | cons f fs ih =>
    intro n hr x hx
    obtain ⟨h1, h2⟩ := h.pitch _ _ f.inp hr
    simp only [List.map_cons, loop, List.zip_cons_cons, List.mem_cons] at hx
    rcases hx with rfl | hx
    · simp only [add_sub_cancel_right]; exact h1
    · exact ih ⟨(E.toPitch n.quant f.inp).1, _⟩ h2 x hx

/-- **C106** (only selected notes) In every frame of every history, the output is, up to the octave input, a note of the keys selected for that block. -/
theorem only_selected_notes (E : Ext K Q C) {note : K → ℚ → Prop} {ready : Q → K → Prop} (h : OnlyNotes E note ready) (es : List (Ev K)) : ∀ n : Node Q C,
    ∀ x ∈ (frames es).zip (n.run E es).2, note x.1.1 (x.2.1 - x.1.2.oct) := by
  induction es with
  | nil => intro n x hx; exact absurd hx (by simp [frames])
  | cons e es ih =>
    intro n
    cases e with
    | reset => exact ih _
    | rate r => exact ih _
    | block k fs =>
      intro x hx
      obtain ⟨-, -, h3⟩ := loop_oct E (fun f => f.oct) fs { n with quant := E.setKeys n.quant k }
      simp only [frames, Node.run, Node.process] at hx
      rw [List.zip_append (by simp [h3]), List.mem_append] at hx
      rcases hx with hx | hx
      · exact loop_notes E h k fs _ (h.set _ _) x hx
      · exact ih _ x hx

/-- One output per frame. -/
theorem run_length (E : Ext K Q C) (es : List (Ev K)) : ∀ n : Node Q C, (n.run E es).2.length = (frames es).length := by
  induction es with
  | nil => intro n; rfl
  | cons e es ih =>
    intro n
    cases e with
    | reset => exact ih _
    | rate r => exact ih _
    | block k fs =>
      obtain ⟨-, -, h3⟩ := loop_oct E (fun f => f.oct) fs { n with quant := E.setKeys n.quant k }
      simp only [Node.run, frames, Node.process, List.length_append, List.length_map, h3, ih]

theorem loop_change (E : Ext K Q C) (fs : List Frame) : ∀ q c c', (loop E ⟨q, c⟩ fs).1.quant = (loop E ⟨q, c'⟩ fs).1.quant ∧
    (loop E ⟨q, c⟩ fs).2.map Prod.fst = (loop E ⟨q, c'⟩ fs).2.map Prod.fst := by
  induction fs with
  | nil => intro q c c'; exact ⟨rfl, rfl⟩
  | cons f fs ih =>
    intro q c c'
    obtain ⟨h1, h2⟩ := ih (E.toPitch q f.inp).1 (E.changeNext c (E.toPitch q f.inp).2).1 (E.changeNext c' (E.toPitch q f.inp).2).1
    exact ⟨h1, by simp only [loop, List.map_cons, h2]⟩

/-- **C106** (resets and rates) Resets and changes of the sample rate concern the trigger output alone: the pitches are the same without them. -/
theorem reset_keeps_pitch (E : Ext K Q C) (es : List (Ev K)) : ∀ (q : Q) (c c' : C),
    ((⟨q, c⟩ : Node Q C).run E es).2.map Prod.fst = ((⟨q, c'⟩ : Node Q C).run E (blocksOnly es)).2.map Prod.fst := by
  induction es with
  | nil => intro q c c'; rfl
  | cons e es ih =>
    intro q c c'
    cases e with
    | reset => exact ih _ _ _
    | rate r => exact ih _ _ _
    | block k fs =>
      obtain ⟨h1, h2⟩ := loop_change E fs (E.setKeys q k) c c'
      simp only [Node.run, blocksOnly, Node.process, List.map_append, h2]
      congr 1
      have h3 := ih (loop E ⟨E.setKeys q k, c⟩ fs).1.quant (loop E ⟨E.setKeys q k, c⟩ fs).1.change (loop E ⟨E.setKeys q k, c'⟩ fs).1.change
      have e1 : (⟨(loop E ⟨E.setKeys q k, c⟩ fs).1.quant, (loop E ⟨E.setKeys q k, c'⟩ fs).1.change⟩ : Node Q C) = (loop E ⟨E.setKeys q k, c'⟩ fs).1 := by
        rw [h1]
      rw [e1] at h3
      exact h3

/-- The trigger output for pitches `ps`. -/
def triggers (E : Ext K Q C) : C → List ℚ → List ℚ
  | _, [] => []
  | c, p :: ps => (E.changeNext c p).2 :: triggers E (E.changeNext c p).1 ps

theorem loop_triggers (E : Ext K Q C) (fs : List Frame) : ∀ (n : Node Q C) rest,
    triggers E n.change ((List.zipWith (fun (f : Frame) (y : ℚ × ℚ) => y.1 - f.oct) fs (loop E n fs).2) ++ rest) =
      (loop E n fs).2.map Prod.snd ++ triggers E (loop E n fs).1.change rest := by
  induction fs with
  | nil => intro n rest; rfl
  | cons f fs ih =>
    intro n rest
    simp only [loop, List.zipWith_cons_cons, List.cons_append, triggers, add_sub_cancel_right, List.map_cons]
    have := ih ⟨(E.toPitch n.quant f.inp).1, (E.changeNext n.change (E.toPitch n.quant f.inp).2).1⟩ rest
    simp only at this
    rw [this]

/-- **C106** (triggers) As long as there is no reset or new rate, the trigger output is what the change detector makes of the pitches before the octave is
added, across blocks and changes of the keys. -/
theorem triggers_follow_the_pitch (E : Ext K Q C) (es : List (Ev K)) (hb : blocksOnly es = es) : ∀ n : Node Q C,
    (n.run E es).2.map Prod.snd =
      triggers E n.change (List.zipWith (fun (kf : K × Frame) (y : ℚ × ℚ) => y.1 - kf.2.oct) (frames es) (n.run E es).2) := by
  induction es with
  | nil => intro n; rfl
  | cons e es ih =>
    intro n
    have hlen : ∀ l : List (Ev K), (blocksOnly l).length ≤ l.length := by
      intro l
      induction l with
      | nil => exact le_refl _
      | cons e l ih => cases e <;> simp [blocksOnly] <;> omega
    cases e with
    | reset => have h := congrArg List.length hb; have := hlen es; simp [blocksOnly] at h; omega
    | rate r => have h := congrArg List.length hb; have := hlen es; simp [blocksOnly] at h; omega
    | block k fs =>
      have hb' : blocksOnly es = es := by simpa [blocksOnly] using hb
      obtain ⟨-, -, h3⟩ := loop_oct E (fun f => f.oct) fs { n with quant := E.setKeys n.quant k }
      simp only [Node.run, frames, Node.process, List.map_append]
      rw [List.zipWith_append (h := by simp [h3]), ih hb']
      have e1 : List.zipWith (fun (kf : K × Frame) (y : ℚ × ℚ) => y.1 - kf.2.oct) (fs.map (fun f => (k, f))) (loop E { n with quant := E.setKeys n.quant k } fs).2 =
          List.zipWith (fun (f : Frame) (y : ℚ × ℚ) => y.1 - f.oct) fs (loop E { n with quant := E.setKeys n.quant k } fs).2 := by
        rw [List.zipWith_map_left]
      rw [e1]
      exact (loop_triggers E fs { n with quant := E.setKeys n.quant k } _).symm

/-- **C106** (the shown key) If the last pitch is, up to a rounding error of 0.000009, that of the key `k` of twelve, a display that cuts the phase value into
twelve parts shows that key, and the LED value goes, up to that error, from -1 for the first key in steps of one sixth. -/
theorem shown_key (E : Ext K Q C) (n : Node Q C) (k : Nat) (hk : k < 12) (herr : |E.lastKeyPitch n.quant - (k : ℚ) * (1/10/12)| ≤ 9/1000000) :
    ⌊n.phaseVal E * 12⌋ = (k : ℤ) ∧ |n.ledVal E - (-1 + (k : ℚ) / 6)| ≤ 18/100000 := by
  rw [abs_le] at herr
  obtain ⟨h1, h2⟩ := herr
  have hk' : (k : ℚ) ≤ 11 := by exact_mod_cast (show k ≤ 11 by omega)
  have hk0 : (0 : ℚ) ≤ k := by positivity
  constructor
  · rw [Int.floor_eq_iff]
    unfold Node.phaseVal
    push_cast
    constructor <;> linarith
  · unfold Node.ledVal
    rw [abs_le]
    constructor <;> linarith

/-- **C106** (ports) Quant, which writes to the ports of CQnt, writes to its own: `sig` and `t` have the same numbers in both. -/
theorem own_ports : quantWrites = ["sig", "t"].map (fun name => (Table.row_quant.outs.find? (fun o => o.name == name)).map (fun o => o.idx)) ∧
    quantWrites = [some 0, some 1] := by decide +kernel

/-! ### The assumptions are met -/

/-- A quantizer that rounds down to twelfths of an octave, on the keys below the number set; and a trigger at changes. -/
def exE : Ext Int Int ℚ := ⟨12, fun _ k => k, fun q x => (q, ((⌊x * 120⌋ % max q 1 : Int) : ℚ) / 120), fun q => (q : ℚ) / 120, 0, fun c _ => c, fun _ => 0,
  fun c p => (p, if c = p then 0 else 1)⟩

example : OnlyNotes exE (fun k p => ∃ i : Int, 0 ≤ i ∧ i < max k 1 ∧ p = i / 120) (fun q k => q = k) :=
  ⟨fun _ _ => rfl, fun q k x h => by
    subst h
    exact ⟨⟨⌊x * 120⌋ % max q 1, Int.emod_nonneg _ (by omega), Int.emod_lt_of_pos _ (by omega), rfl⟩, rfl⟩⟩

example : ((Node.new exE).run exE [.block 12 [⟨3/100, 0⟩, ⟨3/100, 1/10⟩], .block 2 [⟨3/100, 0⟩]]).2 = [(1/40, 1), (1/8, 0), (1/120, 1)] := by decide +kernel

example : blocksOnly ([.block 12 [⟨3/100, 0⟩, ⟨3/100, 1/10⟩], .block 2 [⟨3/100, 0⟩]] : List (Ev Int)) = [.block 12 [⟨3/100, 0⟩, ⟨3/100, 1/10⟩], .block 2 [⟨3/100, 0⟩]] := rfl

example : |exE.lastKeyPitch 5 - ((5 : ℕ) : ℚ) * (1/10/12)| ≤ 9/1000000 := by decide +kernel

end HexoDSP.QuantProps
