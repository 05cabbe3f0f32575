import Verif.Spec.Isolate
import Verif.Lemmas.Cut
import Verif.Lemmas.Twin
/-!
# A part of a patch on its own: lemmas
-/

set_option linter.unusedSectionVars false

namespace HexoDSP.Isolate
open HexoDSP.Engine HexoDSP.EngineSpec

variable {N V A M S : Type} [DecidableEq N]
variable {T : NodeTable N V A} {K : FrameNodes N V A S} {U : N → Prop}

/-- What feeds an input of a node can be told from the connections made to this node. -/
theorem feeds_to (T : NodeTable N V A) (es : List (Conn N)) (n : N) (i : Nat) (e : Conn N) :
    Feeds T (es.filter (fun e => decide (e.dst = n))) n i e ↔ Feeds T es n i e := by
  constructor
  · rintro ⟨h1, h2, h3, pre, post, h4, h5⟩
    obtain ⟨l1, l2, rfl, _, h6⟩ := List.filter_eq_append_iff.1 h4
    obtain ⟨m1, m2, rfl, _, _, h7⟩ := List.filter_eq_cons_iff.1 h6
    refine ⟨h1, h2, h3, l1 ++ m1, m2, by simp, fun e' he' hp hd => ?_⟩
    exact h5 e' (by rw [← h7]; exact List.mem_filter.2 ⟨he', by simpa using hd.1⟩) hp hd
  · rintro ⟨h1, h2, h3, pre, post, rfl, h5⟩
    refine ⟨h1, h2, h3, pre.filter (fun e => decide (e.dst = n)), post.filter (fun e => decide (e.dst = n)), ?_,
      fun e' he' => h5 e' (List.mem_of_mem_filter he')⟩
    rw [List.filter_append, List.filter_cons_of_pos (by simpa using h2)]

theorem unfed_to (T : NodeTable N V A) (es : List (Conn N)) (n : N) (i : Nat) :
    Unfed T (es.filter (fun e => decide (e.dst = n))) n i ↔ Unfed T es n i := by
  constructor
  · exact fun h e he hp hd => h e (List.mem_filter.2 ⟨he, by simpa using hd.1⟩) hp hd
  · exact fun h e he => h e (List.mem_of_mem_filter he)

theorem into_to (es : List (Conn N)) (n : N) (i : Nat) :
    (∃ e ∈ es.filter (fun e => decide (e.dst = n)), Plugged T e ∧ e.dst = n ∧ e.dstIn = i) ↔ ∃ e ∈ es, Plugged T e ∧ e.dst = n ∧ e.dstIn = i := by
  constructor
  · rintro ⟨e, he, h⟩; exact ⟨e, List.mem_of_mem_filter he, h⟩
  · rintro ⟨e, he, h⟩; exact ⟨e, List.mem_filter.2 ⟨he, by simpa using h.2.1⟩, h⟩

variable [Add V] [Mul V] [Sub V] [Div V] [NatCast V] [OfNat V 0]

/-- What a node of the part is given in a frame is the same in both patches, but for the flags of its outputs. -/
theorem frame_other {p q : Playing N V A} (h : SamePart T p q U) {n : N} (hn : U n) {par par' out : N → Nat → V}
    (hp : ∀ i, i < T.inCount n → par n i = par' n i) {fi' : FrameIn V A} {b : Nat}
    (f : ∀ k, b.testBit k = true ↔ ∃ e ∈ p.wires, Plugged T e ∧ e.src = n ∧ e.srcOut = k) (g : FrameOK T q par' out n fi') :
    FrameOK T p par out n { fi' with outConnected := b } := by
  have hw := h.wires n hn
  have hf : ∀ i e, Feeds T p.wires n i e → Feeds T q.wires n i e := fun i e hh => by
    rw [← feeds_to, hw, feeds_to] at hh; exact hh
  have hlt : ∀ i e, Feeds T p.wires n i e → i < T.inCount n := fun i e hh => by
    rw [← hh.2.1, ← hh.2.2.1]; exact hh.1.1
  refine ⟨?_, ?_, g.nInputs, fun i hi hu => ?_, fun i e hh ha => ?_, fun i e a hh ha => ?_, fun i => ?_, f⟩
  · show fi'.params = _
    rw [g.params]
    exact List.map_congr_left (fun i hi => (hp i (List.mem_range.1 hi)).symm)
  · show fi'.atoms = _
    rw [g.atoms]
    exact List.map_congr_left (fun i hi => (h.atom n hn i (List.mem_range.1 hi)).symm)
  · show fi'.inputs[i]? = _
    rw [← unfed_to, hw, unfed_to] at hu
    rw [g.unfed i hi hu, hp i hi]
  · show fi'.inputs[i]? = _
    exact g.direct i e (hf i e hh) (by rw [← h.amt n hn i (hlt i e hh)]; exact ha)
  · show fi'.inputs[i]? = _
    rw [g.modulated i e a (hf i e hh) (by rw [← h.amt n hn i (hlt i e hh)]; exact ha), hp i (hlt i e hh)]
  · show fi'.inConnected.testBit i = true ↔ _
    rw [g.inFlags, ← into_to q.wires, ← into_to p.wires, hw]

/-- The part sounds the same in both patches. -/
theorem sounds_part {p q : Playing N V A} (hU : SamePart T p q U) (hB : Blind K U) {par par' : N → Nat → Nat → V} {len : Nat} {st st' : N → S}
    {Z Z' : N → Nat → S} {X X' : N → Nat → Nat → V} (hnd : p.order.Nodup) (hbef : ∀ e ∈ p.wires, GraphOrdering.Before p.order e.src e.dst)
    (hp : ∀ n, U n → ∀ i, i < T.inCount n → ∀ f, par n i f = par' n i f) (hst : ∀ n, U n → st n = st' n)
    (h : Sounds T p K par len st Z X) (h' : Sounds T q K par' len st' Z' X') :
    (∀ t, t ≤ len → ∀ n, U n → Z n t = Z' n t) ∧ ∀ t, t < len → ∀ n, U n → ∀ i, i < T.outCount n → X n i t = X' n i t := by
  have step : ∀ t, t < len → (∀ n, U n → Z n t = Z' n t) →
      (∀ n, U n → Z n (t + 1) = Z' n (t + 1)) ∧ ∀ n, U n → ∀ i, i < T.outCount n → X n i t = X' n i t := by
    intro t ht hz
    have key : ∀ d, ∀ n, U n → p.order.idxOf n = d →
        Z n (t + 1) = Z' n (t + 1) ∧ ∀ i, i < T.outCount n → X n i t = X' n i t := by
      intro d
      induction d using Nat.strongRecOn with
      | ind d ih =>
        intro n hn hd
        obtain ⟨fi, f1, f2, f3⟩ := h.frame n (hU.here n hn) t ht
        obtain ⟨fi', g1, g2, g3⟩ := h'.frame n (hU.there n hn) t ht
        have hfi : fi = { fi' with outConnected := fi.outConnected } :=
          f1.eq (frame_other (par := fun m i => par m i t) hU hn (fun i hi => hp n hn i hi t) f1.outFlags g1) (by
          intro i e hf
          have hb := hbef e hf.mem
          have hlt := before_idx hnd hb
          rw [hf.2.1, hd] at hlt
          exact (ih _ hlt e.src (hU.closed e hf.mem (by rw [hf.2.1]; exact hn)) rfl).2 _ hf.1.2)
        rw [f2, g2, hz n hn, hfi, hB n hn]
        exact ⟨rfl, fun i hi => by rw [f3 i hi, g3 i hi, hz n hn, hfi, hB n hn]⟩
    exact ⟨fun n hn => (key _ n hn rfl).1, fun n hn => (key _ n hn rfl).2⟩
  have hZ : ∀ t, t ≤ len → ∀ n, U n → Z n t = Z' n t := by
    intro t
    induction t with
    | zero => intro _ n hn; rw [h.start n (hU.here n hn), h'.start n (hU.there n hn), hst n hn]
    | succ t ih => intro ht; exact (step t (by omega) (ih (by omega))).1
  exact ⟨hZ, fun t ht => (step t ht (hZ t (by omega))).2⟩

end HexoDSP.Isolate
