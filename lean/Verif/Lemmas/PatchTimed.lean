import Verif.Lemmas.PatchInv
import Verif.Spec.PatchTimed
import Verif.Props.Param
/-! The clock of the matrix and the clock of the engine. -/

set_option linter.unusedSectionVars false

namespace HexoDSP.Patch
open HexoDSP.EngineSpec HexoDSP.NodeConfProps HexoDSP.Play HexoDSP.ParamProps
open HexoDSP.Matrix (MatrixError)
open HexoDSP.Engine

variable {K V A M σ P PR B BR : Type} [DecidableEq K]
variable [Add V] [Mul V] [Sub V] [Div V] [NatCast V] [OfNat V 0]
variable {T : NodeTable (NodeId K) V A} {a0 : A} {run : σ → CallIn (NodeId K) V A → σ × (Nat → Block V)} {E : Env K V A P PR B BR}

/-- The engine, followed with the clock of the matrix; `now` is what plays. -/
def Clocked (T : NodeTable (NodeId K) V A) (a0 : A) (run : σ → CallIn (NodeId K) V A → σ × (Nat → Block V)) (h : Hand K) (now : Playing (NodeId K) V A)
    (w : World (NodeId K) V A M σ) (t : Track (NodeId K) V A) : Prop :=
  Timed T a0 run w t h.clock ∧ (∀ n i, (∃ v, Update.param n i v ∈ t.pending) ↔ (n, i) ∈ h.sent) ∧ t.now = now

/-- Calls of the engine that move nothing. -/
def still (h : Hand K) : EOp (NodeId K) V A M → Prop
  | .createNode _ => True
  | .deleteNodes => (∀ n i, h.clock.hot n i = false) ∧ h.sent = []
  | .setAtom _ _ _ => True
  | .setModamt _ _ => True
  | .sync _ _ _ => True
  | .monitor _ _ _ => True
  | .dropOne => True
  | _ => False

theorem base_still (h : Hand K) : Base (still h : EOp (NodeId K) V A M → Prop) :=
  ⟨⟨fun _ _ _ => trivial, fun _ _ => trivial⟩, fun _ => trivial, fun _ _ _ => trivial, fun _ _ _ => trivial⟩

theorem asks_nil {c : Conf (NodeId K) V A} {op : EOp (NodeId K) V A M} (hs : ∀ n i v, op ≠ .setInput n i v) (n : NodeId K) (i : Nat) (v : V) :
    Update.param n i v ∉ asks T c op := fun h => hs n i v (asks_param h)

theorem clocked_still (h : Hand K) (now : Playing (NodeId K) V A) : Closed (M := M) T a0 run (still h) (Clocked T a0 run h now) := by
  rintro w t op w' out ⟨h1, h2, h3⟩ hok hc hs
  have hset : ∀ n i v, op ≠ .setInput n i v := by rintro n i v rfl; exact hok
  have hpoll : op ≠ .poll := by rintro rfl; exact hok
  have hpr : ∀ n, op ≠ .process n := by rintro n rfl; exact hok
  have hsl : ∀ n, op ≠ .setSlope n := by rintro n rfl; exact hok
  have hg : Gentle T w t h.clock op := by
    refine ⟨hc, fun hp => absurd hp hpoll, ?_⟩
    rintro rfl
    obtain ⟨a, b⟩ : (∀ n i, h.clock.hot n i = false) ∧ h.sent = [] := hok
    refine ⟨a, fun n i v hv => ?_⟩
    have := (h2 n i).1 ⟨v, hv⟩
    rw [b] at this
    cases this
  have hk : h.clock.step t.pending op = h.clock := by
    cases op with
    | poll => exact absurd rfl hpoll
    | process n => exact absurd rfl (hpr n)
    | setSlope n => exact absurd rfl (hsl n)
    | _ => rfl
  have ht : t.step T w.conf op = { t with pending := t.pending ++ asks T w.conf op } := by
    cases op with
    | poll => exact absurd rfl hpoll
    | _ => rfl
  have := Timed.call h1 hg hs
  rw [hk] at this
  refine ⟨this, ?_, by rw [ht]; exact h3⟩
  intro n i
  rw [ht, ← h2 n i]
  constructor
  · rintro ⟨v, hv⟩
    rcases List.mem_append.1 hv with hv | hv
    · exact ⟨v, hv⟩
    · exact absurd hv (asks_nil hset n i v)
  · rintro ⟨v, hv⟩; exact ⟨v, List.mem_append_left _ hv⟩

/-- The engine has no nodes. -/
def Bare (T : NodeTable (NodeId K) V A) (a0 : A) (run : σ → CallIn (NodeId K) V A → σ × (Nat → Block V)) (h : Hand K) (now : Playing (NodeId K) V A)
    (w : World (NodeId K) V A M σ) (t : Track (NodeId K) V A) : Prop := Clocked T a0 run h now w t ∧ ∀ n, w.conf.instanceOf n = none

/-- One value that is set. -/
theorem clocked_setInput {h : Hand K} {now : Playing (NodeId K) V A} {w w' : World (NodeId K) V A M σ} {t : Track (NodeId K) V A} {n : NodeId K} {i : Nat} {v : V}
    {out : Option (BlockResult (NodeId K) V A)} (hf : Clocked T a0 run h now w t) (hc : Careful T w (.setInput n i v : EOp (NodeId K) V A M))
    (hs : w.step T a0 run (.setInput n i v) = some (w', out)) :
    Clocked T a0 run (if (w.conf.instanceOf n).isSome ∧ i < T.inCount n then { h with sent := (n, i) :: h.sent } else h) now w'
      (t.step T w.conf (.setInput n i v : EOp (NodeId K) V A M)) := by
  obtain ⟨h1, h2, h3⟩ := hf
  have hg : Gentle T w t h.clock (.setInput n i v : EOp (NodeId K) V A M) := ⟨hc, fun hp => (nomatch hp), fun hp => (nomatch hp)⟩
  have ht : t.step T w.conf (.setInput n i v : EOp (NodeId K) V A M) =
      { t with pending := t.pending ++ asks T w.conf (.setInput n i v : EOp (NodeId K) V A M) } := rfl
  have hcall := Timed.call h1 hg hs
  have hk : h.clock.step t.pending (.setInput n i v : EOp (NodeId K) V A M) = h.clock := rfl
  rw [hk] at hcall
  split
  · rename_i hl
    have ha : asks T w.conf (.setInput n i v : EOp (NodeId K) V A M) = [.param n i v] := if_pos hl
    refine ⟨hcall, ?_, h3⟩
    intro m j
    rw [ht, ha]
    simp only [List.mem_cons, ← h2 m j, Prod.mk.injEq]
    constructor
    · rintro ⟨x, hx⟩
      rcases List.mem_append.1 hx with hx | hx
      · exact Or.inr ⟨x, hx⟩
      · simp only [List.mem_cons, Update.param.injEq, List.not_mem_nil, or_false] at hx
        exact Or.inl ⟨hx.1, hx.2.1⟩
    · rintro (⟨rfl, rfl⟩ | ⟨x, hx⟩)
      · exact ⟨v, by simp⟩
      · exact ⟨x, List.mem_append_left _ hx⟩
  · rename_i hl
    have ha : asks T w.conf (.setInput n i v : EOp (NodeId K) V A M) = [.store n i v] := if_neg hl
    refine ⟨hcall, ?_, h3⟩
    intro m j
    rw [ht, ha]
    simp only [← h2 m j]
    constructor
    · rintro ⟨x, hx⟩
      rcases List.mem_append.1 hx with hx | hx
      · exact ⟨x, hx⟩
      · simp at hx
    · rintro ⟨x, hx⟩; exact ⟨x, List.mem_append_left _ hx⟩

theorem bare_set (h : Hand K) (now : Playing (NodeId K) V A) : Closed (M := M) T a0 run IsSet (Bare T a0 run h now) := by
  rintro w t op w' out ⟨hf, hb⟩ hok hc hs
  cases op with
  | setInput n i v =>
    refine ⟨?_, fun m => by rw [instanceOf_setInput hs, hb]⟩
    have := clocked_setInput hf hc hs
    rwa [if_neg (by rw [hb n]; simp)] at this
  | setAtom n i a =>
    refine ⟨clocked_still h now w t _ w' out hf trivial hc hs, fun m => ?_⟩
    simp only [World.step, Option.some.injEq, Prod.mk.injEq] at hs
    rw [← hs.1, conf_sendAll, ← hb m]
    simp only [Conf.setAtom]
    split <;> rfl
  | setModamt p v =>
    refine ⟨clocked_still h now w t _ w' out hf trivial hc hs, fun m => ?_⟩
    simp only [World.step, Option.some.injEq, Prod.mk.injEq] at hs
    rw [← hs.1, conf_sendAll, ← hb m]
    simp only [Conf.setModamt]
    repeat' split
    all_goals rfl
  | _ => exact absurd hok id

theorem two_clocked (h : Hand K) (now : Playing (NodeId K) V A) :
    Two (M := M) T a0 run (still h) IsSet (still h) (Clocked T a0 run h now) (Bare T a0 run h now) (Clocked T a0 run h now) :=
  ⟨base_still h, ⟨fun _ _ _ => trivial, fun _ _ => trivial⟩, base_still h, clocked_still h now, bare_set h now, clocked_still h now, fun _ _ h => h,
    fun _ _ h hb => ⟨h, hb⟩, fun _ _ h => h.1⟩

theorem take_hand (us : List (Update (NodeId K) V A)) : ∀ k : Clock (NodeId K),
    (us.foldl Clock.take k).slope = k.slope ∧
    (∀ n i, ((∃ v, Update.param n i v ∈ us) → (us.foldl Clock.take k).left n i = k.slope + 1 ∧ (us.foldl Clock.take k).hot n i = true) ∧
      ((¬ ∃ v, Update.param n i v ∈ us) → (us.foldl Clock.take k).left n i = k.left n i ∧ (us.foldl Clock.take k).hot n i = k.hot n i)) := by
  induction us with
  | nil => intro k; exact ⟨rfl, fun n i => ⟨fun ⟨v, hv⟩ => (nomatch hv), fun _ => ⟨rfl, rfl⟩⟩⟩
  | cons u us ih =>
    intro k
    rw [List.foldl_cons]
    obtain ⟨h1, h2⟩ := ih (k.take u)
    have hsl : (k.take u).slope = k.slope := by cases u <;> rfl
    refine ⟨h1.trans hsl, fun n i => ?_⟩
    obtain ⟨a, b⟩ := h2 n i
    rw [hsl] at a
    by_cases hin : ∃ v, Update.param n i v ∈ us
    · obtain ⟨v, hv⟩ := hin
      exact ⟨fun _ => a ⟨v, hv⟩, fun hno => absurd ⟨v, List.mem_cons_of_mem _ hv⟩ hno⟩
    · obtain ⟨b1, b2⟩ := b hin
      rw [b1, b2]
      have hother : (∀ v, u ≠ .param n i v) → (k.take u).left n i = k.left n i ∧ (k.take u).hot n i = k.hot n i := by
        intro hne
        cases u with
        | param m j v =>
          have : ¬ (n = m ∧ i = j) := by rintro ⟨rfl, rfl⟩; exact hne v rfl
          exact ⟨if_neg this, if_neg this⟩
        | _ => exact ⟨rfl, rfl⟩
      constructor
      · rintro ⟨v, hv⟩
        rcases List.mem_cons.1 hv with rfl | hv
        · exact ⟨if_pos ⟨rfl, rfl⟩, if_pos ⟨rfl, rfl⟩⟩
        · exact absurd ⟨v, hv⟩ hin
      · intro hno
        exact hother (fun v he => hno ⟨v, by rw [he]; exact List.mem_cons_self⟩)

variable {s s' : FM K V A M σ P B} {h : Hand K} {now : Playing (NodeId K) V A}

/-- The audio thread takes its messages. -/
theorem hand_poll {w w' : World (NodeId K) V A M σ} {t : Track (NodeId K) V A} {out : Option (BlockResult (NodeId K) V A)}
    (hf : Clocked T a0 run h now w t) (hg : FOp.Gentle h (.poll : FOp K V A P PR B BR)) (hs : w.step T a0 run .poll = some (w', out)) :
    Clocked T a0 run (h.step T s (.poll : FOp K V A P PR B BR)) (final t) w' (t.step T w.conf (.poll : EOp (NodeId K) V A M)) := by
  obtain ⟨h1, h2, h3⟩ := hf
  obtain ⟨S, hS, hcov⟩ := hg
  have hc := (audio_facts (Or.inl rfl) hs t).1
  have hgen : Gentle T w t h.clock (.poll : EOp (NodeId K) V A M) :=
    ⟨hc, fun _ => ⟨S, hS, fun n i hh => hcov n i (hh.imp id (fun x => (h2 n i).1 x))⟩, fun he => (nomatch he)⟩
  have hcall := Timed.call h1 hgen hs
  have hk : h.clock.step t.pending (.poll : EOp (NodeId K) V A M) = (h.step T s (.poll : FOp K V A P PR B BR)).clock := by
    obtain ⟨a, b⟩ := take_hand t.pending h.clock
    show t.pending.foldl Clock.take h.clock = { h.clock with
      left := fun n i => if (n, i) ∈ h.sent then h.clock.slope + 1 else h.clock.left n i
      hot := fun n i => if (n, i) ∈ h.sent then true else h.clock.hot n i }
    generalize t.pending.foldl Clock.take h.clock = k at a b ⊢
    cases k with
    | mk sl le ho =>
      simp only at a b
      subst a
      congr 1
      · funext n i
        split
        · rename_i hm; exact ((b n i).1 ((h2 n i).2 hm)).1
        · rename_i hm; exact ((b n i).2 (fun hx => hm ((h2 n i).1 hx))).1
      · funext n i
        split
        · rename_i hm; exact ((b n i).1 ((h2 n i).2 hm)).2
        · rename_i hm; exact ((b n i).2 (fun hx => hm ((h2 n i).1 hx))).2
  rw [hk] at hcall
  refine ⟨hcall, fun n i => ?_, rfl⟩
  constructor
  · rintro ⟨v, hv⟩; cases hv
  · intro hv; cases hv

/-- Every call but that. -/
theorem hand_step (hi : Inv T a0 run s) {op : FOp K V A P PR B BR} (ht : op.Typed) (hg : op.Gentle h) (hne : op ≠ .poll)
    {err : Option (MatrixError (NodeId K))} (hs : s.step T a0 run E op = some (s', err)) (hr : Room s') {t : Track (NodeId K) V A}
    (hf : Clocked T a0 run h now s.world t) : ∃ t', Clocked T a0 run (h.step T s op) now s'.world t' := by
  have hdrop : Moves (M := M) T a0 run (Clocked T a0 run h now) (Clocked T a0 run h now) .dropOne :=
    fun w t w' out hf hc hs => clocked_still h now w t _ w' out hf trivial hc hs
  cases op with
  | poll => exact absurd rfl hne
  | setInput n i v =>
    simp only [FM.step] at hs
    obtain ⟨s1, h1, h2⟩ := Option.map_eq_some_iff.1 hs
    simp only [Prod.mk.injEq] at h2
    unfold FM.setParam at h1
    obtain ⟨s2, h3, rfl⟩ := Option.map_eq_some_iff.1 h1
    obtain ⟨w, out, hw, rfl⟩ := call_spec h3
    rw [← h2.1] at hr ⊢
    have hq := queue_by (op := .setInput n i v) trivial hw
    have hlt := hr.1
    simp only at hlt
    exact ⟨_, clocked_setInput hf (careful_by trivial trivial (fun _ _ _ e => nomatch e) (by omega)) hw⟩
  | process nf =>
    simp only [FM.step] at hs
    obtain ⟨s1, h1, h2⟩ := Option.map_eq_some_iff.1 hs
    simp only [Prod.mk.injEq] at h2
    obtain ⟨w, out, hw, rfl⟩ := call_spec h1
    rw [← h2.1]
    have hgen : Gentle T s.world t h.clock (.process nf : EOp (NodeId K) V A M) :=
      ⟨(audio_facts (Or.inr (Or.inl ⟨nf, rfl⟩)) hw t).1, fun he => (nomatch he), fun he => (nomatch he)⟩
    have hst : t.step T s.world.conf (.process nf : EOp (NodeId K) V A M) = t := by simp [Track.step, asks]
    have hcall := Timed.call hf.1 hgen hw
    rw [hst] at hcall
    exact ⟨t, hcall, hf.2⟩
  | setSlope n =>
    simp only [FM.step] at hs
    obtain ⟨s1, h1, h2⟩ := Option.map_eq_some_iff.1 hs
    simp only [Prod.mk.injEq] at h2
    obtain ⟨w, out, hw, rfl⟩ := call_spec h1
    rw [← h2.1]
    have hgen : Gentle T s.world t h.clock (.setSlope n : EOp (NodeId K) V A M) :=
      ⟨(audio_facts (Or.inr (Or.inr (Or.inr ⟨n, rfl⟩))) hw t).1, fun he => (nomatch he), fun he => (nomatch he)⟩
    have hst : t.step T s.world.conf (.setSlope n : EOp (NodeId K) V A M) = t := by simp [Track.step, asks]
    have hcall := Timed.call hf.1 hgen hw
    rw [hst] at hcall
    exact ⟨t, hcall, hf.2⟩
  | dropOne => exact (step_tracks (two_clocked h now) hi ht hdrop hs).2 hr t hf
  | clear => exact (step_tracks (two_clocked h now) hi ht hg hs).2 hr t hf
  | fromRepr rp => exact (step_tracks (two_clocked h now) hi ht ⟨hg, fun _ _ _ => trivial⟩ hs).2 hr t hf
  | _ => exact (step_tracks (two_clocked h now) hi ht trivial hs).2 hr t hf

theorem timely_clocked (hh : Timely T a0 run E s h) : Inv T a0 run s ∧ ∃ t, Clocked T a0 run h t.now s.world t := by
  induction hh with
  | new w h st => exact ⟨inv_new w h st, _, .new st, fun n i => by simp [Hand.new, Track.new], rfl⟩
  | @step s s' h op err _ ht hg hs hr ih =>
    obtain ⟨hi, t, hf⟩ := ih
    refine ⟨inv_step hi ht hs, ?_⟩
    by_cases hp : op = .poll
    · subst hp
      simp only [FM.step] at hs
      obtain ⟨s1, h1, h2⟩ := Option.map_eq_some_iff.1 hs
      simp only [Prod.mk.injEq] at h2
      obtain ⟨w, out, hw, rfl⟩ := call_spec h1
      rw [← h2.1]
      exact ⟨_, hand_poll hf hg hw⟩
    · obtain ⟨t', hf'⟩ := hand_step hi ht hg hp hs hr hf
      exact ⟨t', hf'.1, hf'.2.1, rfl⟩
  | outside st _ ih =>
    obtain ⟨hi, t, hf⟩ := ih
    exact ⟨inv_outside hi st, t, .outside st hf.1, hf.2⟩

theorem between_clocked {s0 : FM K V A M σ P B} {h0 : Hand K} (hb : Between T a0 run E s0 h0 s h) (hi : Inv T a0 run s0) {t : Track (NodeId K) V A}
    (hf : Clocked T a0 run h0 now s0.world t) : Inv T a0 run s ∧ ∃ t', Clocked T a0 run h now s.world t' := by
  induction hb with
  | refl => exact ⟨hi, t, hf⟩
  | step _ ht hg hp hs hr ih =>
    obtain ⟨i1, t1, f1⟩ := ih hf
    exact ⟨inv_step i1 ht hs, hand_step i1 ht hg hp hs hr f1⟩
  | outside st _ ih =>
    obtain ⟨i1, t1, f1⟩ := ih hf
    exact ⟨inv_outside i1 st, t1, .outside st f1.1, f1.2⟩

end HexoDSP.Patch
