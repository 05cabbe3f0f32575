import Verif.Lemmas.Param3
import Verif.Props.Flow
/-!
# Parameter values and the monitor (C15, C54)

The full C15 is false in three ways, each shown by a careful history: a burst of more than 40 parameter
changes loses some of them (`burst_loses_update`); deleting all nodes while a parameter moves makes the
next block panic (`deleting_while_moving_panics`), or, if a new patch is loaded before that, changes a
parameter of the new patch that nobody touched (`moving_leaks_into_next_patch`). What is proved, for every
history that avoids these (`Timed`): every parameter of every node holds in every block the value that was
asked for last, from the frame on at which the clock says it has arrived.
-/

set_option linter.unusedSectionVars false

namespace HexoDSP.ParamProps
open HexoDSP.Engine HexoDSP.EngineSpec HexoDSP.NodeConfProps HexoDSP.FlowProps

variable {N V A M σ : Type} [DecidableEq N]
variable [Add V] [Mul V] [Sub V] [Div V] [NatCast V] [OfNat V 0]
variable {T : NodeTable N V A} {a0 : A} {run : σ → CallIn N V A → σ × (Nat → Block V)}
variable {w w' : World N V A M σ} {t : Track N V A} {k : Clock N} {nf : Nat} {r : BlockResult N V A}

/-- A history of gentle calls is one of careful calls. -/
theorem timed_follows (h : Timed T a0 run w t k) : Follows T a0 run w t := by
  induction h with
  | new st => exact .new st
  | call _ hg hs ih => exact .call ih hg.careful hs
  | outside st _ ih => exact .outside st ih

theorem timed_tsim (hT : ∀ n, T.inCount n ≤ 32) (h : Timed T a0 run w t k) : TSim T w t k := by
  induction h with
  | new st => exact tsim_new T st
  | call hh hg hs ih =>
    obtain ⟨_, h1, h2⟩ := follows_sim hT (timed_follows hh)
    exact tsim_step hT h1 h2 ih hg hs
  | outside st _ ih => exact ⟨ih.sim, ih.calm, ih.cold⟩

/-- **C15** In every block, parameter `i` of every node that runs holds the value that was asked for last,
from frame `left - 1` on, where `left` is `slope + 1` when a change reaches the audio thread and counts the
frames processed since. In particular a parameter that was not touched holds its value in every frame. -/
theorem param_arrives_partial (hT : ∀ n, T.inCount n ≤ 32) (h : Timed T a0 run w t k)
    (hs : w.step T a0 run (.process nf) = some (w', some r)) (c : Call N V A) (hc : c ∈ r.calls) (i : Nat)
    (hi : i < T.inCount c.node) :
    ∃ blk, c.params[i]? = some blk ∧ ∀ f, f < nf → k.left c.node i ≤ f + 1 → blk f = t.now.param c.node i := by
  obtain ⟨⟨le, lc, hsim, hpar⟩, _, _⟩ := timed_tsim hT h
  obtain ⟨_, _, hacc⟩ := follows_sim hT (timed_follows h)
  simp only [World.step] at hs
  obtain ⟨⟨e', h', st', r'⟩, hb, heq⟩ := Option.map_eq_some_iff.1 hs
  simp only [Prod.mk.injEq, Option.some.injEq] at heq
  obtain ⟨rfl, rfl⟩ := heq
  have hnf : 0 < nf ∧ nf ≤ 128 := (process_plays run hsim.1 (account_owned hacc) hb).2.frames
  obtain ⟨e1, a, p1, p2, p3, p4⟩ := process_par run w.st hpar hsim.1 (account_owned hacc) hnf.1 hnf.2
  rw [p1] at hb
  obtain ⟨mon, _, heq⟩ := Option.map_eq_some_iff.1 hb
  simp only [Prod.mk.injEq] at heq
  obtain ⟨rfl, rfl, rfl, rfl⟩ := heq
  exact settled_calls hsim.1.carries p2 p4 hc hi

theorem match_nil {l l' : Layout N V} {now : Playing N V A} {q : List (Msg N V A M)} {us : List (Update N V A)} (h : Match T l now q us l') :
    us = [] → l' = l := by
  induction h with
  | nil => intro _; rfl
  | cons h1 _ ih =>
    intro he
    rw [List.append_eq_nil_iff] at he
    obtain ⟨rfl, rfl⟩ := he
    rw [ih rfl]
    cases h1
    rfl

/-- The nodes that play are in the configuration, once the messages have reached the audio thread. -/
theorem playing_live (hT : ∀ n, T.inCount n ≤ 32) (h : Follows T a0 run w t) (hp : t.pending = []) {n : N} (hn : n ∈ t.now.order) :
    (w.conf.instanceOf n).isSome := by
  obtain ⟨⟨le, lc, h1, h2, h3, _⟩, _, _⟩ := follows_sim hT h
  have := match_nil h2 hp
  subst this
  exact h3.has n (h1.carries.ord n hn)

theorem instanceOf_setInput {n : N} {i : Nat} {v : V} {out : Option (BlockResult N V A)}
    (hs : w.step T a0 run (.setInput n i v) = some (w', out)) (m : N) : w'.conf.instanceOf m = w.conf.instanceOf m := by
  simp only [World.step, Option.some.injEq, Prod.mk.injEq] at hs
  rw [← hs.1, conf_sendAll]
  simp only [Conf.setInput]
  split <;> rfl

/-- **C15** Set a parameter, let the audio thread take the message, process a block: from frame `slope` on
the node sees the new value. -/
theorem set_then_hear_partial (hT : ∀ n, T.inCount n ≤ 32) (h : Timed T a0 run w t k) {n : N} {i : Nat} {v : V}
    {w1 w2 w3 : World N V A M σ} {o1 o2 : Option (BlockResult N V A)}
    (g1 : Gentle T w t k (.setInput n i v)) (s1 : w.step T a0 run (.setInput n i v) = some (w1, o1))
    (g2 : Gentle T w1 (t.step T w.conf (.setInput n i v : EOp N V A M)) k .poll)
    (s2 : w1.step T a0 run .poll = some (w2, o2))
    (s3 : w2.step T a0 run (.process nf) = some (w3, some r)) (c : Call N V A) (hc : c ∈ r.calls) (hn : c.node = n)
    (hi : i < T.inCount n) : ∃ blk, c.params[i]? = some blk ∧ ∀ f, k.slope ≤ f → f < nf → blk f = v := by
  have h1 := Timed.call h g1 s1
  have h2 := Timed.call h1 g2 s2
  obtain ⟨blk, q1, q2⟩ := param_arrives_partial hT h2 s3 c hc i (hn ▸ hi)
  refine ⟨blk, q1, fun f hf1 hf2 => ?_⟩
  have hlive : (w.conf.instanceOf n).isSome := by
    have hnow := (block_is_dataflow hT (timed_follows h2) s3).2.order
    have hmem := List.mem_map_of_mem (f := fun c : Call N V A => c.node) hc
    rw [hnow, hn] at hmem
    have := playing_live hT (timed_follows h2) rfl hmem
    have hconf : w2.conf = w1.conf := by
      simp only [World.step] at s2
      obtain ⟨x, -, hx⟩ := Option.map_eq_some_iff.1 s2
      simp only [Prod.mk.injEq] at hx
      rw [← hx.1]
    rwa [hconf, instanceOf_setInput s1] at this
  have hask : asks T w.conf (.setInput n i v : EOp N V A M) = [.param n i v] := if_pos ⟨hlive, hi⟩
  have hp : (t.step T w.conf (.setInput n i v : EOp N V A M)).pending = t.pending ++ [Update.param n i v] := by rw [← hask]; rfl
  have hslope : ∀ us : List (Update N V A), ∀ k : Clock N, (us.foldl Clock.take k).slope = k.slope := by
    intro us
    induction us with
    | nil => intro k; rfl
    | cons u us ih =>
      intro k
      rw [List.foldl_cons, ih]
      cases u <;> rfl
  have hl : (Clock.step (Clock.step k t.pending (.setInput n i v : EOp N V A M))
      (t.step T w.conf (.setInput n i v : EOp N V A M)).pending (.poll : EOp N V A M)).left c.node i = k.slope + 1 := by
    show ((t.step T w.conf (.setInput n i v : EOp N V A M)).pending.foldl Clock.take k).left c.node i = _
    rw [hp, List.foldl_append, hn]
    show (if n = n ∧ i = i then (t.pending.foldl Clock.take k).slope + 1 else _) = _
    rw [if_pos ⟨rfl, rfl⟩, hslope]
  have hv : ((t.step T w.conf (.setInput n i v : EOp N V A M)).step T w1.conf (.poll : EOp N V A M)).now.param c.node i = v := by
    show ((t.step T w.conf (.setInput n i v : EOp N V A M)).pending.foldl Playing.update t.now).param c.node i = v
    rw [hp, List.foldl_append, hn]
    show (if n = n ∧ i = i then v else _) = v
    rw [if_pos ⟨rfl, rfl⟩]
  rw [← hv]
  exact q2 f hf2 (by rw [hl]; omega)

/-- **C15** After such a history a block of 1 to 128 frames never panics, provided that the node that is
monitored, if any, runs. -/
theorem block_never_panics (hT : ∀ n, T.inCount n ≤ 32) (hO : ∀ n, T.outCount n ≤ 64) (h : Timed T a0 run w t k)
    (h0 : 0 < nf) (h1 : nf ≤ 128) (hm : ∀ n ins outs, t.now.mon = some (n, ins, outs) → n ∈ t.now.order) :
    ∃ w' r, w.step T a0 run (.process nf) = some (w', some r) := by
  obtain ⟨⟨le, lc, hsim, hpar⟩, _, _⟩ := timed_tsim hT h
  obtain ⟨_, _, hacc⟩ := follows_sim hT (timed_follows h)
  obtain ⟨e1, a, p1, p2, p3, p4⟩ := process_par run w.st hpar hsim.1 (account_owned hacc) h0 h1
  have hf : ∃ mon, feedMonitors w.exec.prog a.heap 0 w.exec.monitorIdx = some mon := by
    have hmon := hpar.mon
    unfold MonIs at hmon
    cases hx : t.now.mon with
    | none =>
      rw [hx] at hmon
      simp only at hmon
      rw [hmon]
      exact ⟨[], feed_unused _ _ 6 0⟩
    | some x =>
      obtain ⟨n, ins, outs⟩ := x
      rw [hx] at hmon
      simp only at hmon
      obtain ⟨m1, m2, m3, m4⟩ := hmon
      obtain ⟨c, hc, rfl⟩ := done_find hsim.1.carries p2 (hm n ins outs hx)
      obtain ⟨mon, hmo, _⟩ := monitor_calls hT hO hsim.1.carries p2 hc m2 (outs := outs)
      rw [m4]
      exact ⟨mon, hmo⟩
  obtain ⟨mon, hmo⟩ := hf
  simp only [World.step, p1, hmo, Option.map_some]
  exact ⟨_, _, rfl⟩

/-- **C54** The monitor shows exactly the ports that were asked for: signals 0 to 2 are the input signals of the
monitored node in this block, 3 to 5 its output signals; ports that the node does not have are not shown;
no signal is shown twice; if no node is monitored nothing is shown. -/
theorem monitor_shows_ports (hT : ∀ n, T.inCount n ≤ 32) (hO : ∀ n, T.outCount n ≤ 64) (h : Timed T a0 run w t k)
    (hs : w.step T a0 run (.process nf) = some (w', some r)) :
    (t.now.mon = none → r.monitor = []) ∧
    (∀ n ins outs, t.now.mon = some (n, ins, outs) → n ∈ t.now.order →
      ∃ c ∈ r.calls, c.node = n ∧ ∀ i blk, (i, blk) ∈ r.monitor ↔ Shows ins outs c i blk) ∧
    (r.monitor.map Prod.fst).Pairwise (· < ·) := by
  obtain ⟨⟨le, lc, hsim, hpar⟩, _, _⟩ := timed_tsim hT h
  obtain ⟨_, _, hacc⟩ := follows_sim hT (timed_follows h)
  simp only [World.step] at hs
  obtain ⟨⟨e', h', st', r'⟩, hb, heq⟩ := Option.map_eq_some_iff.1 hs
  simp only [Prod.mk.injEq, Option.some.injEq] at heq
  obtain ⟨rfl, rfl⟩ := heq
  have hnf : 0 < nf ∧ nf ≤ 128 := (process_plays run hsim.1 (account_owned hacc) hb).2.frames
  obtain ⟨e1, a, p1, p2, p3, p4⟩ := process_par run w.st hpar hsim.1 (account_owned hacc) hnf.1 hnf.2
  rw [p1] at hb
  obtain ⟨mon, hmon', heq⟩ := Option.map_eq_some_iff.1 hb
  simp only [Prod.mk.injEq] at heq
  obtain ⟨rfl, rfl, rfl, rfl⟩ := heq
  have hmon := hpar.mon
  unfold MonIs at hmon
  refine ⟨fun hx => ?_, fun n ins outs hx hn => ?_, (feed_indices _ _ _ _ _ hmon').1⟩
  · rw [hx] at hmon
    simp only at hmon
    rw [hmon, feed_unused] at hmon'
    exact (Option.some.inj hmon').symm
  · rw [hx] at hmon
    simp only at hmon
    obtain ⟨m1, m2, m3, m4⟩ := hmon
    obtain ⟨c, hc, rfl⟩ := done_find hsim.1.carries p2 hn
    obtain ⟨mon2, hmo, hsh⟩ := monitor_calls hT hO hsim.1.carries p2 hc m2 (outs := outs)
    rw [m4, hmo] at hmon'
    cases hmon'
    exact ⟨c, hc, rfl, hsh⟩

/-! ## Concrete histories -/

/-- What is checked before a call besides `carefulB`; `S` lists all parameters ever set. -/
def gentleB (t : Track N V A) (k : Clock N) (S : List (N × Nat)) : EOp N V A M → Bool
  | .poll => decide (S.length ≤ 40)
  | .deleteNodes => S.all (fun x => !k.hot x.1 x.2) && t.pending.all (fun u => match u with | .param _ _ _ => false | _ => true)
  | _ => true

def setBy (S : List (N × Nat)) : EOp N V A M → List (N × Nat)
  | .setInput n i _ => (n, i) :: S
  | _ => S

/-- Run calls that are careful and gentle. -/
def timedRun (T : NodeTable N V A) (a0 : A) (run : σ → CallIn N V A → σ × (Nat → Block V)) :
    World N V A M σ × Track N V A × Clock N × List (N × Nat) → List (EOp N V A M) →
    Option (World N V A M σ × Track N V A × Clock N × List (N × Nat))
  | s, [] => some s
  | (w, t, k, S), op :: ops =>
    if carefulB w op && gentleB t k S op then
      match w.step T a0 run op with
      | none => none
      | some r => timedRun T a0 run (r.1, t.step T w.conf op, k.step t.pending op, setBy S op) ops
    else none

/-- `S` covers everything that moves or is about to. -/
def Covers (t : Track N V A) (k : Clock N) (S : List (N × Nat)) : Prop :=
  ∀ n i, (0 < k.left n i ∨ k.hot n i = true ∨ ∃ v, Update.param n i v ∈ t.pending) → (n, i) ∈ S

theorem take_covers (S : List (N × Nat)) (us : List (Update N V A)) : ∀ k : Clock N,
    (∀ n i, (0 < k.left n i ∨ k.hot n i = true ∨ ∃ v, Update.param n i v ∈ us) → (n, i) ∈ S) →
    ∀ n i, (0 < (us.foldl Clock.take k).left n i ∨ (us.foldl Clock.take k).hot n i = true) → (n, i) ∈ S := by
  induction us with
  | nil =>
    intro k h n i hc
    exact h n i (hc.elim .inl (fun x => .inr (.inl x)))
  | cons u us ih =>
    intro k h
    rw [List.foldl_cons]
    refine ih _ fun n i hc => ?_
    have key : ∀ {P : Prop}, (0 < k.left n i → P) → (k.hot n i = true → P) → ((∃ v, u = .param n i v) → P) →
        ((∃ v, Update.param n i v ∈ us) → P) → P := by
      intro P a b c d
      cases u with
      | param m j v =>
        by_cases he : n = m ∧ i = j
        · obtain ⟨rfl, rfl⟩ := he; exact c ⟨v, rfl⟩
        · have e1 : (k.take (.param m j v : Update N V A)).left n i = k.left n i := if_neg he
          have e2 : (k.take (.param m j v : Update N V A)).hot n i = k.hot n i := if_neg he
          rw [e1, e2] at hc
          rcases hc with hc | hc | hc
          · exact a hc
          · exact b hc
          · exact d hc
      | store m j v => rcases hc with hc | hc | hc <;> [exact a hc; exact b hc; exact d hc]
      | program p => rcases hc with hc | hc | hc <;> [exact a hc; exact b hc; exact d hc]
      | clear => rcases hc with hc | hc | hc <;> [exact a hc; exact b hc; exact d hc]
      | atom m j a' => rcases hc with hc | hc | hc <;> [exact a hc; exact b hc; exact d hc]
      | amount m j v => rcases hc with hc | hc | hc <;> [exact a hc; exact b hc; exact d hc]
      | monitor m x y => rcases hc with hc | hc | hc <;> [exact a hc; exact b hc; exact d hc]
    refine key (fun x => h n i (.inl x)) (fun x => h n i (.inr (.inl x))) ?_ ?_
    · rintro ⟨v, rfl⟩; exact h n i (.inr (.inr ⟨v, by simp⟩))
    · rintro ⟨v, hv⟩; exact h n i (.inr (.inr ⟨v, List.mem_cons_of_mem _ hv⟩))

theorem asks_param {c : Conf N V A} {op : EOp N V A M} {n : N} {i : Nat} {v : V} (h : Update.param n i v ∈ asks T c op) :
    op = .setInput n i v := by
  cases op with
  | setInput m j x =>
    simp only [asks] at h
    split at h <;> simp at h
    obtain ⟨rfl, rfl, rfl⟩ := h; rfl
  | setModamt p x =>
    cases p with
    | atom m j => simp [asks] at h
    | input m j =>
      cases x with
      | none => simp [asks] at h
      | some x =>
        simp only [asks] at h
        split at h <;> simp at h
  | monitor m a b =>
    simp only [asks] at h
    split at h <;> simp at h
  | deleteNodes => simp [asks] at h
  | setAtom m j a => simp [asks] at h
  | sync o es co => simp [asks] at h
  | createNode m => simp [asks] at h
  | injectMidi e => simp [asks] at h
  | poll => simp [asks] at h
  | process m => simp [asks] at h
  | dropOne => simp [asks] at h
  | setSlope m => simp [asks] at h

/-- Each call of a run is gentle, and the list goes on covering what moves. -/
theorem gentle_head {w : World N V A M σ} {t : Track N V A} {k : Clock N} {S : List (N × Nat)} {op : EOp N V A M}
    {r : World N V A M σ × Option (BlockResult N V A)} (hcov : Covers t k S) (hc1 : carefulB w op = true) (hc2 : gentleB t k S op = true)
    (hx : w.step T a0 run op = some r) : Gentle T w t k op ∧ Covers (t.step T w.conf op) (k.step t.pending op) (setBy S op) := by
  have hg : Gentle T w t k op := by
    refine ⟨careful_of_carefulB hc1, ?_, ?_⟩
    · rintro rfl
      exact ⟨S, by simpa [gentleB] using hc2, fun n i hh => hcov n i (hh.elim .inl (fun x => .inr (.inr x)))⟩
    · rintro rfl
      simp only [gentleB, Bool.and_eq_true, List.all_eq_true] at hc2
      refine ⟨fun n i => ?_, fun n i v hm => by have := hc2.2 _ hm; simp at this⟩
      cases hh : k.hot n i with
      | false => rfl
      | true =>
        have := hc2.1 (n, i) (hcov n i (.inr (.inl hh)))
        simp [hh] at this
  refine ⟨hg, ?_⟩
  intro n i hh
  have hsub : ∀ x, x ∈ S → x ∈ setBy S op := by
    intro x hxS
    clear hg hx hc1 hc2
    cases op <;> first | exact List.mem_cons_of_mem _ hxS | exact hxS
  have hpend : ∀ (us : List (Update N V A)), us = t.pending ++ asks T w.conf op → (∃ v, Update.param n i v ∈ us) →
      (n, i) ∈ setBy S op := by
    rintro _ rfl ⟨v, hv⟩
    rcases List.mem_append.1 hv with hv | hv
    · exact hsub _ (hcov n i (.inr (.inr ⟨v, hv⟩)))
    · have := asks_param hv
      subst this
      exact List.mem_cons_self
  cases op with
  | poll =>
    rcases hh with hh | hh | ⟨v, hv⟩
    · exact take_covers S t.pending k hcov n i (.inl hh)
    · exact take_covers S t.pending k hcov n i (.inr hh)
    · cases hv
  | process m =>
    rcases hh with hh | hh | hh
    · have hh' : 0 < k.left n i - m := hh
      exact hcov n i (.inl (by omega))
    · have hh' : decide (0 < k.left n i) = true := hh
      exact hcov n i (.inl (by simpa using hh'))
    · exact hpend _ rfl hh
  | _ =>
    rcases hh with hh | hh | hh
    · exact hsub _ (hcov n i (.inl hh))
    · exact hsub _ (hcov n i (.inr (.inl hh)))
    · exact hpend _ rfl hh

/-- Whatever every gentle call of a list keeps holds after all of them. -/
theorem gentle_run {P : World N V A M σ → Track N V A → Clock N → Prop} (ops : List (EOp N V A M)) (hP : ∀ op ∈ ops, ∀ w w' t k out,
      P w t k → Gentle T w t k op → w.step T a0 run op = some (w', out) → P w' (t.step T w.conf op) (k.step t.pending op)) :
    ∀ (s s' : World N V A M σ × Track N V A × Clock N × List (N × Nat)),
    P s.1 s.2.1 s.2.2.1 → Covers s.2.1 s.2.2.1 s.2.2.2 → timedRun T a0 run s ops = some s' → P s'.1 s'.2.1 s'.2.2.1 := by
  induction ops with
  | nil => intro s s' h _ he; cases he; exact h
  | cons op ops ih =>
    rintro ⟨w, t, k, S⟩ s' h hcov he
    simp only at h hcov
    simp only [timedRun] at he
    split at he
    · rename_i hc
      rw [Bool.and_eq_true] at hc
      cases hx : w.step T a0 run op with
      | none => simp [hx] at he
      | some r =>
        simp only [hx] at he
        obtain ⟨hg, hcov'⟩ := gentle_head hcov hc.1 hc.2 hx
        exact ih (fun op ho => hP op (List.mem_cons_of_mem _ ho)) _ _ (hP op List.mem_cons_self w r.1 t k r.2 h hg hx) hcov' he
    · cases he

theorem timed_of_run (ops : List (EOp N V A M)) : ∀ (s s' : World N V A M σ × Track N V A × Clock N × List (N × Nat)),
    Timed T a0 run s.1 s.2.1 s.2.2.1 → Covers s.2.1 s.2.2.1 s.2.2.2 → timedRun T a0 run s ops = some s' →
    Timed T a0 run s'.1 s'.2.1 s'.2.2.1 :=
  gentle_run ops (fun _ _ _ _ _ _ _ h hg hs => .call h hg hs)

/-- A patch plays; parameters are changed, again while they move, over a program exchange; node 1 is monitored
(inputs 0 and 2 and the non-existing input 9, output 0). -/
def exOps4 : List (EOp Nat Int Nat Unit) :=
  exOps3 ++ [.setSlope 4, .setInput 1 0 200, .poll, .process 2, .setInput 1 0 300, .setInput 2 2 7, .poll, .process 2,
    .createNode 4, .sync [0, 3, 1, 2, 4] [⟨1, 0, 0, 0⟩, ⟨2, 1, 1, 0⟩, ⟨1, 1, 3, 0⟩] true,
    .monitor 1 [some 0, some 2, some 9] [some 0, none, none], .poll]

def exP : World Nat Int Nat Unit Unit × Track Nat Int Nat × Clock Nat × List (Nat × Nat) :=
  (timedRun exT 0 exRun (World.new (), Track.new exT, Clock.new, []) exOps4).get (by decide +kernel)

theorem exP_timed : Timed exT 0 exRun exP.1 exP.2.1 exP.2.2.1 :=
  timed_of_run exOps4 _ _ (.new ()) (fun n i h => by simp [Clock.new, Track.new] at h) (Option.some_get _).symm

/-- Parameter 0 of node 1 still moves for two frames in the next block and is 300 from its third frame on, its
parameter 2 has not been touched, and the monitor shows three signals. -/
example : Timed exT 0 exRun exP.1 exP.2.1 exP.2.2.1 ∧ exP.2.1.now.mon = some (1, [some 0, some 2, some 9], [some 0, none, none]) ∧
    1 ∈ exP.2.1.now.order ∧ exP.2.2.1.left 1 0 = 3 ∧ exP.2.2.1.left 1 2 = 0 ∧ exP.2.1.now.param 1 0 = 300 ∧
    (((exP.1.step exT 0 exRun (.process 4)).bind (fun x => x.2)).map (fun r =>
      (r.calls.filter (fun c => c.node = 1)).map (fun c => c.params.map (fun b => [b 0, b 1, b 2, b 3])))) =
      some [[[262, 298, 300, 300], [111, 111, 111, 111], [112, 112, 112, 112]]] ∧
    (((exP.1.step exT 0 exRun (.process 4)).bind (fun x => x.2)).map (fun r => r.monitor.map Prod.fst)) = some [0, 1, 3] :=
  ⟨exP_timed, by decide +kernel, by decide +kernel, by decide +kernel, by decide +kernel, by decide +kernel,
    by decide +kernel, by decide +kernel⟩

/-! ## Where the full statement fails -/

/-- A patch with one node whose first parameter is moving when all nodes are deleted. -/
def exDel : List (EOp Nat Int Nat Unit) :=
  [.setSlope 400, .createNode 1, .sync [1] [] false, .poll, .process 4, .setInput 1 0 500, .poll, .process 4,
    .deleteNodes]

def exDelW : World Nat Int Nat Unit Unit × Track Nat Int Nat :=
  (followRun exT 0 exRun (World.new (), Track.new exT) (exDel ++ [.poll])).get (by decide +kernel)

/-- **C15** (negation) Deleting all nodes while a parameter moves: the next block panics in the audio thread. -/
theorem deleting_while_moving_panics :
    ∃ (w : World Nat Int Nat Unit Unit) (t : Track Nat Int Nat), Follows exT 0 exRun w t ∧ t.now.mon = none ∧
      w.step exT 0 exRun (.process 4) = none :=
  ⟨exDelW.1, exDelW.2, follows_of_run (exDel ++ [.poll]) _ _ (.new ()) (Option.some_get _).symm, by decide +kernel, by
    have h : (exDelW.1.step exT 0 exRun (.process 4)).isNone = true := by decide +kernel
    exact Option.isNone_iff_eq_none.1 h⟩

def exLeakW : World Nat Int Nat Unit Unit × Track Nat Int Nat :=
  (followRun exT 0 exRun (World.new (), Track.new exT)
    (exDel ++ [.createNode 2, .sync [2] [] false, .poll, .process 128, .process 128, .process 128, .process 128])).get (by decide +kernel)

/-- **C15** (negation) A new patch is loaded while a parameter of the old one moves: a parameter of the new
patch, which nobody has touched, goes to the value meant for the old one and stays there. -/
theorem moving_leaks_into_next_patch :
    ∃ (w : World Nat Int Nat Unit Unit) (t : Track Nat Int Nat), Follows exT 0 exRun w t ∧ t.now.order = [2] ∧
      w.conf.getParam (.input 2 0) = some (.num 120) ∧ t.now.param 2 0 = 120 ∧
      ((w.step exT 0 exRun (.process 2)).bind (fun x => x.2)).map (fun r =>
        r.calls.map (fun c => c.params.map (fun b => [b 0, b 1]))) = some [[[500, 500], [121, 121], [122, 122]]] :=
  ⟨exLeakW.1, exLeakW.2, follows_of_run _ _ _ (.new ()) (Option.some_get _).symm, by decide +kernel, by decide +kernel,
    by decide +kernel, by decide +kernel⟩

/-- Forty-one parameters of fourteen nodes are set at once. -/
def exBurst : List (EOp Nat Int Nat Unit) :=
  (List.range 14).map (fun n => .createNode (3 * n + 1)) ++ [.setSlope 4, .sync ((List.range 14).map (fun n => 3 * n + 1)) [] false, .poll] ++
    (List.range 41).map (fun j => .setInput (3 * (j / 3) + 1) (j % 3) 5) ++ [.poll, .process 128, .process 128]

def exBurstW : World Nat Int Nat Unit Unit × Track Nat Int Nat :=
  (followRun exT 0 exRun (World.new (), Track.new exT) exBurst).get (by decide +kernel)

/-- **C15** (negation) Of 41 parameters set at once the last one never changes. -/
theorem burst_loses_update :
    ∃ (w : World Nat Int Nat Unit Unit) (t : Track Nat Int Nat), Follows exT 0 exRun w t ∧
      t.now.param 40 0 = 5 ∧ t.now.param 40 1 = 5 ∧
      ((w.step exT 0 exRun (.process 2)).bind (fun x => x.2)).map (fun r =>
        (r.calls.filter (fun c => c.node = 40)).map (fun c => c.params.map (fun b => [b 0, b 1]))) =
        some [[[5, 5], [exT.normDef 40 1, exT.normDef 40 1], [exT.normDef 40 2, exT.normDef 40 2]]] ∧ exT.normDef 40 1 ≠ 5 :=
  ⟨exBurstW.1, exBurstW.2, follows_of_run _ _ _ (.new ()) (Option.some_get _).symm, by decide +kernel, by decide +kernel,
    by decide +kernel, by decide +kernel⟩

def exMonW : World Nat Int Nat Unit Unit × Track Nat Int Nat × Clock Nat × List (Nat × Nat) :=
  (timedRun exT 0 exRun (World.new (), Track.new exT, Clock.new, [])
    [.createNode 1, .createNode 2, .sync [2] [] false, .monitor 1 [some 0, none, none] [none, none, none], .poll]).get (by decide +kernel)

/-- **C54** (negation) Monitoring an input of a node that exists but is not part of the running program makes the audio
thread read through a null pointer, so the premise of `block_never_panics` is needed. -/
theorem monitoring_idle_node_panics :
    ∃ (w : World Nat Int Nat Unit Unit) (t : Track Nat Int Nat) (k : Clock Nat), Timed exT 0 exRun w t k ∧
      t.now.order = [2] ∧ t.now.mon = some (1, [some 0, none, none], [none, none, none]) ∧
      w.step exT 0 exRun (.process 4) = none :=
  ⟨exMonW.1, exMonW.2.1, exMonW.2.2.1, timed_of_run _ _ _ (.new ()) (fun n i h => by simp [Clock.new, Track.new] at h) (Option.some_get _).symm,
    by decide +kernel, by decide +kernel, by
      have h : (exMonW.1.step exT 0 exRun (.process 4)).isNone = true := by decide +kernel
      exact Option.isNone_iff_eq_none.1 h⟩

end HexoDSP.ParamProps
