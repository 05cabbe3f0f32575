import Verif.Props.Flow
import Verif.Props.Messages
import Verif.Props.NodeConf
/-! What is played after calls of the engine that set values, and after a new program. -/

set_option linter.unusedSectionVars false

namespace HexoDSP.Play
open HexoDSP.EngineSpec HexoDSP.NodeConfProps
open HexoDSP.Engine

variable {N V A M σ : Type} [DecidableEq N]
variable [Add V] [Mul V] [Sub V] [Div V] [NatCast V] [OfNat V 0]
variable {T : NodeTable N V A} {a0 : A} {run : σ → CallIn N V A → σ × (Nat → Block V)}

/-- Setting a value. -/
def IsSet : EOp N V A M → Prop
  | .setInput _ _ _ => True
  | .setAtom _ _ _ => True
  | .setModamt _ _ => True
  | _ => False

/-- Setting a value or creating a node. -/
def IsQuiet : EOp N V A M → Prop
  | .createNode _ => True
  | op => IsSet op

theorem ran_append {w w1 w2 : World N V A M σ} {xs ys : List (EOp N V A M)} (h : Ran T a0 run w xs w1) (h' : Ran T a0 run w1 ys w2) :
    Ran T a0 run w (xs ++ ys) w2 := by
  induction h with
  | nil => exact h'
  | cons hp hs _ ih => exact .cons hp hs (ih h')
  | outside st _ ih => exact .outside st (ih h')

theorem ran_outside {w w1 : World N V A M σ} {xs : List (EOp N V A M)} (h : Ran T a0 run w xs w1) (st : σ) :
    Ran T a0 run w xs { w1 with st := st } := by
  have := ran_append h (.outside st (.nil _))
  rwa [List.append_nil] at this

theorem reached_outside {w : World N V A M σ} (h : Reached T a0 run w) (st : σ) : Reached T a0 run { w with st := st } := by
  obtain ⟨st0, ops, hr⟩ := h
  exact ⟨st0, ops, ran_outside hr st⟩

theorem quiet_of_set (op : EOp N V A M) (h : IsSet op) : IsQuiet op := by
  cases op <;> first | exact h | trivial

/-- The call makes no amount appear or disappear. -/
def NoToggle (c : Conf N V A) : EOp N V A M → Prop
  | .setModamt p v => (c.getModamt p).isSome = v.isSome
  | _ => True

/-- No call makes an amount appear or disappear. -/
inductive Steady (T : NodeTable N V A) (a0 : A) (run : σ → CallIn N V A → σ × (Nat → Block V)) :
    World N V A M σ → List (EOp N V A M) → World N V A M σ → Prop
  | nil (w : World N V A M σ) : Steady T a0 run w [] w
  | cons {w w1 w2 : World N V A M σ} {op : EOp N V A M} {out : Option (Engine.BlockResult N V A)} {ops : List (EOp N V A M)} :
      IsSet op → NoToggle w.conf op → w.step T a0 run op = some (w1, out) → Steady T a0 run w1 ops w2 → Steady T a0 run w (op :: ops) w2

theorem steady_append {w w1 w2 : World N V A M σ} {xs ys : List (EOp N V A M)} (h : Steady T a0 run w xs w1)
    (h' : Steady T a0 run w1 ys w2) : Steady T a0 run w (xs ++ ys) w2 := by
  induction h with
  | nil => exact h'
  | cons hp hs hq _ ih => exact .cons hp hs hq (ih h')

theorem getModamt_setInput (c : Conf N V A) (n : N) (i : Nat) (v : V) (q : Engine.ParamId N) :
    (c.setInput (M := M) n i v).1.getModamt q = c.getModamt q := by
  have : (c.setInput (M := M) n i v).1.paramModamt = c.paramModamt := by
    unfold Conf.setInput; simp only; split <;> rfl
  cases q <;> simp [Conf.getModamt, this]

theorem getModamt_setAtom (c : Conf N V A) (n : N) (i : Nat) (v : A) (q : Engine.ParamId N) :
    (c.setAtom (M := M) n i v).1.getModamt q = c.getModamt q := by
  have : (c.setAtom (M := M) n i v).1.paramModamt = c.paramModamt := by
    unfold Conf.setAtom; simp only; split <;> rfl
  cases q <;> simp [Conf.getModamt, this]

theorem getParam_setModamt (c : Conf N V A) (p : Engine.ParamId N) (v : Option V) (q : Engine.ParamId N) :
    (c.setModamt (M := M) p v).1.getParam q = c.getParam q := by
  obtain ⟨h1, h2⟩ := tables_setModamt (M := M) c p v
  cases q <;> simp [Conf.getParam, h1, h2]

theorem step_setInput (w : World N V A M σ) (n : N) (i : Nat) (v : V) :
    ∃ w', w.step T a0 run (.setInput n i v) = some (w', none) ∧ w'.conf = (w.conf.setInput (M := M) n i v).1 :=
  ⟨_, rfl, conf_sendAll _ _⟩

theorem step_setAtom (w : World N V A M σ) (n : N) (i : Nat) (v : A) :
    ∃ w', w.step T a0 run (.setAtom n i v) = some (w', none) ∧ w'.conf = (w.conf.setAtom (M := M) n i v).1 :=
  ⟨_, rfl, conf_sendAll _ _⟩

theorem step_setModamt (w : World N V A M σ) (p : Engine.ParamId N) (v : Option V) :
    ∃ w', w.step T a0 run (.setModamt p v) = some (w', none) ∧ w'.conf = (w.conf.setModamt (M := M) p v).1 :=
  ⟨_, rfl, conf_sendAll _ _⟩

theorem sendAll_mono (w : World N V A M σ) (ms : List (Engine.Msg N V A M)) : w.queue.length ≤ (w.sendAll ms).queue.length := by
  rw [MessagesProps.sendAll_queue]; simp

theorem send_mono (w : World N V A M σ) (m : Engine.Msg N V A M) : w.queue.length ≤ (w.send m).queue.length := by
  have := sendAll_mono w [m]
  exact this

theorem sendAll_conf (w : World N V A M σ) (c : Conf N V A) (ms : List (Engine.Msg N V A M)) :
    w.queue.length ≤ (World.sendAll { w with conf := c } ms).queue.length := sendAll_mono { w with conf := c } ms

theorem send_conf (w : World N V A M σ) (c : Conf N V A) (sh : Engine.Shared N V A) (m : Engine.Msg N V A M) :
    w.queue.length ≤ (World.send { w with conf := c, shared := sh } m).queue.length := send_mono { w with conf := c, shared := sh } m

/-- Calls of the user do not shorten the queue. -/
theorem queue_mono {w w' : World N V A M σ} {op : EOp N V A M} {out : Option (Engine.BlockResult N V A)}
    (hq : IsQuiet op ∨ op = .deleteNodes ∨ ∃ o ws c, op = .sync o ws c) (h : w.step T a0 run op = some (w', out)) :
    w.queue.length ≤ w'.queue.length := by
  cases op with
  | createNode n => simp only [World.step, Option.some.injEq, Prod.mk.injEq] at h; rw [← h.1]
  | deleteNodes => simp only [World.step, Option.some.injEq, Prod.mk.injEq] at h; rw [← h.1]; exact sendAll_conf _ _ _
  | setInput n i v => simp only [World.step, Option.some.injEq, Prod.mk.injEq] at h; rw [← h.1]; exact sendAll_conf _ _ _
  | setAtom n i v => simp only [World.step, Option.some.injEq, Prod.mk.injEq] at h; rw [← h.1]; exact sendAll_conf _ _ _
  | setModamt p v => simp only [World.step, Option.some.injEq, Prod.mk.injEq] at h; rw [← h.1]; exact sendAll_conf _ _ _
  | sync o ws c =>
    simp only [World.step] at h
    obtain ⟨x, -, hx⟩ := Option.map_eq_some_iff.1 h
    simp only [Prod.mk.injEq] at hx
    rw [← hx.1]
    exact send_conf _ _ _ _
  | _ => rcases hq with hq | hq | ⟨_, _, _, hq⟩ <;> exact absurd hq (by simp [IsQuiet, IsSet])

theorem queue_monos {w w' : World N V A M σ} {ops : List (EOp N V A M)} (h : Ran T a0 run w ops w') (hq : ∀ op ∈ ops, IsQuiet op) :
    w.queue.length ≤ w'.queue.length := by
  induction h with
  | nil => exact Nat.le_refl _
  | cons _ hs _ ih =>
    exact Nat.le_trans (queue_mono (Or.inl (hq _ List.mem_cons_self)) hs) (ih (fun op ho => hq op (List.mem_cons_of_mem _ ho)))
  | outside st _ ih => exact ih hq

theorem careful_quiet {w : World N V A M σ} {op : EOp N V A M} (hp : Polite w op) (hq : IsQuiet op) (hr : w.queue.length < queueCapacity) :
    Careful T w op := by
  refine ⟨hp, fun _ => hr, ?_, ?_⟩
  · rintro o ws c rfl; exact absurd hq (by simp [IsQuiet, IsSet])
  · rintro n i o rfl; exact absurd hq (by simp [IsQuiet, IsSet])

theorem follows_quiet {w w' : World N V A M σ} {ops : List (EOp N V A M)} (h : Ran T a0 run w ops w') (hq : ∀ op ∈ ops, IsQuiet op)
    (hr : w'.queue.length < queueCapacity) : ∀ t, Follows T a0 run w t → ∃ t', Follows T a0 run w' t' := by
  induction h with
  | nil => intro t ht; exact ⟨t, ht⟩
  | cons hp hs hrest ih =>
    intro t ht
    have hq' := fun op ho => hq op (List.mem_cons_of_mem _ ho)
    have h1 := queue_mono (Or.inl (hq _ List.mem_cons_self)) hs
    have h2 := queue_monos hrest hq'
    exact ih hq' hr _ (.call ht (careful_quiet hp (hq _ List.mem_cons_self) (by omega)) hs)
  | outside st _ ih => intro t ht; exact ih hq hr _ (.outside st ht)

/-- Nothing set is waiting for a new program. -/
structure Agree (T : NodeTable N V A) (t : Track N V A) (c : Conf N V A) : Prop where
  param : ∀ n i, (final t).param n i = paramIn T c n i
  atom : ∀ n i, (final t).atom n i = atomIn T c n i
  amt : ∀ n i, (final t).amt n i = c.getModamt (.input n i)

theorem final_snoc (t : Track N V A) (u : Update N V A) : final { t with pending := t.pending ++ [u] } = (final t).update u := by
  simp [final]

theorem final_append_nil (t : Track N V A) : final { t with pending := t.pending ++ [] } = final t := by
  simp [final]

theorem paramIn_of {c c' : Conf N V A} (h : ∀ q, c'.getParam q = c.getParam q) :
    paramIn T c' = paramIn T c ∧ atomIn T c' = atomIn T c := by
  constructor <;> (funext n i; simp only [paramIn, atomIn, h])

theorem agree_set {w w' : World N V A M σ} {op : EOp N V A M} {out : Option (Engine.BlockResult N V A)} (hq : IsSet op)
    (hn : NoToggle w.conf op) (hs : w.step T a0 run op = some (w', out)) {t : Track N V A} (h : Agree T t w.conf) :
    Agree T (t.step T w.conf op) w'.conf ∧ (final (t.step T w.conf op)).order = (final t).order ∧
      (final (t.step T w.conf op)).wires = (final t).wires := by
  cases op with
  | setInput n i v =>
    obtain ⟨w1, h1, hcf⟩ := step_setInput (T := T) (a0 := a0) (run := run) w n i v
    rw [hs] at h1
    simp only [Option.some.injEq, Prod.mk.injEq] at h1
    rw [← h1.1] at hcf
    have e : final (t.step T w.conf (.setInput n i v : EOp N V A M)) = (final t).update (.param n i v) := by
      simp only [Track.step, asks]
      split
      · exact final_snoc _ _
      · exact final_snoc _ _
    rw [e, hcf]
    refine ⟨⟨?_, ?_, ?_⟩, rfl, rfl⟩
    · intro m k
      rw [e]
      simp only [Playing.update, paramIn, getParam_setInput, Engine.ParamId.input.injEq, h.param]
      split <;> rfl
    · intro m k
      rw [e]
      simp only [Playing.update, atomIn, getParam_setInput, h.atom]
      simp
    · intro m k
      rw [e]
      simp only [Playing.update, getModamt_setInput, h.amt]
  | setAtom n i v =>
    obtain ⟨w1, h1, hcf⟩ := step_setAtom (T := T) (a0 := a0) (run := run) w n i v
    rw [hs] at h1
    simp only [Option.some.injEq, Prod.mk.injEq] at h1
    rw [← h1.1] at hcf
    have e : final (t.step T w.conf (.setAtom n i v : EOp N V A M)) = (final t).update (.atom n i v) := final_snoc _ _
    rw [e, hcf]
    refine ⟨⟨?_, ?_, ?_⟩, rfl, rfl⟩
    · intro m k
      rw [e]
      simp only [Playing.update, paramIn, getParam_setAtom, h.param]
      simp
    · intro m k
      rw [e]
      simp only [Playing.update, atomIn, getParam_setAtom, Engine.ParamId.atom.injEq, h.atom]
      split <;> rfl
    · intro m k
      rw [e]
      simp only [Playing.update, getModamt_setAtom, h.amt]
  | setModamt p v =>
    obtain ⟨w1, h1, hcf⟩ := step_setModamt (T := T) (a0 := a0) (run := run) w p v
    rw [hs] at h1
    simp only [Option.some.injEq, Prod.mk.injEq] at h1
    rw [← h1.1] at hcf
    have hpar := paramIn_of (T := T) (c := w.conf) (c' := (w.conf.setModamt (M := M) p v).1) (fun q => getParam_setModamt _ _ _ _)
    cases p with
    | atom n i =>
      have e : final (t.step T w.conf (.setModamt (.atom n i) v : EOp N V A M)) = final t := final_append_nil _
      rw [e, hcf]
      refine ⟨⟨?_, ?_, ?_⟩, rfl, rfl⟩
      · intro m k; rw [e, hpar.1, h.param]
      · intro m k; rw [e, hpar.2, h.atom]
      · intro m k; rw [e, h.amt]; simp [Conf.setModamt]
    | input n i =>
      simp only [NoToggle] at hn
      cases v with
      | none =>
        have e : final (t.step T w.conf (.setModamt (.input n i) none : EOp N V A M)) = final t := final_append_nil _
        rw [e, hcf]
        refine ⟨⟨?_, ?_, ?_⟩, rfl, rfl⟩
        · intro m k; rw [e, hpar.1, h.param]
        · intro m k; rw [e, hpar.2, h.atom]
        · intro m k
          rw [e, h.amt, getModamt_setModamt]
          split
          · rename_i hh
            rw [hh]
            simpa using hn
          · rfl
      | some x =>
        have e : final (t.step T w.conf (.setModamt (.input n i) (some x) : EOp N V A M)) = (final t).update (.amount n i x) := by
          have : asks T w.conf (.setModamt (.input n i) (some x) : EOp N V A M) = [.amount n i x] := by
            simp only [asks]; rw [if_pos (by simpa using hn)]
          show final { t with pending := t.pending ++ asks T w.conf (.setModamt (.input n i) (some x) : EOp N V A M) } = _
          rw [this]; exact final_snoc _ _
        rw [e, hcf]
        refine ⟨⟨?_, ?_, ?_⟩, rfl, rfl⟩
        · intro m k; rw [e, hpar.1]; simp only [Playing.update, h.param]
        · intro m k; rw [e, hpar.2]; simp only [Playing.update, h.atom]
        · intro m k
          rw [e, getModamt_setModamt]
          simp only [Playing.update, h.amt, Engine.ParamId.input.injEq]
          split
          · rename_i hh
            rw [hh.1, hh.2]
            obtain ⟨y, hy⟩ := Option.isSome_iff_exists.1 (by simpa using hn : (w.conf.getModamt (.input n i)).isSome = true)
            rw [hy]; rfl
          · rfl
  | _ => exact absurd hq (by simp [IsSet])

theorem follows_steady {w w' : World N V A M σ} {ops : List (EOp N V A M)} (h : Steady T a0 run w ops w')
    (hr : w'.queue.length < queueCapacity) : ∀ t, Follows T a0 run w t → Agree T t w.conf →
    ∃ t', Follows T a0 run w' t' ∧ Agree T t' w'.conf ∧ (final t').order = (final t).order ∧ (final t').wires = (final t).wires := by
  have hmono : ∀ {w w' : World N V A M σ} {ops : List (EOp N V A M)}, Steady T a0 run w ops w' → w.queue.length ≤ w'.queue.length := by
    intro w w' ops h
    induction h with
    | nil => exact Nat.le_refl _
    | cons hq _ hs _ ih => exact Nat.le_trans (queue_mono (Or.inl (quiet_of_set _ hq)) hs) ih
  induction h with
  | nil => intro t ht ha; exact ⟨t, ht, ha, rfl, rfl⟩
  | @cons w0 w1 w2 op out ops hq hn hs hrest ih =>
    intro t ht ha
    have hp : Polite w0 op := by cases op <;> trivial
    have h1 := queue_mono (Or.inl (quiet_of_set _ hq)) hs
    have h2 := hmono hrest
    obtain ⟨a1, a2, a3⟩ := agree_set hq hn hs ha
    obtain ⟨t', b1, b2, b3, b4⟩ := ih hr _ (.call ht (careful_quiet hp (quiet_of_set _ hq) (by omega)) hs) a1
    exact ⟨t', b1, b2, b3.trans a2, b4.trans a3⟩

/-- A new program: what is set is played. -/
theorem agree_sync {w w' : World N V A M σ} {order : List N} {ws : List (Conn N)} {co : Bool}
    {out : Option (Engine.BlockResult N V A)} (hr : Reached T a0 run w) (hs : w.step T a0 run (.sync order ws co) = some (w', out))
    (t : Track N V A) :
    Agree T (t.step T w.conf (.sync order ws co : EOp N V A M)) w'.conf ∧
      (final (t.step T w.conf (.sync order ws co : EOp N V A M))).order = order ∧
      (final (t.step T w.conf (.sync order ws co : EOp N V A M))).wires = ws := by
  have e : final (t.step T w.conf (.sync order ws co : EOp N V A M)) =
      { order := order, wires := ws, amt := fun n i => w.conf.getModamt (.input n i), atom := atomIn T w.conf, param := paramIn T w.conf } :=
    final_snoc _ _
  simp only [World.step] at hs
  obtain ⟨⟨c', p, h'⟩, hb, heq⟩ := Option.map_eq_some_iff.1 hs
  simp only [Prod.mk.injEq] at heq
  have hconf : w'.conf = c' := by rw [← heq.1]; simp [conf_send]
  rw [e, hconf]
  refine ⟨⟨?_, ?_, ?_⟩, rfl, rfl⟩
  · intro n i
    rw [e]
    obtain ⟨k1, k2, -, -⟩ := rebuild_keeps_params hr hb n i
    simp only [paramIn]
    cases hg : w.conf.getParam (.input n i) with
    | none => rw [k2 hg]; split <;> (split <;> simp_all)
    | some v => rw [k1 v hg]
  · intro n i
    rw [e]
    obtain ⟨-, -, k1, k2⟩ := rebuild_keeps_params hr hb n i
    simp only [atomIn]
    cases hg : w.conf.getParam (.atom n i) with
    | none => rw [k2 hg]; split <;> (split <;> simp_all)
    | some v => rw [k1 v hg]
  · intro n i
    rw [e, rebuild_keeps_modamt hb]

/-- What the other threads do. -/
theorem audio_facts {w w' : World N V A M σ} {op : EOp N V A M} {out : Option (Engine.BlockResult N V A)}
    (hop : op = .poll ∨ (∃ n, op = .process n) ∨ op = .dropOne ∨ ∃ n, op = .setSlope n) (hs : w.step T a0 run op = some (w', out)) (t : Track N V A) :
    Careful T w op ∧ final (t.step T w.conf op) = final t ∧ w'.conf = w.conf := by
  have hconf : w'.conf = w.conf := by
    rcases hop with rfl | ⟨n, rfl⟩ | rfl | ⟨n, rfl⟩
    · simp only [World.step] at hs
      obtain ⟨x, -, hx⟩ := Option.map_eq_some_iff.1 hs
      simp only [Prod.mk.injEq] at hx
      rw [← hx.1]
    · simp only [World.step] at hs
      obtain ⟨x, -, hx⟩ := Option.map_eq_some_iff.1 hs
      simp only [Prod.mk.injEq] at hx
      rw [← hx.1]
    · simp only [World.step] at hs
      split at hs
      · simp only [Option.some.injEq, Prod.mk.injEq] at hs; rw [← hs.1]
      · simp only [Option.some.injEq, Prod.mk.injEq] at hs; rw [← hs.1]
    · simp only [World.step, Option.some.injEq, Prod.mk.injEq] at hs
      rw [← hs.1]
  refine ⟨?_, ?_, hconf⟩
  · rcases hop with rfl | ⟨n, rfl⟩ | rfl | ⟨n, rfl⟩
    all_goals exact ⟨trivial, fun h => absurd rfl h, (fun _ _ _ h => nomatch h), (fun _ _ _ h => nomatch h)⟩
  · rcases hop with rfl | ⟨n, rfl⟩ | rfl | ⟨n, rfl⟩
    · rfl
    · exact final_append_nil _
    · exact final_append_nil _
    · exact final_append_nil _

theorem agree_audio {w w' : World N V A M σ} {op : EOp N V A M} {out : Option (Engine.BlockResult N V A)}
    (hop : op = .poll ∨ (∃ n, op = .process n) ∨ op = .dropOne) (hs : w.step T a0 run op = some (w', out)) {t : Track N V A}
    (ht : Follows T a0 run w t) :
    Follows T a0 run w' (t.step T w.conf op) ∧ final (t.step T w.conf op) = final t ∧ w'.conf = w.conf := by
  obtain ⟨h1, h2, h3⟩ := audio_facts (by rcases hop with h | h | h; exacts [Or.inl h, Or.inr (Or.inl h), Or.inr (Or.inr (Or.inl h))]) hs t
  exact ⟨.call ht h1 hs, h2, h3⟩

end HexoDSP.Play
