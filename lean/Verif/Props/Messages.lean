import Verif.Props.NodeConf
import Verif.Props.Ownership
/-!
# Order of the graph messages (C52)
-/

set_option linter.unusedSectionVars false

namespace HexoDSP.MessagesProps
open HexoDSP.Engine HexoDSP.EngineSpec HexoDSP.NodeConfProps

variable {N V A M σ : Type} [DecidableEq N]
variable [Add V] [Mul V] [Sub V] [Div V] [NatCast V] [OfNat V 0]
variable {T : NodeTable N V A} {a0 : A} {run : σ → CallIn N V A → σ × (Nat → Block V)}

/-- The messages a call of the frontend hands to the queue. -/
def posted (T : NodeTable N V A) (a0 : A) (w : World N V A M σ) : EOp N V A M → List (Msg N V A M)
  | .deleteNodes => w.conf.deleteNodes.2
  | .setInput n i v => (w.conf.setInput n i v).2
  | .setAtom n i a => (w.conf.setAtom n i a).2
  | .setModamt p v => (w.conf.setModamt p v).2.1
  | .sync order es co =>
    match w.conf.buildProg T a0 w.shared.heap order es with
    | none => []
    | some r => [.newProg (r.1.fillProg r.2.1) co]
  | .monitor n ins outs => w.conf.monitor n ins outs
  | .injectMidi ev => [.injectMidi ev]
  | _ => []

/-- The messages a call takes out of the queue and applies. -/
def consumed (w : World N V A M σ) : EOp N V A M → List (Msg N V A M)
  | .poll => w.queue
  | _ => []

/-- A history with the messages posted, those that were accepted by the queue, and those applied by the
executor, each in order. -/
inductive Traced (T : NodeTable N V A) (a0 : A) (run : σ → CallIn N V A → σ × (Nat → Block V)) :
    World N V A M σ → List (EOp N V A M) → World N V A M σ → List (Msg N V A M) → List (Msg N V A M) →
    List (Msg N V A M) → Prop
  | nil (w : World N V A M σ) : Traced T a0 run w [] w [] [] []
  | cons {w w1 w2 : World N V A M σ} {op : EOp N V A M} {out : Option (BlockResult N V A)}
      {ops : List (EOp N V A M)} {post acc app : List (Msg N V A M)} :
      w.step T a0 run op = some (w1, out) → Traced T a0 run w1 ops w2 post acc app →
      Traced T a0 run w (op :: ops) w2 (posted T a0 w op ++ post)
        ((posted T a0 w op).take (queueCapacity - w.queue.length) ++ acc) (consumed w op ++ app)
  | outside {w w1 : World N V A M σ} {ops : List (EOp N V A M)} {post acc app : List (Msg N V A M)} (st : σ) :
      Traced T a0 run { w with st := st } ops w1 post acc app → Traced T a0 run w ops w1 post acc app

theorem sendAll_queue (ms : List (Msg N V A M)) : ∀ w : World N V A M σ,
    (w.sendAll ms).queue = w.queue ++ ms.take (queueCapacity - w.queue.length) := by
  induction ms with
  | nil => intro w; simp [World.sendAll]
  | cons m ms ih =>
    intro w
    have e : w.sendAll (m :: ms) = (w.send m).sendAll ms := rfl
    rw [e, ih]
    unfold World.send
    split
    · rename_i h
      obtain ⟨k, hk⟩ : ∃ k, queueCapacity - w.queue.length = k + 1 := ⟨queueCapacity - w.queue.length - 1, by omega⟩
      have hk' : queueCapacity - (w.queue ++ [m]).length = k := by simp; omega
      simp only [hk, hk', List.take_succ_cons, List.append_assoc, List.singleton_append]
    · rename_i h
      have : queueCapacity - w.queue.length = 0 := by omega
      simp [this]

/-- **C52** A call of the frontend appends its messages to the queue in order, as far as there is room;
a call other than poll removes none. -/
theorem call_appends {w w' : World N V A M σ} {op : EOp N V A M} {out : Option (BlockResult N V A)}
    (hop : op ≠ .poll) (hs : w.step T a0 run op = some (w', out)) :
    w'.queue = w.queue ++ (posted T a0 w op).take (queueCapacity - w.queue.length) := by
  cases op with
  | poll => exact absurd rfl hop
  | createNode n => cases hs; simp [posted]
  | deleteNodes => cases hs; exact sendAll_queue _ _
  | setInput n i v => cases hs; exact sendAll_queue _ _
  | setAtom n i v => cases hs; exact sendAll_queue _ _
  | setModamt p v => cases hs; exact sendAll_queue _ _
  | monitor n ins outs => cases hs; exact sendAll_queue _ _
  | injectMidi ev =>
    cases hs
    exact sendAll_queue [.injectMidi ev] w
  | sync order es co =>
    simp only [World.step] at hs
    simp only [posted]
    cases hb : w.conf.buildProg T a0 w.shared.heap order es with
    | none => simp [hb] at hs
    | some r =>
      simp only [hb, Option.map_some, Option.some.injEq, Prod.mk.injEq] at hs
      obtain ⟨rfl, _⟩ := hs
      exact sendAll_queue [.newProg (r.1.fillProg r.2.1) co] { w with conf := r.1, shared := { w.shared with heap := r.2.2 } }
  | process nf =>
    simp only [World.step] at hs
    cases hp : w.exec.process run w.shared.heap w.st nf with
    | none => simp [hp] at hs
    | some r =>
      simp only [hp, Option.map_some, Option.some.injEq, Prod.mk.injEq] at hs
      obtain ⟨rfl, _⟩ := hs
      simp [posted]
  | dropOne =>
    simp only [World.step] at hs
    split at hs <;> cases hs <;> simp [posted]
  | setSlope n => cases hs; simp [posted]

theorem foldlM_apply (ms : List (Msg N V A M)) : ∀ (e : Exec N V A M) (s : Shared N V A),
    e.applyAll s ms = ms.foldlM (fun (x : Exec N V A M × Shared N V A) m => x.1.apply x.2 m) (e, s) := by
  induction ms with
  | nil => intro e s; rfl
  | cons m ms ih =>
    intro e s
    rw [List.foldlM_cons, Exec.applyAll]
    cases e.apply s m with
    | none => rfl
    | some x => exact ih _ _

/-- **C52** A poll applies exactly the messages in the queue, the oldest first, and empties it. -/
theorem poll_applies_in_order {w w' : World N V A M σ} {out : Option (BlockResult N V A)}
    (hs : w.step T a0 run .poll = some (w', out)) :
    w'.queue = [] ∧
    w.queue.foldlM (fun (x : Exec N V A M × Shared N V A) m => x.1.apply x.2 m) (w.exec, w.shared) =
      some (w'.exec, w'.shared) := by
  simp only [World.step] at hs
  rw [← foldlM_apply]
  cases ha : w.exec.applyAll w.shared w.queue with
  | none => simp [ha] at hs
  | some r =>
    simp only [ha, Option.map_some, Option.some.injEq, Prod.mk.injEq] at hs
    obtain ⟨rfl, _⟩ := hs
    exact ⟨rfl, rfl⟩

/-- **C52** First in, first out, over every history and every interleaving of the two threads: the
messages applied so far, followed by those still queued, are exactly the messages accepted so far, in the
order they were sent, none twice and none missing. -/
theorem fifo {w w' : World N V A M σ} {ops : List (EOp N V A M)} {post acc app : List (Msg N V A M)}
    (h : Traced T a0 run w ops w' post acc app) : app ++ w'.queue = w.queue ++ acc := by
  induction h with
  | nil => simp
  | @cons w w1 w2 op out ops post acc app hs _ ih =>
    by_cases hp : op = .poll
    · subst hp
      have := (poll_applies_in_order hs).1
      rw [List.append_assoc, ih, this]
      simp [consumed, posted]
    · have := call_appends hp hs
      rw [List.append_assoc, ih, this]
      have : consumed w op = [] := by cases op <;> first | rfl | exact absurd rfl hp
      simp [this]
  | outside _ _ ih => exact ih

/-- Every message of the history finds room, whatever happens outside the engine. -/
def Roomy (T : NodeTable N V A) (a0 : A) (run : σ → CallIn N V A → σ × (Nat → Block V)) :
    World N V A M σ → List (EOp N V A M) → Prop
  | _, [] => True
  | w, op :: ops => w.queue.length + (posted T a0 w op).length ≤ queueCapacity ∧
    ∀ st w1 out, World.step T a0 run { w with st := st } op = some (w1, out) → Roomy T a0 run w1 ops

theorem roomy_outside {w : World N V A M σ} {ops : List (EOp N V A M)} (st : σ) (h : Roomy T a0 run w ops) : Roomy T a0 run { w with st := st } ops := by
  cases ops with
  | nil => trivial
  | cons op ops =>
    refine ⟨?_, h.2⟩
    have : posted T a0 { w with st := st } op = posted T a0 w op := by cases op <;> rfl
    rw [this]
    exact h.1

/-- **C52** A message is lost only if the queue was full when it was sent: if there was room for every
message, all messages posted are applied or still queued, in order. -/
theorem nothing_lost {w w' : World N V A M σ} {ops : List (EOp N V A M)} {post acc app : List (Msg N V A M)}
    (h : Traced T a0 run w ops w' post acc app) (hr : Roomy T a0 run w ops) : app ++ w'.queue = w.queue ++ post := by
  have : acc = post := by
    induction h with
    | nil => rfl
    | cons hs _ ih =>
      obtain ⟨h1, h2⟩ := hr
      rw [ih (h2 _ _ _ hs), List.take_of_length_le (by omega)]
    | outside st _ ih => exact ih (roomy_outside st hr)
  rw [fifo h, this]

/-- The executor never sees a message that was not posted. -/
theorem accepted_sublist {w w' : World N V A M σ} {ops : List (EOp N V A M)} {post acc app : List (Msg N V A M)}
    (h : Traced T a0 run w ops w' post acc app) : acc.Sublist post := by
  induction h with
  | nil => exact .slnil
  | cons _ _ ih => exact (List.take_sublist _ _).append ih
  | outside _ _ ih => exact ih

/-- Every history that does not panic has a trace. -/
theorem traced_of_ran {w w' : World N V A M σ} {ops : List (EOp N V A M)} (h : Ran T a0 run w ops w') :
    ∃ post acc app, Traced T a0 run w ops w' post acc app := by
  induction h with
  | nil w => exact ⟨_, _, _, .nil w⟩
  | cons _ hs _ ih =>
    obtain ⟨post, acc, app, h⟩ := ih
    exact ⟨_, _, _, .cons hs h⟩
  | outside st _ ih =>
    obtain ⟨post, acc, app, h⟩ := ih
    exact ⟨_, _, _, .outside st h⟩

/-! ## The lost messages

The code ignores a refused push (`let _ = ...push(..)`). With a full queue a message, even a new program,
is lost without notice. -/

/-- **C52** (negative part) A message sent while the queue is full has no effect at all. -/
theorem full_queue_loses {w w' : World N V A M σ} {op : EOp N V A M} {out : Option (BlockResult N V A)}
    (hop : op ≠ .poll) (hf : queueCapacity ≤ w.queue.length) (hs : w.step T a0 run op = some (w', out)) :
    w'.queue = w.queue := by
  rw [call_appends hop hs]
  have : queueCapacity - w.queue.length = 0 := by omega
  simp [this]

theorem inject_many (k : Nat) (ev : M) : ∀ w : World N V A M σ, w.queue.length + k ≤ queueCapacity →
    Ran T a0 run w (List.replicate k (.injectMidi ev)) { w with queue := w.queue ++ List.replicate k (.injectMidi ev) } := by
  induction k with
  | zero => intro w _; simp; exact .nil _
  | succ k ih =>
    intro w hw
    rw [List.replicate_succ]
    have hlt : w.queue.length < queueCapacity := by omega
    have hs : w.step T a0 run (.injectMidi ev) = some ({ w with queue := w.queue ++ [.injectMidi ev] }, none) := by
      show some (World.send w (.injectMidi ev), none) = _
      rw [World.send, if_pos hlt]
    have h2 := ih { w with queue := w.queue ++ [.injectMidi ev] } (by simp; omega)
    simp only [List.append_assoc, List.singleton_append] at h2
    rw [List.replicate_succ (n := k)]
    exact .cons trivial hs h2

/-- The queue can really fill up: an engine that is not polled reaches a state with a full queue. -/
theorem queue_fills_up (st : σ) (ev : M) : ∃ w : World N V A M σ, Reached T a0 run w ∧ w.queue.length = queueCapacity :=
  ⟨_, ⟨st, _, inject_many queueCapacity ev (World.new st) (by simp [World.new])⟩, by simp [World.new]⟩

/-- The theorems apply to the concrete history of `OwnershipProps`: it has a trace with two programs. -/
example : ∃ post acc app, Traced exT 0 exRun (World.new ()) OwnershipProps.exOps2 OwnershipProps.exW2 post acc app ∧
    app ++ [] = [] ++ acc := by
  obtain ⟨post, acc, app, h⟩ := traced_of_ran (ran_of_politeRun (T := exT) (a0 := 0) (run := exRun)
    OwnershipProps.exOps2 (World.new ()) OwnershipProps.exW2 (Option.some_get _).symm)
  refine ⟨post, acc, app, h, ?_⟩
  have := fifo h
  rw [show OwnershipProps.exW2.queue = [] from List.eq_nil_of_length_eq_zero (by decide +kernel)] at this
  exact this

end HexoDSP.MessagesProps
