import Verif.Lemmas.Flow
import Verif.Props.NodeConf
/-!
# Data flow of a block, modulation, connected flags, output feedback (C12, C13, C14, C53)

All theorems are about the machine with buffers, index regions, message queue and program exchange,
after any history of careful calls (`Follows`), and say that a block is the data flow of what the user
asked for, as the reference machine of `Spec/Playing.lean` remembers it. The behaviour of the nodes is
an arbitrary function.
-/

set_option linter.unusedSectionVars false

namespace HexoDSP.FlowProps
open HexoDSP.Engine HexoDSP.EngineSpec HexoDSP.NodeConfProps

variable {N V A M σ : Type} [DecidableEq N]
variable [Add V] [Mul V] [Sub V] [Div V] [NatCast V] [OfNat V 0]
variable {T : NodeTable N V A} {a0 : A} {run : σ → CallIn N V A → σ × (Nat → Block V)}
variable {w w' : World N V A M σ} {t : Track N V A} {nf : Nat} {r : BlockResult N V A}

/-- **C12** A block is an execution of the nodes that are playing, one after the other, each on the
state its predecessor left, and it is the data flow of the connections that are playing. -/
theorem block_is_dataflow (hT : ∀ n, T.inCount n ≤ 32) (h : Follows T a0 run w t)
    (hs : w.step T a0 run (.process nf) = some (w', some r)) :
    Runs run w.st r.calls w'.st ∧ Flow T t.now nf r.calls := by
  obtain ⟨⟨le, lc, h1, h2, h3, h4⟩, hwf, hacc⟩ := follows_sim hT h
  simp only [World.step] at hs
  obtain ⟨⟨e', h', st', r'⟩, hb, heq⟩ := Option.map_eq_some_iff.1 hs
  simp only [Prod.mk.injEq, Option.some.injEq] at heq
  obtain ⟨rfl, rfl⟩ := heq
  obtain ⟨_, hd⟩ := process_plays run h1 (account_owned hacc) hb
  exact ⟨hd.runs, flow_of_done h1.carries hd⟩

/-- **C12** Every node of the program that is playing runs exactly once per block, sources before
destinations. -/
theorem every_node_runs_once (hT : ∀ n, T.inCount n ≤ 32) (h : Follows T a0 run w t)
    (hs : w.step T a0 run (.process nf) = some (w', some r)) :
    r.calls.map (fun c => c.node) = t.now.order :=
  (block_is_dataflow hT h hs).2.order

/-- **C12** A connected input without a modulation amount holds the output its source produced in this
very block; an unconnected input holds the parameter. -/
theorem inputs_are_sources (hT : ∀ n, T.inCount n ≤ 32) (h : Follows T a0 run w t)
    (hs : w.step T a0 run (.process nf) = some (w', some r)) (c : Call N V A) (hc : c ∈ r.calls) (k : Nat) :
    (∀ e, Feeds T t.now.wires c.node k e → t.now.amt c.node k = none →
      ∃ s ∈ r.calls, s.node = e.src ∧ c.inputs[k]? = s.outputs[e.srcOut]?) ∧
    (k < T.inCount c.node → Unfed T t.now.wires c.node k → c.inputs[k]? = c.params[k]?) :=
  have hf := (block_is_dataflow hT h hs).2
  ⟨fun e he ha => hf.direct c hc k e he ha, fun hk hu => hf.unfed c hc k hk hu⟩

/-- **C12** The atoms a node sees are the latest ones that reached the audio thread. -/
theorem atoms_are_latest (hT : ∀ n, T.inCount n ≤ 32) (h : Follows T a0 run w t)
    (hs : w.step T a0 run (.process nf) = some (w', some r)) (c : Call N V A) (hc : c ∈ r.calls) (k : Nat)
    (hk : k < T.atCount c.node) : c.atoms[k]? = some (t.now.atom c.node k) :=
  (block_is_dataflow hT h hs).2.atoms c hc k hk

/-- **C13** A connected input with modulation amount `a` holds parameter + `a` * source output, frame by
frame. -/
theorem modulated_input (hT : ∀ n, T.inCount n ≤ 32) (h : Follows T a0 run w t)
    (hs : w.step T a0 run (.process nf) = some (w', some r)) (c : Call N V A) (hc : c ∈ r.calls) (k : Nat)
    (e : Conn N) (a : V) (he : Feeds T t.now.wires c.node k e) (ha : t.now.amt c.node k = some a) :
    ∃ s ∈ r.calls, s.node = e.src ∧ ∃ x par out, c.inputs[k]? = some x ∧ c.params[k]? = some par ∧
      s.outputs[e.srcOut]? = some out ∧ ∀ f, f < nf → x f = par f + a * out f :=
  (block_is_dataflow hT h hs).2.modulated c hc k e a he ha

/-- **C14** The flags a node sees: bit `k` is set exactly if its input (output) `k` is connected. -/
theorem connected_flags (hT : ∀ n, T.inCount n ≤ 32) (h : Follows T a0 run w t)
    (hs : w.step T a0 run (.process nf) = some (w', some r)) (c : Call N V A) (hc : c ∈ r.calls) (k : Nat) :
    (c.inConnected.testBit k = true ↔ ∃ e ∈ t.now.wires, Plugged T e ∧ e.dst = c.node ∧ e.dstIn = k) ∧
    (c.outConnected.testBit k = true ↔ ∃ e ∈ t.now.wires, Plugged T e ∧ e.src = c.node ∧ e.srcOut = k) :=
  have hf := (block_is_dataflow hT h hs).2
  ⟨hf.inFlags c hc k, hf.outFlags c hc k⟩

theorem match_nil {l l' : Layout N V} {now : Playing N V A} {q : List (Msg N V A M)} {us : List (Update N V A)}
    (h : Match T l now q us l') (hq : q = []) : l' = l := by
  induction h with
  | nil => rfl
  | cons h1 _ ih =>
    obtain ⟨e1, e2⟩ := List.append_eq_nil_iff.1 hq
    subst e1
    rw [ih e2]
    cases h1 <;> rfl

/-- **C53** After a block, once the audio thread has taken all messages, the feedback value the user gets
for an output of a node is the last sample of that output in this block; there is no value for an output
the node does not have. -/
theorem feedback_is_last_sample (hT : ∀ n, T.inCount n ≤ 32) (h : Follows T a0 run w t) (hq : w.queue = [])
    (hs : w.step T a0 run (.process nf) = some (w', some r)) (c : Call N V A) (hc : c ∈ r.calls) (k : Nat) :
    w'.conf.outFbFor w'.exec.prog.outFb c.node k = (c.outputs[k]?).map (fun b => b (nf - 1)) ∧
    (k < T.outCount c.node → (c.outputs[k]?).isSome) := by
  obtain ⟨⟨le, lc, h1, h2, h3, h4⟩, hwf, hacc⟩ := follows_sim hT h
  have hl := match_nil h2 hq
  subst hl
  simp only [World.step] at hs
  obtain ⟨⟨e', h', st', r'⟩, hb, heq⟩ := Option.map_eq_some_iff.1 hs
  simp only [Prod.mk.injEq, Option.some.injEq] at heq
  obtain ⟨rfl, rfl⟩ := heq
  obtain ⟨_, hd⟩ := process_plays run h1 (account_owned hacc) hb
  have hlen := (flow_of_done h1.carries hd).nOutputs c hc
  have hmem := h1.carries.ord _ (done_call h1.carries hd hc).1
  refine ⟨?_, fun hk => by rw [List.getElem?_eq_getElem (by omega)]; rfl⟩
  show w.conf.outFbFor e'.prog.outFb c.node k = _
  unfold Conf.outFbFor
  obtain ⟨ni, hni⟩ := Option.isSome_iff_exists.1 (h3.has _ hmem)
  obtain ⟨_, hr, _⟩ := h3.inst _ _ hni
  rw [hni]
  simp only [NodeInstance.outLocal2Global, hr]
  by_cases hk : k < T.outCount c.node
  · rw [if_pos (by omega)]
    exact fb_of_done h1.carries hd hc hk
  · rw [if_neg (by omega), List.getElem?_eq_none (by omega)]
    rfl

/-- **C12** The audio thread never panics while it takes messages. -/
theorem poll_never_panics (hT : ∀ n, T.inCount n ≤ 32) (h : Follows T a0 run w t) :
    ∃ w', w.step T a0 run .poll = some (w', none) := by
  obtain ⟨⟨le, lc, h1, h2, h3, h4⟩, hwf, hacc⟩ := follows_sim hT h
  obtain ⟨e', s', r1, _⟩ := applyAll_plays h2 h1 hacc.refs hacc.fresh (account_cnt hacc)
  simp only [World.step, r1]
  exact ⟨_, rfl⟩

/-! ## A concrete history -/

/-- A sufficient, computable condition for `Legal`. -/
def legalB (c : Conf N V A) (order : List N) (es : List (Conn N)) : Bool :=
  decide (c.nodes.length ≤ 256) && decide order.Nodup && order.all (fun n => decide (Allocated c n)) &&
    es.all (fun e => decide (e.dst ∈ order) && decide (e.src ∈ order.takeWhile (fun n => decide (n ≠ e.dst))))

theorem legal_of_legalB {c : Conf N V A} {order : List N} {es : List (Conn N)} (h : legalB c order es = true) :
    Legal c order es := by
  simp only [legalB, Bool.and_eq_true, decide_eq_true_eq, List.all_eq_true] at h
  obtain ⟨⟨⟨h1, h2⟩, h3⟩, h4⟩ := h
  refine ⟨h1, h2, h3, fun e he => ?_⟩
  obtain ⟨h5, h6⟩ := h4 e he
  have hsplit := List.takeWhile_append_dropWhile (p := fun n => decide (n ≠ e.dst)) (l := order)
  obtain ⟨p, q, hpq⟩ := List.append_of_mem h6
  cases hd : order.dropWhile (fun n => decide (n ≠ e.dst)) with
  | nil =>
    rw [hd, List.append_nil] at hsplit
    rw [← hsplit] at h5
    have := (List.all_eq_true.1 (List.all_takeWhile (p := fun n => decide (n ≠ e.dst)) (l := order))) _ h5
    simp at this
  | cons x xs =>
    have hx : x = e.dst := by
      have := List.head?_dropWhile_not (fun n => decide (n ≠ e.dst)) order
      rw [hd] at this
      simpa using this
    refine ⟨p, q, xs, ?_⟩
    rw [← hsplit, hpq, hd, hx]

/-- A sufficient, computable condition for `Careful`. -/
def carefulB (w : World N V A M σ) (op : EOp N V A M) : Bool :=
  decide (Polite w op) && (decide (w.queue.length < queueCapacity) &&
    match op with
    | .sync order es _ => legalB w.conf order es
    | .monitor _ ins outs => decide (ins.length = 3 ∧ outs.length = 3)
    | _ => true)

theorem careful_of_carefulB {w : World N V A M σ} {op : EOp N V A M} (h : carefulB w op = true) : Careful T w op := by
  simp only [carefulB, Bool.and_eq_true, decide_eq_true_eq] at h
  refine ⟨h.1, fun _ => h.2.1, fun order es co he => ?_, fun n ins outs he => ?_⟩
  · subst he
    exact legal_of_legalB h.2.2
  · subst he
    simpa using h.2.2

/-- Run calls as long as they are careful. -/
def followRun (T : NodeTable N V A) (a0 : A) (run : σ → CallIn N V A → σ × (Nat → Block V)) :
    World N V A M σ × Track N V A → List (EOp N V A M) → Option (World N V A M σ × Track N V A)
  | s, [] => some s
  | s, op :: ops =>
    if carefulB s.1 op then
      match s.1.step T a0 run op with
      | none => none
      | some r => followRun T a0 run (r.1, s.2.step T s.1.conf op) ops
    else none

theorem follows_of_run (ops : List (EOp N V A M)) : ∀ (s s' : World N V A M σ × Track N V A),
    Follows T a0 run s.1 s.2 → followRun T a0 run s ops = some s' → Follows T a0 run s'.1 s'.2 := by
  induction ops with
  | nil => intro s s' h he; cases he; exact h
  | cons op ops ih =>
    intro s s' h he
    simp only [followRun] at he
    split at he
    · rename_i hc
      cases hx : s.1.step T a0 run op with
      | none => simp [hx] at he
      | some r =>
        simp only [hx] at he
        exact ih _ _ (.call h (careful_of_carefulB hc) (out := r.2) hx) he
    · cases he

/-- A patch with modulation is played, changed while it plays, exchanged. -/
def exOps3 : List (EOp Nat Int Nat Unit) :=
  exOps ++ [.sync [0, 1, 2] [⟨1, 0, 0, 0⟩, ⟨2, 1, 1, 0⟩] true, .poll, .process 4, .setModamt (.input 1 0) (some 9),
    .setAtom 0 0 77, .poll, .process 2, .createNode 3,
    .sync [0, 3, 1, 2] [⟨1, 0, 0, 0⟩, ⟨2, 1, 1, 0⟩, ⟨1, 1, 3, 0⟩] true, .poll, .process 3]

def exF : World Nat Int Nat Unit Unit × Track Nat Int Nat :=
  (followRun exT 0 exRun (World.new (), Track.new exT) exOps3).get (by decide +kernel)

theorem exF_follows : Follows exT 0 exRun exF.1 exF.2 :=
  follows_of_run exOps3 _ _ (.new ()) (Option.some_get _).symm

/-- The history is careful; the next block exists, node 1 runs third with its first input modulated (by 9),
its second one connected to node 3, its third one unconnected. -/
example : Follows exT 0 exRun exF.1 exF.2 ∧ exF.1.queue = [] ∧
    ((exF.1.step exT 0 exRun (.process 5)).bind (fun x => x.2)).isSome = true ∧
    exF.2.now.order = [0, 3, 1, 2] ∧ exF.2.now.amt 1 0 = some 9 ∧ exF.2.now.amt 1 1 = none ∧
    Feeds exT exF.2.now.wires 1 0 ⟨1, 0, 0, 0⟩ ∧ Feeds exT exF.2.now.wires 1 1 ⟨1, 1, 3, 0⟩ ∧
    Unfed exT exF.2.now.wires 1 2 ∧
    (((exF.1.step exT 0 exRun (.process 5)).bind (fun x => x.2)).map (fun r =>
      r.calls.map (fun c => (c.inputs.map (fun b => b 2), c.outputs.map (fun b => b 2), c.inConnected)))) =
      some [([100, 55], [155], 0), ([130, 131, 132], [393], 0), ([110 + 9 * 155, 393, 112], [2010], 3),
        ([120, 2010, 122], [], 2)] := by
  have hw : exF.2.now.wires = [⟨1, 0, 0, 0⟩, ⟨2, 1, 1, 0⟩, ⟨1, 1, 3, 0⟩] := by decide +kernel
  refine ⟨exF_follows, by decide +kernel, by decide +kernel, by decide +kernel, by decide +kernel, by decide +kernel, ?_, ?_, ?_,
    by decide +kernel⟩
  · rw [hw]
    exact ⟨by decide, rfl, rfl, [], _, rfl, by decide⟩
  · rw [hw]
    exact ⟨by decide, rfl, rfl, [⟨1, 0, 0, 0⟩, ⟨2, 1, 1, 0⟩], [], rfl, by simp⟩
  · rw [hw]
    unfold Unfed
    decide

end HexoDSP.FlowProps
