import Verif.Lemmas.Leds
import Verif.Lemmas.Many
/-!
# C137: the lights of the nodes

The user interface asks for the LED and for the phase of a node. The answer is what the node has shown last, as long as no nodes have been deleted: the numbers are
kept by the index of a node, indices are used again, and nothing makes the old lights go out.
-/

set_option linter.unusedSectionVars false

namespace HexoDSP.LedsProps
open HexoDSP.Engine HexoDSP.EngineSpec HexoDSP.FlowProps HexoDSP.NodeConfProps HexoDSP.Leds

variable {N V A M σ : Type} [DecidableEq N]
variable [Add V] [Mul V] [Sub V] [Div V] [NatCast V] [OfNat V 0]
variable {T : NodeTable N V A} {a0 : A} {run : σ → CallIn N V A → σ × (Nat → Block V) × Lights V}
variable {w w' : LWorld N V A M σ} {t : Track N V A} {n : N} {l : Lights V}

theorem led_of {i : Nat} (h : w.world.conf.uniqueIndexFor n = some i) : w.ledValueFor n = w.ctx[i * 2]? := by
  unfold LWorld.ledValueFor; rw [h]

theorem phase_of {i : Nat} (h : w.world.conf.uniqueIndexFor n = some i) : w.phaseValueFor n = w.ctx[i * 2 + 1]? := by
  unfold LWorld.phaseValueFor; rw [h]

/-- **C137** (what is missing: blocks that run while the message that the nodes are deleted is on its way; there it is false, see `late_block_lights_new_node`)
After a block, a node that has run shows the LED and the phase it wrote in this block, and what it showed before if it wrote none. The nodes that have not run show
what they showed before. -/
theorem lights_after_block_partial (hT : ∀ n, T.inCount n ≤ 32) (h : LFollows T a0 run w t) (hc : Update.clear ∉ t.pending) {nf : Nat} {res : BlockResult N V A}
    (hs : w.step T a0 run (.process nf) = some (w', some res)) :
    ∃ ls, Shines run w.world.st.1 res.calls ls w'.world.st.1 ∧
      (∀ n l, ShowedIn res.calls ls n l → w'.ledValueFor n = l.led.or (w.ledValueFor n) ∧ w'.phaseValueFor n = l.phase.or (w.phaseValueFor n)) ∧
      (∀ n, (∀ c ∈ res.calls, c.node ≠ n) → w'.ledValueFor n = w.ledValueFor n ∧ w'.phaseValueFor n = w.phaseValueFor n) := by
  obtain ⟨hconf, ls, h1, h2, h3⟩ := block_lights hT h hc hs
  refine ⟨ls, h1, ?_, ?_⟩
  · intro n l hl
    obtain ⟨i, hi, -, h4, h5⟩ := h2 n l hl
    rw [led_of hi, phase_of hi, led_of (hconf ▸ hi), phase_of (hconf ▸ hi)]
    exact ⟨h4, h5⟩
  · intro n hn
    cases hi : w.world.conf.uniqueIndexFor n with
    | none =>
      have hi' := hi
      rw [← hconf] at hi'
      simp [LWorld.ledValueFor, LWorld.phaseValueFor, hi, hi']
    | some i =>
      rw [led_of hi, phase_of hi, led_of (hconf ▸ hi), phase_of (hconf ▸ hi)]
      exact h3 n i hi hn

/-- **C137** Reading in the middle of a block: whenever the other thread reads a light, it gets either what was shown before the block or what is shown after it. -/
theorem lights_in_block (hT : ∀ n, T.inCount n ≤ 32) (h : LFollows T a0 run w t) {nf : Nat} {out} (hs : w.step T a0 run (.process nf) = some (w', out)) (k : Nat) :
    ∃ v, w.during T a0 run nf k = some v ∧ ∀ n, (v.ledValueFor n = w.ledValueFor n ∨ v.ledValueFor n = w'.ledValueFor n) ∧
      (v.phaseValueFor n = w.phaseValueFor n ∨ v.phaseValueFor n = w'.phaseValueFor n) := by
  obtain ⟨s1, s2⟩ := step_process hs
  obtain ⟨z1, z2⟩ := zip_ok hT h w'.world.st.2
  obtain ⟨mid, m1, m2⟩ := lightUps_mid _ (ctx_length h) z1 z2 s2 k
  refine ⟨{ w with ctx := mid }, ?_, fun n => ?_⟩
  · unfold LWorld.during
    rw [s1]
    simp only [Option.bind_some, m1, Option.map_some]
  · have hconf : w'.world.conf = w.world.conf := by
      simp only [World.step] at s1
      obtain ⟨r, -, hr⟩ := Option.map_eq_some_iff.1 s1
      simp only [Prod.mk.injEq] at hr
      rw [← hr.1]
    unfold LWorld.ledValueFor LWorld.phaseValueFor
    simp only [hconf]
    cases w.world.conf.uniqueIndexFor n with
    | none => simp
    | some i => exact m2 i

theorem wf_of (h : LFollows T a0 run w t) (hT : ∀ n, T.inCount n ≤ 32) : ConfWF w.world.conf := (follows_sim hT (follows_of h)).2.1

theorem index_kept (hT : ∀ n, T.inCount n ≤ 32) (h : LFollows T a0 run w t) {op : EOp N V A M} {out} (hc : Careful T w.world op) (hd : op ≠ .deleteNodes)
    (hs : w.step T a0 run op = some (w', out)) {i : Nat} (hi : w.world.conf.uniqueIndexFor n = some i) : w'.world.conf.uniqueIndexFor n = some i := by
  have hw' : ConfWF w'.world.conf := wf_of (.call h hc hs) hT
  have hw : ConfWF w.world.conf := wf_of h hT
  have hids : w'.world.conf.ids = createdFrom w.world.conf.ids [op] := by
    by_cases hp : ∃ nf, op = .process nf
    · obtain ⟨nf, rfl⟩ := hp
      exact Many.ids_step (w := { w.world with st := (w.world.st.1, []) }) hw (step_process hs).1
    · exact Many.ids_step hw (step_other (fun nf hh => hp ⟨nf, hh⟩) hs).1
  have hpre : w.world.conf.ids <+: w'.world.conf.ids := by
    rw [hids]
    cases op with
    | createNode m => exact List.prefix_append _ _
    | deleteNodes => exact absurd rfl hd
    | _ => exact List.prefix_refl _
  unfold Conf.uniqueIndexFor at hi ⊢
  rw [hw.idx] at hi
  rw [hw'.idx]
  obtain ⟨r, hr⟩ := hpre
  rw [← hr, List.getElem?_append_left (List.getElem?_eq_some_iff.1 hi).1]
  exact hi

/-- **C137** Between the blocks the lights of the nodes do not change, whatever else is called, except to delete all nodes. -/
theorem lights_kept (hT : ∀ n, T.inCount n ≤ 32) (h : LFollows T a0 run w t) {op : EOp N V A M} {out} (hc : Careful T w.world op) (hd : op ≠ .deleteNodes)
    (hp : ∀ nf, op ≠ .process nf) (hs : w.step T a0 run op = some (w', out)) (hn : Allocated w.world.conf n) :
    w'.ledValueFor n = w.ledValueFor n ∧ w'.phaseValueFor n = w.phaseValueFor n := by
  obtain ⟨i, hi⟩ := Option.isSome_iff_exists.1 hn
  have hi' := index_kept hT h hc hd hs hi
  rw [led_of hi, phase_of hi, led_of hi', phase_of hi', (step_other hp hs).2]
  exact ⟨rfl, rfl⟩

/-- **C137** When the nodes are deleted, they show 0. -/
theorem deleted_dark {out} (hs : w.step T a0 run .deleteNodes = some (w', out)) : w'.ledValueFor n = some 0 ∧ w'.phaseValueFor n = some 0 := by
  have h1 := (step_other (by intro nf hh; cases hh) hs).1
  simp only [World.step, Option.some.injEq, Prod.mk.injEq] at h1
  have h2 : w'.world.conf.uniqueIndexFor n = none := by
    rw [← h1.1, conf_sendAll]
    rfl
  simp [LWorld.ledValueFor, LWorld.phaseValueFor, h2]

theorem no_clear {c : Conf N V A} {op : EOp N V A M} (hd : op ≠ .deleteNodes) (h : Update.clear ∉ t.pending) : Update.clear ∉ (t.step T c op).pending := by
  cases op with
  | poll => simp [Track.step]
  | deleteNodes => exact absurd rfl hd
  | setModamt p v =>
    simp only [Track.step, List.mem_append, not_or]
    refine ⟨h, ?_⟩
    cases p <;> cases v <;> simp [asks]
  | setInput n i v =>
    simp only [Track.step, List.mem_append, not_or]
    refine ⟨h, ?_⟩
    simp only [asks]; split <;> simp
  | monitor n i v =>
    simp only [Track.step, List.mem_append, not_or]
    refine ⟨h, ?_⟩
    simp only [asks]; split <;> simp
  | _ => simpa [Track.step, asks] using h

theorem showed (hT : ∀ n, T.inCount n ≤ 32) (h : ShowedLast T a0 run n w t l) : LFollows T a0 run w t ∧ Update.clear ∉ t.pending ∧
    ∃ i, w.world.conf.uniqueIndexFor n = some i ∧ (∀ v, l.led = some v → w.ctx[i * 2]? = some v) ∧ (∀ v, l.phase = some v → w.ctx[i * 2 + 1]? = some v) := by
  induction h with
  | @now w w' t nf res ls st' l hf hc hs hsh hin =>
    have hf' : LFollows T a0 run w' (t.step T w.world.conf (.process nf)) :=
      .call hf ⟨trivial, fun hh => absurd rfl hh, (by intro _ _ _ hh; cases hh), (by intro _ _ _ hh; cases hh)⟩ hs
    have ht : t.step T w.world.conf (.process nf : EOp N V A M) = t := by simp [Track.step, asks]
    rw [ht] at hf'
    obtain ⟨hconf, ls', h1, h2, -⟩ := block_lights hT hf hc hs
    have := shines_unique _ hsh h1
    subst this
    obtain ⟨i, hi, -, h4, h5⟩ := h2 _ _ hin
    refine ⟨hf', hc, i, hconf ▸ hi, fun v hv => ?_, fun v hv => ?_⟩
    · rw [h4, hv]; rfl
    · rw [h5, hv]; rfl
  | @since w w' t op out l _ hcar hd hs hno ih =>
    obtain ⟨hf, hc, i, hi, h1, h2⟩ := ih
    refine ⟨.call hf hcar hs, no_clear hd hc, i, index_kept hT hf hcar hd hs hi, ?_⟩
    by_cases hp : ∃ nf, op = .process nf
    · obtain ⟨nf, rfl⟩ := hp
      obtain ⟨res, rfl⟩ : ∃ res, out = some res := by
        have := (step_process hs).1
        simp only [World.step] at this
        obtain ⟨r, -, hr⟩ := Option.map_eq_some_iff.1 this
        simp only [Prod.mk.injEq] at hr
        exact ⟨_, hr.2.symm⟩
      obtain ⟨-, ls, -, -, h5⟩ := block_lights hT hf hc hs
      obtain ⟨h6, h7⟩ := h5 _ i hi (hno res rfl)
      rw [h6, h7]
      exact ⟨h1, h2⟩
    · rw [(step_other (fun nf hh => hp ⟨nf, hh⟩) hs).2]
      exact ⟨h1, h2⟩
  | outside st _ ih =>
    obtain ⟨hf, hc, i, hi, h1, h2⟩ := ih
    exact ⟨.outside st hf, hc, i, hi, h1, h2⟩

/-- **C137** (what is missing: histories in which nodes are deleted after the node has run; there it is false, see `new_node_shows_old_light`)
For every history: the LED and the phase that the user interface gets for a node are what the node wrote when it ran last. -/
theorem shows_last_partial (hT : ∀ n, T.inCount n ≤ 32) (h : ShowedLast T a0 run n w t l) :
    (∀ v, l.led = some v → w.ledValueFor n = some v) ∧ (∀ v, l.phase = some v → w.phaseValueFor n = some v) := by
  obtain ⟨-, -, i, hi, h1, h2⟩ := showed hT h
  rw [led_of hi, phase_of hi]
  exact ⟨h1, h2⟩

/-- **C137** The lights can be read without a panic for every node, allocated or not, exactly as long as the node is among the first 256 that were created. -/
theorem reads_panic_iff (h : LFollows T a0 run w t) :
    (w.ledValueFor n = none ↔ ∃ i, w.world.conf.uniqueIndexFor n = some i ∧ 256 ≤ i) ∧
    (w.phaseValueFor n = none ↔ ∃ i, w.world.conf.uniqueIndexFor n = some i ∧ 256 ≤ i) := by
  have hl := ctx_length h
  cases hi : w.world.conf.uniqueIndexFor n with
  | none => simp [LWorld.ledValueFor, LWorld.phaseValueFor, hi]
  | some i =>
    rw [led_of hi, phase_of hi, List.getElem?_eq_none_iff, List.getElem?_eq_none_iff, hl]
    constructor <;> constructor
    · intro h; exact ⟨i, rfl, by omega⟩
    · rintro ⟨j, hj, h⟩; cases hj; omega
    · intro h; exact ⟨i, rfl, by omega⟩
    · rintro ⟨j, hj, h⟩; cases hj; omega

/-! ## Concrete histories -/

/-- Run calls as long as they are careful. -/
def lRun (T : NodeTable N V A) (a0 : A) (run : σ → CallIn N V A → σ × (Nat → Block V) × Lights V) :
    LWorld N V A M σ × Track N V A → List (EOp N V A M) → Option (LWorld N V A M σ × Track N V A)
  | s, [] => some s
  | s, op :: ops =>
    if carefulB s.1.world op then
      match s.1.step T a0 run op with
      | none => none
      | some r => lRun T a0 run (r.1, s.2.step T s.1.world.conf op) ops
    else none

theorem lFollows_of_run (ops : List (EOp N V A M)) : ∀ (s s' : LWorld N V A M σ × Track N V A),
    LFollows T a0 run s.1 s.2 → lRun T a0 run s ops = some s' → LFollows T a0 run s'.1 s'.2 := by
  induction ops with
  | nil => intro s s' h he; cases he; exact h
  | cons op ops ih =>
    intro s s' h he
    simp only [lRun] at he
    split at he
    · rename_i hc
      cases hx : s.1.step T a0 run op with
      | none => simp [hx] at he
      | some r =>
        simp only [hx] at he
        exact ih _ _ (.call h (careful_of_carefulB hc) (out := r.2) hx) he
    · cases he

/-- The nodes of `exRun`; node `n` shows `10 + n` and, if it is not node 1, the phase `20 + n`. -/
def exLit : Unit → CallIn Nat Int Nat → Unit × (Nat → Block Int) × Lights Int :=
  fun s c => (s, (exRun s c).2, { led := some (10 + c.node), phase := if c.node = 1 then none else some (20 + c.node) })

/-- Three nodes play. -/
def exPlay : List (EOp Nat Int Nat Unit) :=
  exOps ++ [.sync [0, 1, 2] [⟨1, 0, 0, 0⟩, ⟨2, 1, 1, 0⟩] true, .poll, .process 4]

def exL : LWorld Nat Int Nat Unit Unit × Track Nat Int Nat :=
  (lRun exT 0 exLit (LWorld.new (), Track.new exT) exPlay).get (by decide +kernel)

theorem exL_follows : LFollows exT 0 exLit exL.1 exL.2 :=
  lFollows_of_run exPlay _ _ (.new ()) (Option.some_get _).symm

/-- The lights after a block: node 1 has no phase. -/
example : LFollows exT 0 exLit exL.1 exL.2 ∧ Update.clear ∉ exL.2.pending ∧ Allocated exL.1.world.conf 2 ∧
    [0, 1, 2].map exL.1.ledValueFor = [some 10, some 11, some 12] ∧ [0, 1, 2].map exL.1.phaseValueFor = [some 20, some 0, some 22] ∧
    ((exL.1.step exT 0 exLit (.process 4)).bind (fun x => x.2)).isSome = true :=
  ⟨exL_follows, by
    have h : exL.2.pending = [] := by rw [← List.isEmpty_iff]; decide +kernel
    rw [h]; simp, by decide +kernel, by decide +kernel, by decide +kernel, by decide +kernel⟩

/-- Before the last block the nodes were dark; when two of the three nodes have run, two of them are lit. -/
example : (lRun exT 0 exLit (LWorld.new (), Track.new exT) exPlay.dropLast).bind (fun s => (s.1.during exT 0 exLit 4 2).map (fun v => [0, 1, 2].map v.ledValueFor)) =
    some [some 10, some 11, some 0] := by decide +kernel

/-- A history, evaluated. -/
theorem ran {M : Type} {β : Type} {T : NodeTable N V A} {run : σ → CallIn N V A → σ × (Nat → Block V) × Lights V}
    {s : LWorld N V A M σ × Track N V A} (hs : LFollows T a0 run s.1 s.2) (ops : List (EOp N V A M)) (f : LWorld N V A M σ × Track N V A → β) {b : β}
    (h : (lRun T a0 run s ops).map f = some b) : ∃ w t, LFollows T a0 run w t ∧ f (w, t) = b := by
  obtain ⟨s', h1, h2⟩ := Option.map_eq_some_iff.1 h
  exact ⟨s'.1, s'.2, lFollows_of_run ops _ _ hs h1, h2⟩

def ex0 : LWorld Nat Int Nat Unit Unit × Track Nat Int Nat := (LWorld.new (), Track.new exT)

theorem ex0_follows : LFollows exT 0 exLit ex0.1 ex0.2 := .new ()

/-- The message that the nodes are deleted is on its way. -/
def clearing (t : Track N V A) : Bool := t.pending.any (fun u => match u with | .clear => true | _ => false)

theorem clearing_iff (t : Track N V A) : clearing t = true ↔ Update.clear ∈ t.pending := by
  unfold clearing
  rw [List.any_eq_true]
  constructor
  · rintro ⟨u, hu, h2⟩
    cases u with
    | clear => exact hu
    | _ => simp at h2
  · intro h; exact ⟨_, h, rfl⟩

/-- The nodes are deleted, and one new node is created. -/
def exNew : List (EOp Nat Int Nat Unit) := [.deleteNodes, .poll, .createNode 5, .sync [5] [] true, .poll]

/-- **C137** is false when nodes have been deleted: a new node that has never run shows the light of the node that had its index before. -/
theorem new_node_shows_old_light : ∃ (w : LWorld Nat Int Nat Unit Unit) (t : Track Nat Int Nat), LFollows exT 0 exLit w t ∧ Allocated w.world.conf 5 ∧
    t.pending = [] ∧ w.ledValueFor 5 = some 12 ∧ w.phaseValueFor 5 = some 22 := by
  obtain ⟨w, t, h1, h2⟩ := ran exL_follows exNew
    (fun s => (decide (Allocated s.1.world.conf 5), s.2.pending.isEmpty, s.1.ledValueFor 5, s.1.phaseValueFor 5)) (b := (true, true, some 12, some 22))
    (by decide +kernel)
  simp only [Prod.mk.injEq, decide_eq_true_eq, List.isEmpty_iff] at h2
  exact ⟨w, t, h1, h2⟩

/-- The nodes play, are deleted and one new node is created; the audio thread does not know yet. -/
def exLate : List (EOp Nat Int Nat Unit) :=
  exOps ++ [.sync [0, 1, 2] [⟨1, 0, 0, 0⟩, ⟨2, 1, 1, 0⟩] true, .poll, .deleteNodes, .createNode 5]

/-- **C137** is false when a block runs after the nodes have been deleted and before the audio thread knows: the new node was dark, and the block in which it does
not run lights it. -/
theorem late_block_lights_new_node : ∃ (w w' : LWorld Nat Int Nat Unit Unit) (t : Track Nat Int Nat) (res : BlockResult Nat Int Nat),
    LFollows exT 0 exLit w t ∧ Update.clear ∈ t.pending ∧ w.ledValueFor 5 = some 0 ∧ w.step exT 0 exLit (.process 4) = some (w', some res) ∧
    res.calls.map (fun c => c.node) = [0, 1, 2] ∧ w'.ledValueFor 5 = some 12 := by
  obtain ⟨w, t, h1, h2⟩ := ran ex0_follows exLate
    (fun s => (clearing s.2, s.1.ledValueFor 5, (s.1.step exT 0 exLit (.process 4)).bind (fun r => r.2.map (fun b => b.calls.map (fun c => c.node))),
      (s.1.step exT 0 exLit (.process 4)).bind (fun r => r.1.ledValueFor 5)))
    (b := (true, some 0, some [0, 1, 2], some 12)) (by decide +kernel)
  simp only [Prod.mk.injEq] at h2
  obtain ⟨h2, h3, h4, h6⟩ := h2
  obtain ⟨⟨w', out⟩, h5, h4⟩ := Option.bind_eq_some_iff.1 h4
  obtain ⟨res, rfl, h7⟩ := Option.map_eq_some_iff.1 h4
  rw [h5] at h6
  exact ⟨w, w', t, res, h1, (clearing_iff t).1 h2, h3, h5, h7, h6⟩

/-- **C137** The light of the 257th node cannot be read. -/
theorem read_panics : ∃ (w : LWorld Nat Int Nat Unit Unit) (t : Track Nat Int Nat), LFollows exT 0 exLit w t ∧ w.ledValueFor 255 = some 0 ∧
    w.ledValueFor 256 = none ∧ w.phaseValueFor 256 = none := by
  obtain ⟨w, t, h1, h2⟩ := ran ex0_follows ((List.range 257).map .createNode)
    (fun s => (s.1.ledValueFor 255, s.1.ledValueFor 256, s.1.phaseValueFor 256)) (b := (some 0, none, none)) (by decide +kernel)
  simp only [Prod.mk.injEq] at h2
  exact ⟨w, t, h1, h2⟩

/-- Up to the block. -/
def exPrep : List (EOp Nat Int Nat Unit) := exOps ++ [.sync [0, 1, 2] [⟨1, 0, 0, 0⟩, ⟨2, 1, 1, 0⟩] true, .poll]

/-- `ShowedLast` for a node that has run, after which a node was created. -/
example : ∃ (w : LWorld Nat Int Nat Unit Unit) (t : Track Nat Int Nat), ShowedLast exT 0 exLit 2 w t ({ led := some 12, phase := some 22 } : Lights Int) ∧
    Allocated w.world.conf 7 := by
  obtain ⟨w, t, h1, h2⟩ := ran ex0_follows exPrep
    (fun s => (clearing s.2,
      (s.1.step exT 0 exLit (.process 4)).map (fun r => (r.2.map (fun b => b.calls.map (fun c => c.node)), carefulB r.1.world (.createNode 7)))))
    (b := (false, some (some [0, 1, 2], true))) (by decide +kernel)
  simp only [Prod.mk.injEq] at h2
  obtain ⟨h2, h4⟩ := h2
  obtain ⟨⟨w', out⟩, h5, h6⟩ := Option.map_eq_some_iff.1 h4
  simp only [Prod.mk.injEq] at h6
  obtain ⟨res, rfl, h7⟩ := Option.map_eq_some_iff.1 h6.1
  have hc : Update.clear ∉ t.pending := by rw [← clearing_iff, h2]; simp
  obtain ⟨ls, s1, s2, -⟩ := lights_after_block_partial (fun n => by simp only [exT]; split <;> decide) h1 hc h5
  have hc0 : ∃ c0 c1 c2, res.calls = [c0, c1, c2] ∧ c2.node = 2 := by
    obtain ⟨c0, l0, e0, -, h7⟩ := List.map_eq_cons_iff.1 h7
    obtain ⟨c1, l1, e1, -, h7⟩ := List.map_eq_cons_iff.1 h7
    obtain ⟨c2, l2, e2, hn, h7⟩ := List.map_eq_cons_iff.1 h7
    rw [List.map_eq_nil_iff] at h7
    exact ⟨c0, c1, c2, by rw [e0, e1, e2, h7], hn⟩
  obtain ⟨c0, c1, c2, hr, hn⟩ := hc0
  have hl : ls[2]? = some { led := some 12, phase := some 22 } := by
    rw [hr] at s1
    match ls, s1 with
    | [a, b, c], s1 =>
      obtain ⟨-, -, h, -⟩ := s1
      show some c = _
      rw [← h]
      have : c2.toCallIn.node = 2 := hn
      simp [exLit, this]
  have hS := ShowedLast.now h1 hc h5 s1 ⟨2, c2, by rw [hr]; rfl, hl, hn⟩
  refine ⟨_, _, .since hS (careful_of_carefulB h6.2) (by intro h; cases h) rfl (by intro r hh; cases hh), ?_⟩
  show ((w'.world.conf.createNode 7).uniqueIndexFor 7).isSome = true
  simp [Conf.createNode, Conf.uniqueIndexFor, HexoDSP.lookup_insert_self]

end HexoDSP.LedsProps
