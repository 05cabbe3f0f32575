import Verif.Lemmas.Code
/-! # Block programs on their way to the nodes -/

set_option linter.unusedSectionVars false
set_option linter.dupNamespace false

namespace HexoDSP.CodeProps
open HexoDSP.Block HexoDSP.BlockProps HexoDSP.BlockCompileProps HexoDSP.Code

variable {F : Type}

/-- **C84** After a `check_code` that returns no error the `Code` node plays a program that means what the diagram shows at this moment
(or nothing, if the diagram has no blocks and never had any): for all histories in which no earlier check failed, no chain was taken out and the node was made
only once; and for diagrams as in C82. -/
theorem checked_code_plays_partial (s : Setup F) (hlib : LibOk s.lib) (hp : ∀ n ∈ s.lib, n.inputs ≠ [] ∨ n.outputs ≠ []) {id : Nat} {g g' : Global F}
    (h : Smooth s id g) (hc : g.step s (.check id) = some (g', .ok)) {f : BlockFun} (hf : g'.diagram id = some f) {a : Area}
    (ha : f.areas[0]? = some a) (hu : ∀ o b, f.blockAt 0 o = some b → b.Usable (language s.lib) s.parse) :
    (∃ prog, g'.playing id = some prog ∧ Means (language s.lib) s.parse s.zero prog a) ∨
    (g'.playing id = none ∧ ∀ j q, f.blockAt j q = none) := by
  have hT := language_tall s.lib hp
  obtain ⟨hi, hsync⟩ := check_synced (smooth_inv hp h) hc
  unfold Code.Inv at hi
  unfold Global.diagram at hf
  cases hfn : g'.funs id with
  | none => rw [hfn] at hf; cases hf
  | some p =>
    obtain ⟨gen, w⟩ := p
    rw [hfn] at hf hi
    cases hf
    simp only at hi ha hu ⊢
    obtain ⟨e, he, hr, -, hk⟩ := hi
    have hg := hsync gen w hfn
    have hpl : g'.playing id = e.plays e.conn := by unfold Global.playing; rw [he]; rfl
    rw [hpl]
    rcases hk with ⟨w0, prog, h0, hcm, hplay, hsame⟩ | ⟨h1, h2, h3⟩
    · left
      refine ⟨prog, hplay, ?_⟩
      have hsame := hsame hg
      obtain ⟨a0, ha0⟩ : ∃ a0, w0.fn.areas[0]? = some a0 := by
        have hok := (reached_ok hT h0).1
        cases hh : w0.fn.areas with
        | nil => exact absurd hh hok.root
        | cons a l => exact ⟨a, rfl⟩
      have hlook : ∀ q, a0.blocks.lookup q = a.blocks.lookup q := by
        intro q
        have := hsame 0 q
        unfold BlockFun.blockAt at this
        rw [ha, ha0] at this
        exact this.symm
      have hok := (reached_ok hT hr).1.areas a (List.mem_of_getElem? ha)
      have hok0 := (reached_ok hT h0).1.areas a0 (List.mem_of_getElem? ha0)
      refine same_means hok0 hok hlook ?_
      obtain ⟨N, hN⟩ := compiled_faithfully_partial s.lib hlib hp h0 a0 ha0 s.parse s.zero
        (fun o b hb => hu o b (by rw [hsame 0 o]; exact hb))
      obtain ⟨prog', hcm', hm⟩ := hN (max N s.fuel) (Nat.le_max_left _ _)
      rw [compile_fuel (Nat.le_max_right N s.fuel) (by rw [hcm]; exact fun h => by cases h), hcm] at hcm'
      cases hcm'
      exact hm
    · right
      exact ⟨h2, h3 (by omega)⟩

/-- **C84** The nodes do not disturb each other: calls for other nodes change neither the diagram of a node nor what it plays. -/
theorem nodes_apart (s : Setup F) {g g' : Global F} {c : Call} {a : Answer} {id : Nat} (h : g.step s c = some (g', a))
    (hc : c ≠ .getFun id ∧ c ≠ .backend id ∧ (∀ op, c ≠ .edit id op) ∧ c ≠ .check id) :
    g'.diagram id = g.diagram id ∧ g'.playing id = g.playing id := by
  obtain ⟨h1, h2⟩ := step_other h hc
  unfold Global.diagram Global.playing
  rw [h1, h2]
  exact ⟨rfl, rfl⟩

/-! ## Examples -/

/-- The library of the examples has one node. -/
def plainSetup : Setup Int := ⟨[acc], digits, 0, 60, fun _ => true⟩

/-- After some calls: the state and the last answer. -/
def run (s : Setup Int) : List Call → Global Int → Answer → Option (Global Int × Answer)
  | [], g, a => some (g, a)
  | c :: cs, g, _ => (g.step s c).bind (fun r => run s cs r.1 r.2)

/-- What is heard from node 0: the value of the program, and the answer to the last call. -/
def heard (cs : List Call) : Option (Option Int × Answer) :=
  (run plainSetup cs Global.new .ok).map (fun r => ((r.1.playing 0).map (fun j => (exec toy j ⟨fun _ => 0, 10⟩).1), r.2))

/-- The value that the diagram of node 0 shows. -/
def shown (cs : List Call) : Option Int :=
  (run plainSetup cs Global.new .ok).bind (fun r => (r.1.diagram 0).bind (fun f => (f.areas[0]?).bind (fun a =>
    (runSinks toy (language [acc]) digits a a.collectSinks.reverse (Run.start (fun _ => 0) 10)).res)))

theorem run_anyhow {s : Setup Int} : ∀ (cs : List Call) (g g' : Global Int) (a a' : Answer), Anyhow s g → run s cs g a = some (g', a') → Anyhow s g' := by
  intro cs
  induction cs with
  | nil => intro g g' a a' h hr; cases hr; exact h
  | cons c cs ih =>
    intro g g' a a' h hr
    simp only [run, Option.bind_eq_some_iff] at hr
    obtain ⟨⟨g1, a1⟩, h1, h2⟩ := hr
    exact ih g1 g' a1 a' (.step h h1) h2

/-- A value on an output. -/
def three : List Call := [.backend 0, .getFun 0, .edit 0 (.instanciate 0 (0, 0) "value" (some "3")), .edit 0 (.instanciate 0 (1, 0) "->" none),
  .check 0]

/-- Then it is replaced by an `if`, that does not compile. -/
def broken : List Call := three ++ [.edit 0 (.remove 0 (1, 0)), .edit 0 (.instanciate 0 (1, 0) "if" none), .check 0]

/-- **C84** does not hold after a check that failed: the next one returns no error, though nothing was compiled and the node still plays the
program from before. -/
theorem failed_check_forgotten : heard three = some (some 3, .ok) ∧ heard broken = some (some 3, .compileError .unknownError) ∧
    heard (broken ++ [.check 0]) = some (some 3, .ok) ∧
    (∃ g, Anyhow plainSetup g ∧ g.step plainSetup (.check 0) = some (g, .ok) ∧
      ∃ f prog, g.diagram 0 = some f ∧ g.playing 0 = some prog ∧ ∀ n p, compile (language [acc]) digits 0 n f ≠ .ok p) := by
  refine ⟨by decide +kernel, by decide +kernel, by decide +kernel, ?_⟩
  have hsome : ((run plainSetup broken Global.new .ok).map (fun r => ((r.1.engines 0).isSome, (r.1.playing 0).isSome,
      match r.1.funs 0 with
        | none => false
        | some p => decide (p.1 = p.2.fn.generation) && fails .unknownError (compile (language [acc]) digits 0 60 p.2.fn)))) =
      some (true, true, true) := by decide +kernel
  obtain ⟨⟨g, a⟩, h1, h2⟩ := Option.map_eq_some_iff.1 hsome
  simp only [Prod.mk.injEq] at h2
  obtain ⟨h3, h4, h5⟩ := h2
  obtain ⟨e, he⟩ := Option.isSome_iff_exists.1 h3
  obtain ⟨prog, hprog⟩ := Option.isSome_iff_exists.1 h4
  cases hf : g.funs 0 with
  | none => rw [hf] at h5; cases h5
  | some p =>
    obtain ⟨gen, w⟩ := p
    rw [hf] at h5
    simp only [Bool.and_eq_true, decide_eq_true_eq] at h5
    refine ⟨g, run_anyhow broken _ _ _ _ .new h1, ?_, w.fn, prog, ?_, hprog, ?_⟩
    · simp only [Global.step, Global.check]
      rw [he, hf]
      simp only
      rw [if_neg (not_not.2 h5.1)]
    · unfold Global.diagram
      rw [hf]
      rfl
    · intro n p
      exact fails_always (by decide) h5.2 n p

/-- The value is taken out of the diagram; nothing is left of it but the wire. -/
def takenOut : List Call := three ++ [.edit 0 (.retrieve 0 (0, 0) true), .check 0]

/-- **C84** does not hold after a chain was taken out: the node still plays it. -/
theorem taken_chain_plays : heard takenOut = some (some 3, .ok) ∧ shown takenOut = none := by
  constructor <;> decide +kernel

/-- **C84** does not hold for a `Code` node that is made again: it plays nothing, however often the code is checked. -/
theorem new_node_silent : shown (three ++ [.backend 0, .check 0]) = some 3 ∧ heard (three ++ [.backend 0, .check 0]) = some (none, .ok) ∧
    heard (three ++ [.backend 0, .check 0, .check 0]) = some (none, .ok) := by
  refine ⟨by decide +kernel, by decide +kernel, by decide +kernel⟩

/-- The calls the theorem allows, for examples. -/
def smoothCall (s : Setup Int) (g : Global Int) : Call → Bool
  | .edit _ op => plain op
  | .backend id => match g.engines id with
    | none => true
    | some e => !e.taken
  | .getFun _ => true
  | .check id => match g.check s id with
    | some (_, .ok) => true
    | _ => false

/-- All calls of a history are such. -/
def smoothRun (s : Setup Int) : List Call → Global Int → Bool
  | [], _ => true
  | c :: cs, g => smoothCall s g c && (match g.step s c with
    | none => false
    | some r => smoothRun s cs r.1)

theorem smooth_of {s : Setup Int} (id : Nat) : ∀ (cs : List Call) (g g' : Global Int) (a a' : Answer), Smooth s id g → smoothRun s cs g = true →
    run s cs g a = some (g', a') → Smooth s id g' := by
  intro cs
  induction cs with
  | nil => intro g g' a a' h _ hr; cases hr; exact h
  | cons c cs ih =>
    intro g g' a a' h hsm hr
    simp only [run, Option.bind_eq_some_iff] at hr
    obtain ⟨⟨g1, a1⟩, h1, h2⟩ := hr
    simp only [smoothRun, Bool.and_eq_true] at hsm
    rw [h1] at hsm
    obtain ⟨hsc, hsm⟩ := hsm
    refine ih g1 g' a1 a' (.step h h1 ?_ ?_ ?_) hsm h2
    · rintro op gen w rfl hf
      simp only [smoothCall] at hsc
      cases op <;> first | (cases hsc; done) | exact ⟨trivial, (fun _ _ _ _ h => by cases h), (fun _ _ h => by cases h)⟩
    · rintro e rfl he
      simp only [smoothCall, he] at hsc
      simpa using hsc
    · rintro rfl
      simp only [smoothCall] at hsc
      simp only [Global.step] at h1
      rw [h1] at hsc
      cases a1 <;> first | rfl | cases hsc

/-- A busy history: two nodes, a diagram that is changed after a first check. -/
def busyCalls : List Call := [.getFun 1, .backend 0, .getFun 0] ++ busy.map (.edit 0) ++ [.check 0, .edit 1 (.instanciate 0 (0, 0) "value" (some "5")),
  .edit 0 (.instanciate 0 (5, 0) "->2" none), .check 1]

example : ∃ g, Smooth plainSetup 0 g ∧ ∃ g', g.step plainSetup (.check 0) = some (g', .ok) ∧ g.playing 0 ≠ none ∧ g'.playing 0 ≠ none ∧
    (∃ f a, g'.diagram 0 = some f ∧ f.areas[0]? = some a ∧ a.blocks.length = 9) := by
  have h : ((run plainSetup busyCalls Global.new .ok).map (fun r => ((r.1.playing 0).isSome,
      (match r.1.step plainSetup (.check 0) with
        | some (g', .ok) => (g'.playing 0).isSome && decide (((g'.diagram 0).bind (fun f => f.areas[0]?)).map (fun a => a.blocks.length) = some 9)
        | _ => false)))) = some (true, true) := by decide +kernel
  have hs : smoothRun plainSetup busyCalls Global.new = true := by decide +kernel
  obtain ⟨⟨g, a⟩, h1, h2⟩ := Option.map_eq_some_iff.1 h
  simp only [Prod.mk.injEq] at h2
  refine ⟨g, smooth_of 0 busyCalls _ _ _ _ .new hs h1, ?_⟩
  cases hc : g.step plainSetup (.check 0) with
  | none => rw [hc] at h2; cases h2.2
  | some r =>
    obtain ⟨g', ans⟩ := r
    rw [hc] at h2
    cases ans with
    | ok =>
      simp only [Bool.and_eq_true, decide_eq_true_eq, Option.map_eq_some_iff, Option.bind_eq_some_iff] at h2
      obtain ⟨h3, h4, a, ⟨f, h5, h6⟩, h7⟩ := h2
      refine ⟨g', rfl, ?_, ?_, f, a, h5, h6, h7⟩
      · intro h; rw [h] at h3; cases h3
      · intro h; rw [h] at h4; cases h4
    | compileError e => cases h2.2
    | jitError => cases h2.2

example : LibOk plainSetup.lib := acc_ok

end HexoDSP.CodeProps
