import Verif.Props.Block
import Verif.Lemmas.BlockSim5
import Verif.Lemmas.BlockOnce
import Verif.Lemmas.BlockKin
import Verif.Lemmas.BlockFuel
/-! # Compiled block programs -/

set_option linter.unusedSectionVars false
set_option linter.dupNamespace false

namespace HexoDSP.BlockCompileProps
open HexoDSP.Block HexoDSP.BlockProps

/-! ## Reached programs -/

/-- All blocks have the ports of their types. -/
def WorldKin (L : Lang) (w : World) : Prop := FunKin L w.fn ∧ ∀ s ∈ w.saved, ∀ a ∈ s.areas, AreaKin L a

theorem step_kin {L : Lang} (hL : Roomy L) {w w' : World} {op : Op} {r : Except Err Unit} (h : WorldKin L w) (hw : WorldOk w)
    (hs : w.step L op = some (w', r)) : WorldKin L w' := by
  obtain ⟨hf, hsv⟩ := h
  cases op with
  | instanciate id p typ ui =>
    simp only [World.step, Option.some.injEq, Prod.mk.injEq] at hs
    rw [← hs.1]
    exact ⟨instanciateAt_kin hL hf id p typ ui, hsv⟩
  | remove id p =>
    simp only [World.step, Option.some.injEq, Prod.mk.injEq] at hs
    rw [← hs.1]
    exact ⟨removeAt_kin hf id p, hsv⟩
  | move id p id2 p2 =>
    simp only [World.step, Option.map_eq_some_iff, Prod.mk.injEq] at hs
    obtain ⟨q, h1, rfl, -⟩ := hs
    exact ⟨moveBlock_kin hf id p id2 p2 h1, hsv⟩
  | clone id p id2 p2 =>
    simp only [World.step, Option.some.injEq, Prod.mk.injEq] at hs
    rw [← hs.1]
    exact ⟨cloneBlock_kin hf id p id2 p2, hsv⟩
  | split id p filler =>
    simp only [World.step, Option.some.injEq, Prod.mk.injEq] at hs
    rw [← hs.1]
    exact ⟨splitChain_kin hL hf id p filler, hsv⟩
  | moveChain id p id2 p2 =>
    simp only [World.step, Option.map_eq_some_iff, Prod.mk.injEq] at hs
    obtain ⟨q, h1, rfl, -⟩ := hs
    exact ⟨moveChain_kin hf id p id2 p2 h1, hsv⟩
  | retrieve id p remove =>
    simp only [World.step, Option.some.injEq, Prod.mk.injEq] at hs
    rw [← hs.1]
    exact ⟨retrieveChain_kin hf id p remove, hsv⟩
  | shiftPort id p row output =>
    simp only [World.step, Option.map_eq_some_iff, Prod.mk.injEq] at hs
    obtain ⟨f', h1, rfl, -⟩ := hs
    exact ⟨shiftPort_kin hf h1, hsv⟩
  | recalculate =>
    simp only [World.step, Option.map_eq_some_iff, Prod.mk.injEq] at hs
    obtain ⟨f', h1, rfl, -⟩ := hs
    exact ⟨recalc_kin hf hw.1 h1, hsv⟩
  | save =>
    simp only [World.step, Option.some.injEq, Prod.mk.injEq] at hs
    rw [← hs.1]
    refine ⟨hf, ?_⟩
    intro s hs
    rcases List.mem_append.1 hs with h1 | h1
    · exact hsv s h1
    · rw [List.mem_singleton] at h1
      subst h1
      exact hf
  | restore k =>
    simp only [World.step] at hs
    cases hk : w.saved[k]? with
    | none =>
      rw [hk] at hs
      simp only [Option.some.injEq, Prod.mk.injEq] at hs
      rw [← hs.1]
      exact ⟨hf, hsv⟩
    | some s =>
      rw [hk] at hs
      simp only [Option.map_eq_some_iff, Prod.mk.injEq, BlockFun.loadSnapshot] at hs
      obtain ⟨f', ⟨f2, h1, rfl⟩, rfl, -⟩ := hs
      have hm := List.mem_of_getElem? hk
      have hk2 : FunKin L f2 := recalc_kin (f := { areas := s.areas, curId := s.curId, generation := w.fn.generation }) (hsv s hm)
        (gen_irrel (g' := w.fn.generation) (hw.2 s hm)) h1
      exact ⟨hk2, hsv⟩

theorem reached_kin {L : Lang} (hT : L.Tall) (hL : Roomy L) {w : World} (h : Reached L w) : WorldKin L w := by
  induction h with
  | new =>
    refine ⟨?_, fun s hs => by cases hs⟩
    intro a ha
    have : a = Area.new 16 16 := by simpa [World.new, BlockFun.new] using ha
    subst this
    intro e he; cases he
  | step hr _ hs ih => exact step_kin hL ih (reached_ok hT hr) hs

theorem language_roomy (lib : List DspNode) : Roomy (language lib) := by
  intro s t ht
  unfold language at ht
  have hn : t.name = s := by simpa using List.find?_some ht
  have hm := List.mem_of_find?_eq_some ht
  rw [List.mem_reverse, List.mem_append] at hm
  refine ⟨hn, ?_⟩
  rcases hm with hm | hm
  · exact (by decide : ∀ t ∈ builtinTypes, t.inputs.length ≤ t.rows ∧ t.outputs.length ≤ t.rows) t hm
  · obtain ⟨n, -, rfl⟩ := List.mem_map.1 hm
    simp only [DspNode.type, List.length_map]
    omega

theorem areas_of_type {lib : List DspNode} {s : String} {t : BlockType} (ht : language lib s = some t) (hs : s ≠ "if") :
    t.areaCount = 0 := by
  unfold language at ht
  have hn : t.name = s := by simpa using List.find?_some ht
  have hm := List.mem_of_find?_eq_some ht
  rw [List.mem_reverse, List.mem_append] at hm
  rcases hm with hm | hm
  · exact (by decide : ∀ t ∈ builtinTypes, t.name ≠ "if" → t.areaCount = 0) t hm (by rw [hn]; exact hs)
  · obtain ⟨n, -, rfl⟩ := List.mem_map.1 hm
    rfl

theorem zero_type (lib : List DspNode) : ∃ t, language lib "zero" = some t ∧ t.name = "zero" := by
  have : (language lib "zero").isSome = true := by
    unfold language
    rw [List.find?_isSome]
    exact ⟨builtinTypes[0], List.mem_reverse.2 (List.mem_append_left _ (List.getElem_mem _)), rfl⟩
  obtain ⟨t, ht⟩ := Option.isSome_iff_exists.1 this
  exact ⟨t, ht, (language_roomy lib _ _ ht).1⟩

/-- **C81** In every program that a history of calls led to, the blocks have the ports of their types, whatever was cloned,
moved, shifted, split, saved or restored. -/
theorem blocks_keep_ports_partial (lib : List DspNode) (hp : ∀ n ∈ lib, n.inputs ≠ [] ∨ n.outputs ≠ []) {w : World}
    (h : Reached (language lib) w) (id : Nat) (o : Pos) (b : Block) (hb : w.fn.blockAt id o = some b) : b.Conforms (language lib) := by
  have hk := reached_kin (language_tall lib hp) (language_roomy lib) h
  unfold BlockFun.blockAt at hb
  rw [Option.bind_eq_some_iff] at hb
  obtain ⟨a, h1, h2⟩ := hb
  exact (hk.1 a (List.mem_of_getElem? h1) (o, b) (mem_of_lookup_pos h2)).1

/-- What is needed from a reached program. -/
theorem reached_setup {F : Type} {lib : List DspNode} (hlib : LibOk lib) (hp : ∀ n ∈ lib, n.inputs ≠ [] ∨ n.outputs ≠ []) {w : World}
    (h : Reached (language lib) w) {a : Area} (ha : w.fn.areas[0]? = some a) {parse : String → Option F}
    (hu : ∀ o b, w.fn.blockAt 0 o = some b → b.Usable (language lib) parse) :
    AreaOk a ∧ a.Flat ∧ (∀ o b o' b', (o, b) ∈ a.blocks → (o', b') ∈ a.blocks → b.id = b'.id → o = o') ∧
    (∀ o b, (o, b) ∈ a.blocks → ∃ t, BOk (language lib) parse b t) := by
  have hT := language_tall lib hp
  have hok := (reached_ok hT h).1
  have hk := (reached_kin hT (language_roomy lib) h).1
  have hm := List.mem_of_getElem? ha
  have haok := hok.areas a hm
  have hat : ∀ o b, (o, b) ∈ a.blocks → w.fn.blockAt 0 o = some b := by
    intro o b hb
    unfold BlockFun.blockAt
    rw [ha]
    exact (mem_iff_lookup haok.load.keys o b).1 hb
  refine ⟨haok, ?_, ?_, ?_⟩
  · rintro ⟨o, b⟩ he
    have hkb := hk a hm _ he
    obtain ⟨t, ht, -⟩ := hkb.1
    have h0 := areas_of_type ht (hu o b (hat o b he)).noIf
    exact hkb.2 t ht (by omega) (by omega)
  · intro o b o' b' hb hb' he
    exact (ids_unique_partial hT h 0 0 o o' b b' (hat o b hb) (hat o' b' hb')).2 he |>.2
  · intro o b hb
    refine BOk.of hlib (hk a hm _ hb).1 (hu o b (hat o b hb)) ?_
    exact (hok.idRange b (List.mem_flatMap.2 ⟨a, hm, List.mem_map.2 ⟨(o, b), hb, rfl⟩⟩)).1

/-- **C82** The compiled program does what the blocks mean. The library may be any whose port names can be told apart by their first two letters,
the history any, the blocks such that values are numbers, variables have ordinary names, the inputs of a block are in the order
of its type (outputs may be anywhere) and there is no `if`. -/
theorem compiled_faithfully_partial {F : Type} (lib : List DspNode) (hlib : LibOk lib) (hp : ∀ n ∈ lib, n.inputs ≠ [] ∨ n.outputs ≠ []) {w : World}
    (h : Reached (language lib) w) (a : Area) (ha : w.fn.areas[0]? = some a) (parse : String → Option F) (zero : F)
    (hu : ∀ o b, w.fn.blockAt 0 o = some b → b.Usable (language lib) parse) : Faithful (language lib) parse zero w.fn a := by
  obtain ⟨h1, h2, h3, h4⟩ := reached_setup hlib hp h ha hu
  obtain ⟨t, z1, z2⟩ := zero_type lib
  obtain ⟨N, hN⟩ := compile_sim (zero := zero) (L := language lib) (parse := parse) (a := a)
    (fun S M hM => ⟨h1, h3, h4, hM, t, z1, language_shape hlib z1, z2⟩) h2 ha
  refine ⟨N, fun n hn => ?_⟩
  obtain ⟨j, hj, hrun⟩ := hN n hn
  refine ⟨j, hj, ?_⟩
  intro S M ss vars mem hz hM hss
  obtain ⟨env', e1, e2, e3, e4⟩ := hrun S M ss vars mem hz hM hss
  rw [e1]
  exact ⟨e2, e3, e4⟩

/-- **C83** Each evaluation of the compiled program calls the node of every block exactly once, whether its outputs are used once, many
times or not at all, and calls no other node. -/
theorem called_once_partial {F : Type} (lib : List DspNode) (hlib : LibOk lib) (hp : ∀ n ∈ lib, n.inputs ≠ [] ∨ n.outputs ≠ []) {w : World}
    (h : Reached (language lib) w) (parse : String → Option F) (zero : F)
    (hu : ∀ o b, w.fn.blockAt 0 o = some b → b.Usable (language lib) parse) :
    ∃ N, ∀ n ≥ N, ∃ prog, compile (language lib) parse zero n w.fn = .ok prog ∧
      ∀ (S : Type) (M : Machine F S) (cnt : S → Nat → Nat) (vars : String → F) (mem : S),
        M.zero = zero → M.Delivers (language lib) → M.Counts cnt →
        (∀ o b, w.fn.blockAt 0 o = some b → b.IsNode → cnt (exec M prog ⟨vars, mem⟩).2.mem b.id = cnt mem b.id + 1) ∧
        ∀ i, (∀ o b, w.fn.blockAt 0 o = some b → b.id = i → ¬ b.IsNode) → cnt (exec M prog ⟨vars, mem⟩).2.mem i = cnt mem i := by
  have hok := (reached_ok (language_tall lib hp) h).1
  obtain ⟨a, ha⟩ : ∃ a, w.fn.areas[0]? = some a := by
    cases hh : w.fn.areas with
    | nil => exact absurd hh hok.root
    | cons a l => exact ⟨a, rfl⟩
  obtain ⟨h1, h2, h3, h4⟩ := reached_setup hlib hp h ha hu
  obtain ⟨N, hN⟩ := compiled_faithfully_partial lib hlib hp h a ha parse zero hu
  have hat : ∀ o b, (o, b) ∈ a.blocks ↔ w.fn.blockAt 0 o = some b := by
    intro o b
    unfold BlockFun.blockAt
    rw [ha]
    exact mem_iff_lookup h1.load.keys o b
  refine ⟨N, fun n hn => ?_⟩
  obtain ⟨prog, hprog, hrun⟩ := hN n hn
  refine ⟨prog, hprog, ?_⟩
  intro S M cnt vars mem hz hM hc
  have hord := collectSinks_order h1
  have honce := run_once (parse := parse) h1 h3 (fun o b hb => by
    obtain ⟨t, ht⟩ := h4 o b hb
    exact ⟨t, ht.typ⟩) hc hord vars mem
  rw [(hrun S M _ vars mem hz hM hord).1]
  refine ⟨?_, ?_⟩
  · intro o b hb hn
    exact honce.1 b.id ⟨o, b, (hat o b).2 hb, rfl, hn⟩
  · intro i hi
    apply honce.2
    rintro ⟨o, b, hb, hid, hn⟩
    exact hi o b ((hat o b).1 hb) hid hn

/-! ## Examples -/

/-- Numbers as the user writes them, for the examples. -/
def digits (s : String) : Option Int := if s = "3" then some 3 else if s = "5" then some 5 else none

/-- Integers; a node adds its first argument to the state, its results are the old and the new state. -/
def toy : Machine Int Int where
  bin op x y := match op with
    | .add => x + y
    | .mul => x * y
    | .sub => x - y
    | .div => x / y
  call _ _ args s := (s, [s + args.headD 0, 0], s + args.headD 0)
  zero := 0

/-- A node with two outputs. -/
def acc : DspNode := ⟨"acc", ["in"], ["old", "new"], true⟩
/-- The same with names that begin with the same letters. -/
def acc' : DspNode := ⟨"acc", ["in"], ["out1", "out2"], true⟩

theorem toy_delivers (lib : List DspNode) (h : ∀ n ∈ lib, n.outputs.length ≤ 3) : toy.Delivers (language lib) := by
  intro typ t ht id args s
  have hm := List.mem_of_find?_eq_some ht
  rw [List.mem_reverse, List.mem_append] at hm
  show t.outputs.length ≤ 3
  rcases hm with hm | hm
  · exact (by decide : ∀ t ∈ builtinTypes, t.outputs.length ≤ 3) t hm
  · obtain ⟨n, hn, rfl⟩ := List.mem_map.1 hm
    simp only [DspNode.type, List.length_map]
    exact h n hn

/-- The program after some calls. -/
def after (lib : List DspNode) (ops : List Op) : World := (World.run (language lib) World.new ops).getD World.new

/-- The value of the compiled program. -/
def value (lib : List DspNode) (ops : List Op) : Option Int :=
  match compile (language lib) digits 0 60 (after lib ops).fn with
  | .error _ => none
  | .ok j => some (exec toy j ⟨fun _ => 0, 10⟩).1

/-- What the blocks mean. -/
def meaning (lib : List DspNode) (ops : List Op) : Option Int :=
  ((after lib ops).fn.areas[0]?).bind (fun a =>
    (runSinks toy (language lib) digits a a.collectSinks.reverse (Run.start (fun _ => 0) 10)).res)

/-- Calls without conditions. -/
def plain : Op → Bool
  | .instanciate .. => true
  | .shiftPort .. => true
  | _ => false

theorem run_reached {L : Lang} : ∀ (ops : List Op) (w w' : World), Reached L w → ops.all plain = true → World.run L w ops = some w' → Reached L w' := by
  intro ops
  induction ops with
  | nil => intro w w' h _ hr; cases hr; exact h
  | cons op ops ih =>
    intro w w' h hp hr
    simp only [List.all_cons, Bool.and_eq_true] at hp
    simp only [World.run, List.foldlM_cons, Option.bind_eq_bind, Option.bind_eq_some_iff, Option.map_eq_some_iff] at hr
    obtain ⟨w1, ⟨⟨w2, r⟩, h1, h2⟩, h3⟩ := hr
    simp only at h2
    subst h2
    refine ih w2 w' (.step h ?_ h1) hp.2 h3
    cases op <;> first | trivial | (simp [plain] at hp)

theorem after_reached (lib : List DspNode) (ops : List Op) (h : ops.all plain = true) : Reached (language lib) (after lib ops) := by
  unfold after
  cases hr : World.run (language lib) World.new ops with
  | none => exact .new
  | some w => exact run_reached ops _ _ .new h hr

/-- If the value is not what the blocks mean, the compiled program is wrong. -/
theorem not_faithful {lib : List DspNode} {ops : List Op} (hp : ∀ n ∈ lib, n.inputs ≠ [] ∨ n.outputs ≠ []) (ho : ∀ n ∈ lib, n.outputs.length ≤ 3)
    (hops : ops.all plain = true) {x y : Int} (hx : value lib ops = some x) (hy : meaning lib ops = some y) (hne : x ≠ y)
    (a : Area) (ha : (after lib ops).fn.areas[0]? = some a) : ¬ Faithful (language lib) digits 0 (after lib ops).fn a := by
  rintro ⟨N, hN⟩
  obtain ⟨prog, h1, h2⟩ := hN (max N 60) (by omega)
  have hok := (reached_ok (language_tall lib hp) (after_reached lib ops hops)).1
  have haok := hok.areas a (List.mem_of_getElem? ha)
  unfold value at hx
  cases hc : compile (language lib) digits 0 60 (after lib ops).fn with
  | error e => rw [hc] at hx; cases hx
  | ok j =>
    rw [hc] at hx
    simp only [Option.some.injEq] at hx
    rw [compile_fuel (n := 60) (by omega) (by rw [hc]; exact fun h => by cases h), hc] at h1
    cases h1
    obtain ⟨-, -, h3⟩ := h2 Int toy _ (fun _ => 0) 10 rfl (toy_delivers lib ho) (collectSinks_order haok)
    unfold meaning at hy
    rw [ha] at hy
    exact hne (hx.symm.trans (h3 y hy))

/-- The inputs of `-` swapped by shifting its ports: `5 - 5` is compiled to `0 - 5`, the variable that keeps the five is read before it is set. -/
def shifted : List Op :=
  [.instanciate 0 (0, 0) "value" (some "5"), .instanciate 0 (1, 0) "->2" none, .instanciate 0 (2, 0) "-" none, .shiftPort 0 (2, 0) 0 false]

/-- **C82** does not hold for blocks with shifted inputs. -/
theorem shifted_inputs_break : value [] shifted = some (-5) ∧ meaning [] shifted = some 0 ∧
    ∀ a, (after [] shifted).fn.areas[0]? = some a → ¬ Faithful (language []) digits 0 (after [] shifted).fn a := by
  have h1 : value [] shifted = some (-5) := by decide +kernel
  have h2 : meaning [] shifted = some 0 := by decide +kernel
  exact ⟨h1, h2, not_faithful (by intro n hn; cases hn) (by intro n hn; cases hn) (by decide) h1 h2 (by decide)⟩

/-- The old state minus the new one. -/
def twoOuts : List Op :=
  [.instanciate 0 (0, 0) "value" (some "5"), .instanciate 0 (1, 0) "acc" none, .instanciate 0 (2, 0) "-" none]

/-- **C82** does not hold for a library whose outputs have names that begin with the same two letters: both outputs are the same. -/
theorem cut_names_break : value [acc'] twoOuts = some 0 ∧ value [acc] twoOuts = some (-5) := by
  constructor <;> decide +kernel

/-- A variable of the user with a name of the compiler. -/
def clash : List Op :=
  [.instanciate 0 (0, 0) "value" (some "5"), .instanciate 0 (1, 0) "->2" none, .instanciate 0 (2, 0) "-" none,
   .instanciate 0 (0, 3) "get" (some "_tmp1__"), .instanciate 0 (1, 3) "->" none]

/-- **C82** does not hold for a variable named `_tmp1__`: it has the value of the wire, not the one last set. -/
theorem clash_breaks : value [] clash = some 5 ∧ meaning [] clash = some 0 ∧
    ∀ a, (after [] clash).fn.areas[0]? = some a → ¬ Faithful (language []) digits 0 (after [] clash).fn a := by
  have h1 : value [] clash = some 5 := by decide +kernel
  have h2 : meaning [] clash = some 0 := by decide +kernel
  exact ⟨h1, h2, not_faithful (by intro n hn; cases hn) (by intro n hn; cases hn) (by decide) h1 h2 (by decide)⟩

/-- Is it an error that more fuel cannot repair? -/
def fails (e : CErr) (r : Except CErr (Jit Int)) : Bool :=
  match r with
  | .error e' => decide (e' = e)
  | .ok _ => false

theorem fails_always {L : Lang} {parse : String → Option Int} {f : BlockFun} {e : CErr} {k : Nat} (he : e ≠ .endless)
    (h : fails e (compile L parse 0 k f) = true) (n : Nat) (prog : Jit Int) : compile L parse 0 n f ≠ .ok prog := by
  intro hok
  have hk : compile L parse 0 k f = .error e := by
    cases hc : compile L parse 0 k f with
    | ok j => rw [hc] at h; cases h
    | error e' => rw [hc] at h; simp only [fails, decide_eq_true_eq] at h; rw [h]
  have h1 := compile_fuel (Nat.le_max_left k n) (by rw [hk]; intro h; cases h; exact he rfl)
  have h2 := compile_fuel (Nat.le_max_right k n) (by rw [hok]; intro h; cases h)
  rw [h1, hk, hok] at h2
  cases h2

/-- A condition with two empty areas. -/
def condition : List Op := [.instanciate 0 (0, 0) "value" (some "5"), .instanciate 0 (1, 0) "if" none]

/-- **C82** does not hold for `if`: it is in the language, but the compiler refuses it. -/
theorem if_never_compiles (n : Nat) (prog : Jit Int) : compile (language []) digits 0 n (after [] condition).fn ≠ .ok prog :=
  fails_always (e := .unknownError) (k := 60) (by decide) (by decide +kernel) n prog

/-- A diagram in which every output has a wire. -/
def onlySet : List Op := [.instanciate 0 (0, 0) "value" (some "5"), .instanciate 0 (1, 0) "set" (some "x")]

/-- The value of a program without an output of its own is whatever the variable `_res_` was before: the program reads a variable that it
never sets. -/
theorem no_output_no_value : meaning [] onlySet = none ∧
    ∀ v ∈ [1, 2], (match compile (language []) digits 0 60 (after [] onlySet).fn with
      | .error _ => none
      | .ok j => some (exec toy j ⟨fun x => if x = "_res_" then v else 0, 10⟩).1) = some v := by
  constructor <;> decide +kernel

/-! ## A diagram that meets the conditions -/

/-- The check that `Block.Usable` asks for. -/
def usable (lib : List DspNode) (b : Block) : Bool :=
  decide (b.typ = "value" → (digits b.lbl).isSome = true) &&
  decide (b.typ = "set" ∨ b.typ = "get" → b.lbl.toList.head? ≠ some '_' ∧ b.lbl.toList.head? ≠ some '%') &&
  (match language lib b.typ with
    | none => true
    | some t => decide (b.inputs.filterMap (fun o => o) = t.inputs.filterMap (fun o => o))) &&
  decide (b.typ ≠ "if")

theorem usable_ok {lib : List DspNode} {b : Block} (h : usable lib b = true) : b.Usable (language lib) digits := by
  simp only [usable, Bool.and_eq_true, decide_eq_true_eq] at h
  obtain ⟨⟨⟨h1, h2⟩, h3⟩, h4⟩ := h
  refine ⟨h1, h2, ?_, h4⟩
  intro t ht
  rw [ht] at h3
  simpa using h3

theorem all_usable {lib : List DspNode} {ops : List Op}
    (h : (((after lib ops).fn.areas[0]?).map (fun a => a.blocks.all (fun e => usable lib e.2))).getD false = true) :
    ∀ o b, (after lib ops).fn.blockAt 0 o = some b → b.Usable (language lib) digits := by
  intro o b hb
  unfold BlockFun.blockAt at hb
  rw [Option.bind_eq_some_iff] at hb
  obtain ⟨a, h1, h2⟩ := hb
  rw [h1] at h
  simp only [Option.map_some, Option.getD_some] at h
  exact usable_ok (List.all_eq_true.1 h _ (mem_of_lookup_pos h2))

theorem acc_ok : LibOk [acc] := by
  intro n hn
  rw [List.mem_singleton] at hn
  subst hn
  refine ⟨by decide, by decide, fun _ => by decide, .inr (by decide)⟩

/-- A node with two outputs, each used, a wire split in two, a variable, outputs without wires. -/
def busy : List Op :=
  [.instanciate 0 (0, 0) "value" (some "5"), .instanciate 0 (1, 0) "acc" none, .instanciate 0 (2, 0) "-" none,
   .instanciate 0 (3, 0) "->2" none, .instanciate 0 (4, 0) "+" none, .instanciate 0 (0, 4) "get" (some "x"),
   .instanciate 0 (1, 4) "acc" none, .instanciate 0 (2, 5) "set" (some "x"), .shiftPort 0 (1, 0) 0 true]

example : value [acc] busy = meaning [acc] busy ∧ value [acc] busy = some 15 := by
  constructor <;> decide +kernel

example : ∃ a, (after [acc] busy).fn.areas[0]? = some a ∧ a.blocks.length = 8 ∧ Faithful (language [acc]) digits 0 (after [acc] busy).fn a := by
  have hlen : ((after [acc] busy).fn.areas[0]?).map (fun a => a.blocks.length) = some 8 := by decide +kernel
  obtain ⟨a, ha, hl⟩ := Option.map_eq_some_iff.1 hlen
  exact ⟨a, ha, hl, compiled_faithfully_partial [acc] acc_ok (by decide) (after_reached _ _ (by decide)) a ha digits 0
    (all_usable (by decide +kernel))⟩

/-- A machine that counts. -/
def counting : Machine Int (Nat → Nat) where
  bin := toy.bin
  call _ id args s := (args.headD 0, [1, 2], fun i => s i + (if i = id then 1 else 0))
  zero := 0

example : counting.Counts (fun s => s) := fun _ _ _ _ _ => rfl

end HexoDSP.BlockCompileProps
