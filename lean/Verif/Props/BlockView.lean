import Verif.Spec.BlockView
import Verif.Props.Block
import Verif.Model.BlockCompile
import Mathlib.Data.String.Basic
/-!
# C120: what a view reads of a block program
-/

namespace HexoDSP.BlockViewProps
open HexoDSP.Block

theorem copy_length (buf s : List UInt8) : (copyInto buf s).length = buf.length := by
  simp only [copyInto, List.length_append, List.length_take, List.length_drop]; omega

/-- **C120** A call never changes the size of the buffer, and nothing behind the text. -/
theorem rest_kept (s buf : List UInt8) : (writeText s buf).1.length = buf.length ∧ ∀ i, s.length ≤ i → (writeText s buf).1[i]? = buf[i]? := by
  have h1 : (writeText s buf).1 = copyInto buf s := by unfold writeText; split <;> rfl
  rw [h1]
  refine ⟨copy_length buf s, fun i hi => ?_⟩
  unfold copyInto
  by_cases hb : buf.length ≤ i
  · rw [List.getElem?_eq_none hb, List.getElem?_eq_none]
    simp only [List.length_append, List.length_take, List.length_drop]; omega
  · have ht : s.take buf.length = s := List.take_of_length_le (by omega)
    rw [ht, List.getElem?_append_right hi, List.getElem?_drop]
    congr 1; omega

/-- **C120** (partial: not for every text) What the caller reads is the text exactly if the text fits the buffer and is shorter than 8192 bytes, or is empty. -/
theorem text_read_iff_partial (s buf : List UInt8) : readBack (writeText s buf) = some s ↔ (s.length ≤ buf.length ∧ s.length < 8192) ∨ s = [] := by
  unfold readBack writeText writerCap
  split
  · next h =>
    simp only [copy_length]
    split
    · next hl =>
      have : (copyInto buf s).take s.length = s := by
        unfold copyInto
        rw [List.take_of_length_le hl, List.take_left']
        rfl
      simp only [this, true_iff]
      exact .inl ⟨hl, h⟩
    · next hl =>
      simp only [reduceCtorEq, false_iff]
      rintro (h1 | rfl)
      · exact hl h1.1
      · exact hl (Nat.zero_le _)
  · next h =>
    simp only [Nat.zero_le, if_true, List.take_zero, Option.some.injEq]
    constructor
    · rintro rfl; exact .inr rfl
    · rintro (h1 | rfl)
      · exact absurd h1.2 h
      · rfl

/-- **C120** (negation) A text that does not fit, up to 8191 bytes: the length is beyond the end of the buffer, reading it panics. -/
theorem long_text_panics (s buf : List UInt8) (h : buf.length < s.length) (h2 : s.length < 8192) : readBack (writeText s buf) = none := by
  unfold readBack writeText writerCap
  simp only [h2, if_true, copy_length]
  exact if_neg (by omega)

/-- **C120** (negation) A text of 8192 bytes or more reads as empty, also if it fits. -/
theorem huge_text_lost (s buf : List UInt8) (h : 8192 ≤ s.length) : readBack (writeText s buf) = some [] := by
  have h1 : ¬ s.length < 8192 := by omega
  unfold readBack writeText writerCap
  simp [h1]

/-- **C120** (partial) The label of a block. -/
theorem label_partial (b : Block) (buf : List UInt8) (h : (bytes b.lbl).length ≤ buf.length) (h2 : (bytes b.lbl).length < 8192) :
    readBack (b.label buf) = some (bytes b.lbl) :=
  (text_read_iff_partial _ _).2 (.inl ⟨h, h2⟩)

/-- **C120** (partial) The names of the inputs: a row with an input gives its name, a row without gives nothing. -/
theorem input_labels_partial (b : Block) (i : Nat) (buf : List UInt8) :
    (b.hasInput i = true ↔ ∃ l, b.inputs[i]? = some (some l)) ∧
    (b.hasInput i = false → readBack (b.inputLabel i buf) = some [] ∧ (b.inputLabel i buf).1 = buf) ∧
    (∀ l, b.inputs[i]? = some (some l) → (bytes l).length ≤ buf.length → (bytes l).length < 8192 → readBack (b.inputLabel i buf) = some (bytes l)) := by
  unfold Block.hasInput Block.inputLabel
  cases h : b.inputs[i]? with
  | none => simp [readBack]
  | some o =>
    cases o with
    | none => simp [readBack]
    | some l =>
      simp only [Option.map_some, Option.isSome_some, Option.getD_some, Option.some.injEq, exists_eq', reduceCtorEq, false_implies, true_and]
      rintro l' rfl h1 h2
      exact (text_read_iff_partial _ _).2 (.inl ⟨h1, h2⟩)

/-- **C120** (partial) The names of the outputs. -/
theorem output_labels_partial (b : Block) (i : Nat) (buf : List UInt8) :
    (b.hasOutput i = true ↔ ∃ l, b.outputs[i]? = some (some l)) ∧
    (b.hasOutput i = false → readBack (b.outputLabel i buf) = some [] ∧ (b.outputLabel i buf).1 = buf) ∧
    (∀ l, b.outputs[i]? = some (some l) → (bytes l).length ≤ buf.length → (bytes l).length < 8192 → readBack (b.outputLabel i buf) = some (bytes l)) := by
  unfold Block.hasOutput Block.outputLabel
  cases h : b.outputs[i]? with
  | none => simp [readBack]
  | some o =>
    cases o with
    | none => simp [readBack]
    | some l =>
      simp only [Option.map_some, Option.isSome_some, Option.getD_some, Option.some.injEq, exists_eq', reduceCtorEq, false_implies, true_and]
      rintro l' rfl h1 h2
      exact (text_read_iff_partial _ _).2 (.inl ⟨h1, h2⟩)

/-! ## The palette -/

theorem lookup_insert {V : Type} (m : List (String × V)) (k : String) (v : V) (j : String) :
    (Map.insert m k v).lookup j = if j = k then some v else m.lookup j := by
  unfold Map.insert
  rw [List.lookup_cons]
  by_cases h : j = k
  · subst h; simp
  · have hb : (j == k) = false := by simpa using h
    rw [hb]
    simp only [h, if_false]
    induction m with
    | nil => rfl
    | cons e m ih =>
      rw [List.filter_cons]
      by_cases he : e.1 = k
      · have h1 : (j == e.1) = false := by simpa [he] using h
        simp only [he, beq_self_eq_true, Bool.not_true, Bool.false_eq_true, if_false]
        rw [List.lookup_cons, h1]
        exact ih
      · have : (!(e.1 == k)) = true := by simpa using he
        rw [if_pos this, List.lookup_cons, List.lookup_cons, ih]

theorem keys_insert {V : Type} {m : List (String × V)} (h : (m.map Prod.fst).Nodup) (k : String) (v : V) : ((Map.insert m k v).map Prod.fst).Nodup := by
  unfold Map.insert
  rw [List.map_cons, List.nodup_cons]
  refine ⟨?_, ?_⟩
  · intro hm
    obtain ⟨e, he, rfl⟩ := List.mem_map.1 hm
    simp at he
  · exact (List.filter_sublist.map Prod.fst).nodup h

/-- **C120** A name stands for the type that was defined last under it. -/
theorem last_definition (ops : List PaletteOp) (s : String) : ((Palette.new).run ops).types.lookup s = lastDef s ops := by
  have key : ∀ (ops : List PaletteOp) (p : Palette), (p.run ops).types.lookup s = (lastDef s ops).or (p.types.lookup s) := by
    intro ops
    induction ops with
    | nil => intro p; rfl
    | cons o ops ih =>
      intro p
      show ((p.step o).run ops).types.lookup s = _
      rw [ih]
      cases o with
      | define t =>
        simp only [Palette.step, lastDef, lookup_insert]
        by_cases h : t.name = s
        · subst h; cases lastDef t.name ops <;> simp
        · have h' : ¬ s = t.name := fun e => h e.symm
          simp [h, h', Option.or_none]
      | defineIdentifier x => rfl
  rw [key]
  simp [Palette.new]

theorem lastDef_name {s : String} {t : BlockType} : ∀ {ops : List PaletteOp}, lastDef s ops = some t → t.name = s
  | [], h => (nomatch h)
  | .define u :: ops, h => by
    simp only [lastDef] at h
    cases hl : lastDef s ops with
    | some x => rw [hl] at h; simp only [Option.some_or, Option.some.injEq] at h; rw [← h]; exact lastDef_name hl
    | none =>
      rw [hl] at h
      simp only [Option.none_or] at h
      split at h
      · injection h with h; rw [← h]; assumption
      · exact nomatch h
  | .defineIdentifier _ :: ops, h => lastDef_name (ops := ops) h

theorem run_keys (ops : List PaletteOp) : ∀ (p : Palette), (p.types.map Prod.fst).Nodup → (p.identifiers.map Prod.fst).Nodup →
    ((p.run ops).types.map Prod.fst).Nodup ∧ ((p.run ops).identifiers.map Prod.fst).Nodup := by
  induction ops with
  | nil => exact fun p h1 h2 => ⟨h1, h2⟩
  | cons o ops ih =>
    intro p h1 h2
    refine ih (p.step o) ?_ ?_
    · cases o with
      | define t => exact keys_insert h1 _ _
      | defineIdentifier x => exact h1
    · cases o with
      | define t => exact h2
      | defineIdentifier x => exact keys_insert h2 _ _

theorem lookup_mem {V : Type} {m : List (String × V)} (h : (m.map Prod.fst).Nodup) {k : String} {v : V} : m.lookup k = some v ↔ (k, v) ∈ m := by
  induction m with
  | nil => simp
  | cons e m ih =>
    rw [List.map_cons, List.nodup_cons] at h
    rw [List.lookup_cons]
    by_cases hk : k = e.1
    · subst hk
      simp only [beq_self_eq_true, List.mem_cons]
      constructor
      · intro hv; injection hv with hv; left; rw [← hv]
      · rintro (he | hm)
        · rw [← he]
        · exact absurd (List.mem_map.2 ⟨_, hm, rfl⟩) h.1
    · have : (k == e.1) = false := by simpa using hk
      rw [this, ih h.2]
      constructor
      · exact fun hm => List.mem_cons_of_mem _ hm
      · intro hm
        rcases List.mem_cons.1 hm with rfl | hm
        · exact absurd rfl hk
        · exact hm

theorem types_keyed (ops : List PaletteOp) : ∀ (p : Palette), (∀ e ∈ p.types, e.2.name = e.1) → ∀ e ∈ (p.run ops).types, e.2.name = e.1 := by
  induction ops with
  | nil => exact fun p h => h
  | cons o ops ih =>
    intro p h
    refine ih (p.step o) ?_
    cases o with
    | defineIdentifier x => exact h
    | define t =>
      intro e he
      rcases List.mem_cons.1 he with rfl | he
      · rfl
      · exact h e (List.mem_of_mem_filter he)

/-- **C120** The list of types has each defined name once, with its last definition, and nothing else. -/
theorem type_list (ops : List PaletteOp) : ((((Palette.new).run ops).typeList).map BlockType.name).Nodup ∧
    ∀ t, t ∈ ((Palette.new).run ops).typeList ↔ lastDef t.name ops = some t := by
  obtain ⟨h1, _⟩ := run_keys ops Palette.new List.nodup_nil List.nodup_nil
  have hk := types_keyed ops Palette.new (fun _ h => (nomatch h))
  refine ⟨?_, fun t => ?_⟩
  · have : (((Palette.new).run ops).typeList).map BlockType.name = ((Palette.new).run ops).types.map Prod.fst := by
      unfold Palette.typeList
      rw [List.map_map]
      exact List.map_congr_left (fun e he => hk e he)
    rw [this]; exact h1
  · rw [← last_definition, lookup_mem h1]
    unfold Palette.typeList
    constructor
    · intro ht
      obtain ⟨e, he, rfl⟩ := List.mem_map.1 ht
      rw [hk e he]; exact he
    · exact fun h => List.mem_map.2 ⟨_, h, rfl⟩

theorem names_some (s : String) (os : List (Option String)) : (some s :: os).filterMap id = s :: os.filterMap id := rfl
theorem names_none (os : List (Option String)) : (none :: os).filterMap id = os.filterMap id := rfl

theorem names_spec (idx : Nat) : ∀ (outs : List (Option String)) (i : Nat), i ≤ idx → Palette.nameLoop idx outs i = (outs.filterMap id)[idx - i]?
  | [], _, _ => by simp [Palette.nameLoop]
  | none :: os, i, h => by
    rw [names_none]
    simp only [Palette.nameLoop]
    exact names_spec idx os i h
  | some s :: os, i, h => by
    rw [names_some]
    simp only [Palette.nameLoop]
    by_cases he : i = idx
    · subst he; simp
    · rw [if_neg he, names_spec idx os (i + 1) (by omega)]
      have : idx - i = (idx - (i + 1)) + 1 := by omega
      rw [this, List.getElem?_cons_succ]

theorem count_spec : ∀ (outs : List (Option String)) (c : Nat), outs.foldl (fun c o => if o.isSome then c + 1 else c) c = c + (outs.filterMap id).length
  | [], c => rfl
  | none :: os, c => by rw [names_none]; exact count_spec os c
  | some s :: os, c => by
    rw [names_some]
    show os.foldl (fun c o => if o.isSome then c + 1 else c) (c + 1) = _
    rw [count_spec os (c + 1), List.length_cons]; omega

/-- **C120** The outputs of a type that have a name are numbered without gaps, in the order of their rows; there are as many as counted. -/
theorem output_names (ops : List PaletteOp) (s : String) (t : BlockType) (h : lastDef s ops = some t) :
    (∀ i, ((Palette.new).run ops).outputName s i = (t.outputs.filterMap id)[i]?) ∧
    (∀ i, (((Palette.new).run ops).outputName s i).isSome ↔ i < ((Palette.new).run ops).outputCount s) := by
  have ho : ((Palette.new).run ops).typeOutputs s = some t.outputs := by
    unfold Palette.typeOutputs; rw [last_definition, h]; rfl
  have h1 : ∀ i, ((Palette.new).run ops).outputName s i = (t.outputs.filterMap id)[i]? := by
    intro i
    unfold Palette.outputName
    rw [ho]
    exact names_spec i t.outputs 0 (Nat.zero_le _)
  refine ⟨h1, fun i => ?_⟩
  rw [h1]
  unfold Palette.outputCount
  rw [ho]
  simp only [count_spec, Nat.zero_add]
  simp

/-- **C120** The rows of inputs and of outputs that are told of a type are those of its last definition. -/
theorem type_ports (ops : List PaletteOp) (s : String) (t : BlockType) (h : lastDef s ops = some t) :
    ((Palette.new).run ops).typeInputs s = some t.inputs ∧ ((Palette.new).run ops).typeOutputs s = some t.outputs := by
  unfold Palette.typeInputs Palette.typeOutputs
  rw [last_definition, h]
  exact ⟨rfl, rfl⟩

/-- **C120** Nothing is known of a name that was never defined. -/
theorem unknown_type (ops : List PaletteOp) (s : String) (h : ∀ t, PaletteOp.define t ∈ ops → t.name ≠ s) (i : Nat) :
    ((Palette.new).run ops).typeInputs s = none ∧ ((Palette.new).run ops).typeOutputs s = none ∧ ((Palette.new).run ops).outputName s i = none ∧
    ((Palette.new).run ops).outputCount s = 0 := by
  have hd : ∀ ops : List PaletteOp, (∀ t, PaletteOp.define t ∈ ops → t.name ≠ s) → lastDef s ops = none := by
    intro ops
    induction ops with
    | nil => exact fun _ => rfl
    | cons o ops ih =>
      intro h
      have := ih (fun t ht => h t (List.mem_cons_of_mem _ ht))
      cases o with
      | define t => simp only [lastDef, this, Option.none_or]; rw [if_neg (h t (List.mem_cons_self ..))]
      | defineIdentifier x => exact this
  have ho : ((Palette.new).run ops).typeOutputs s = none := by unfold Palette.typeOutputs; rw [last_definition, hd ops h]; rfl
  refine ⟨by unfold Palette.typeInputs; rw [last_definition, hd ops h]; rfl, ho, ?_, ?_⟩
  · unfold Palette.outputName; rw [ho]
  · unfold Palette.outputCount; rw [ho]

theorem ident_spec (ops : List PaletteOp) (s : String) : ∀ p : Palette, s ∈ (p.run ops).identifiers.map Prod.fst ↔
    PaletteOp.defineIdentifier s ∈ ops ∨ s ∈ p.identifiers.map Prod.fst := by
  induction ops with
  | nil => intro p; simp [Palette.run]
  | cons o ops ih =>
    intro p
    show s ∈ ((p.step o).run ops).identifiers.map Prod.fst ↔ _
    rw [ih]
    cases o with
    | define t => simp [Palette.step]
    | defineIdentifier x =>
      have : s ∈ (p.step (.defineIdentifier x)).identifiers.map Prod.fst ↔ s = x ∨ s ∈ p.identifiers.map Prod.fst := by
        simp only [Palette.step, Map.insert, List.map_cons, List.mem_cons, List.mem_map, List.mem_filter]
        by_cases hx : s = x
        · simp [hx]
        · simp only [hx, false_or]
          constructor
          · rintro ⟨e, ⟨he, _⟩, rfl⟩; exact ⟨e, he, rfl⟩
          · rintro ⟨e, he, rfl⟩; exact ⟨e, ⟨he, by simpa using hx⟩, rfl⟩
      rw [this]
      simp only [List.mem_cons, PaletteOp.defineIdentifier.injEq]
      constructor
      · rintro (h | h | h)
        · exact .inl (.inr h)
        · exact .inl (.inl h)
        · exact .inr h
      · rintro ((h | h) | h)
        · exact .inr (.inl h)
        · exact .inl h
        · exact .inr (.inr h)

/-- **C120** The identifiers are listed sorted, each once, and are exactly those defined. -/
theorem identifiers_listed (ops : List PaletteOp) :
    (((Palette.new).run ops).listIdentifiers).Pairwise (fun a b => a < b) ∧
    (∀ s, s ∈ ((Palette.new).run ops).listIdentifiers ↔ PaletteOp.defineIdentifier s ∈ ops) ∧
    ∀ s, ((Palette.new).run ops).isIdentifier s = true ↔ PaletteOp.defineIdentifier s ∈ ops := by
  have hm : ∀ s, s ∈ ((Palette.new).run ops).identifiers.map Prod.fst ↔ PaletteOp.defineIdentifier s ∈ ops := by
    intro s
    rw [ident_spec]
    simp [Palette.new]
  obtain ⟨_, h2⟩ := run_keys ops Palette.new List.nodup_nil List.nodup_nil
  refine ⟨?_, ?_, ?_⟩
  · have hp := List.pairwise_mergeSort (le := fun (a b : String) => decide (a ≤ b))
      (by intro a b c h1 h2; simp only [decide_eq_true_eq] at *; exact le_trans h1 h2)
      (by intro a b; simp only [Bool.or_eq_true, decide_eq_true_eq]; exact le_total a b) (((Palette.new).run ops).identifiers.map Prod.fst)
    have hn : (((Palette.new).run ops).listIdentifiers).Nodup := (List.mergeSort_perm _ _).nodup_iff.2 h2
    have := List.Pairwise.and hp hn
    exact this.imp (fun h => lt_of_le_of_ne (of_decide_eq_true h.1) h.2)
  · intro s
    rw [← hm]
    exact (List.mergeSort_perm _ _).mem_iff
  · intro s
    rw [← hm]
    unfold Palette.isIdentifier
    rw [Option.isSome_iff_exists]
    constructor
    · rintro ⟨v, hv⟩
      exact List.mem_map.2 ⟨_, (lookup_mem h2).1 hv, rfl⟩
    · intro h
      obtain ⟨e, he, rfl⟩ := List.mem_map.1 h
      exact ⟨e.2, (lookup_mem h2).2 he⟩

/-- **C120** The areas a view finds in a block, the first and the second, are those the program is compiled from, in this order; any later place gives the
second. -/
theorem areas_seen (area : Nat) (b : Block) (o : Pos) (n : Nat) :
    b.subs = (b.containsAt 0).toList ++ (b.containsAt 1).toList ∧ (∀ i, 1 ≤ i → b.containsAt i = b.containsAt 1) ∧
    (Gen.blockJobs area b o n).filterMap (fun j => match j with | .area c _ => some c | _ => none) =
      (b.containsAt 0).toList ++ (b.containsAt 1).toList := by
  refine ⟨rfl, fun i hi => ?_, ?_⟩
  · unfold Block.containsAt
    rw [if_neg (by omega), if_neg (by omega)]
  · simp only [Gen.blockJobs, List.filterMap_append, List.filterMap_map, Function.comp_def, Block.containsAt]
    simp

/-! ## Examples -/

def exBlock : Block := { id := 1, rows := 2, contains := (none, none), expanded := true, typ := "value", lbl := "0.5 µ", inputs := [some "in", none], outputs := [none, some "out"], color := 1 }

/-- A label with a character of two bytes in a buffer of eight bytes. -/
example : readBack (exBlock.label (List.replicate 8 0)) = some (bytes "0.5 µ") ∧ (bytes "0.5 µ").length = 6 ∧ (exBlock.label (List.replicate 8 0)).1.length = 8 := by
  decide +kernel
example : exBlock.hasInput 0 = true ∧ exBlock.hasInput 1 = false ∧ exBlock.hasInput 2 = false ∧ readBack (exBlock.outputLabel 1 (List.replicate 8 7)) = some (bytes "out") := by
  decide +kernel
/-- A buffer of four bytes for this label. -/
example : readBack (exBlock.label (List.replicate 4 0)) = none := by decide +kernel

def exOps : List PaletteOp :=
  [.define ⟨"b", 1, [], [some "x"], 0, 0⟩, .defineIdentifier "q", .define ⟨"a", 2, [some "i"], [none, some "o", some "p"], 0, 0⟩, .defineIdentifier "p", .define ⟨"b", 1, [], [], 0, 3⟩, .defineIdentifier "q"]

example : ((Palette.new).run exOps).outputName "a" 1 = some "p" ∧ ((Palette.new).run exOps).outputCount "a" = 2 ∧ ((Palette.new).run exOps).typeList.length = 2 ∧
    (lastDef "b" exOps).map BlockType.color = some 3 ∧ ((Palette.new).run exOps).isIdentifier "p" = true := by decide +kernel

/-- A program with one value block. -/
def exProg : Option World := BlockProps.runProper BlockProps.base World.new [.instanciate 0 (0, 0) "value" (some "3.14159")]

/-- **C120** (negation) In a program a user made with the calls of the library, reading a label panics: the text of a value block is longer than the buffer
of the view. -/
theorem label_panics_in_program : ∃ w, Reached BlockProps.base w ∧ ∃ b, w.fn.blockAt 0 (0, 0) = some b ∧ readBack (b.label (List.replicate 4 0)) = none := by
  have h : exProg.map (fun w => (w.fn.blockAt 0 (0, 0)).map (fun b => (readBack (b.label (List.replicate 4 0))).isNone)) = some (some true) := by decide +kernel
  obtain ⟨w, hw, h1⟩ := Option.map_eq_some_iff.1 h
  obtain ⟨b, hb, h2⟩ := Option.map_eq_some_iff.1 h1
  exact ⟨w, BlockProps.runProper_reached _ .new hw, b, hb, Option.isNone_iff_eq_none.1 h2⟩

end HexoDSP.BlockViewProps
