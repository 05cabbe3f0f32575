import Verif.Model.BlockCompile
import Verif.Spec.Block
/-!
# What a block diagram means, and what a compiled program does

`exec` is the meaning of the programs of the crate `synfx-dsp-jit`: statements and arguments run from left to right,
a call of a node with many results leaves those after the first one in the variables `%1`, `%2` and so on.

`runSinks` is the meaning of a diagram. It does not mention trees, temporary variables or the order in which the
compiler visits blocks: a block takes the values of the wires at its inputs, every block runs at most once, when its value is
needed for the first time, and the effects happen from top to bottom and in a row from left to right.
-/

set_option linter.dupNamespace false

namespace HexoDSP.Block

section
variable {F S : Type}

/-- The machine: operators, and nodes with a state that gets the node type, the id of the block and the arguments. -/
structure Machine (F S : Type) where
  bin : Bin → F → F → F
  call : String → Nat → List F → S → F × List F × S
  zero : F

/-- Variables and the state of the nodes. -/
structure Env (F S : Type) where
  vars : String → F
  mem : S

/-- Assignment. -/
def upd (vars : String → F) (x : String) (v : F) : String → F := fun y => if y = x then v else vars y

/-- The results of a call after the first one go to `%1`, `%2` and so on. -/
def spread (vars : String → F) : Nat → List F → String → F
  | _, [] => vars
  | i, v :: vs => spread (upd vars ("%" ++ toString i) v) (i + 1) vs

mutual
/-- Run a program. -/
def exec (M : Machine F S) : Jit F → Env F S → F × Env F S
  | .stmts l, e => execStmts M l M.zero e
  | .assign x j, e => let r := exec M j e; (r.1, ⟨upd r.2.vars x r.1, r.2.mem⟩)
  | .var x, e => (e.vars x, e)
  | .literal v, e => (v, e)
  | .bin op a b, e => let r := exec M a e; let q := exec M b r.2; (M.bin op r.1 q.1, q.2)
  | .call typ id args, e =>
    let r := execArgs M args e
    let q := M.call typ id r.1 r.2.mem
    (q.1, ⟨spread r.2.vars 1 q.2.1, q.2.2⟩)
/-- Run statements; the value is that of the last one. -/
def execStmts (M : Machine F S) : List (Jit F) → F → Env F S → F × Env F S
  | [], v, e => (v, e)
  | j :: js, _, e => let r := exec M j e; execStmts M js r.1 r.2
/-- Run arguments. -/
def execArgs (M : Machine F S) : List (Jit F) → Env F S → List F × Env F S
  | [], e => ([], e)
  | j :: js, e => let r := exec M j e; let q := execArgs M js r.2; (r.1 :: q.1, q.2)
end

/-- A run of a diagram: the variables of the user, the state of the nodes, the values at the outputs (by name) of the
blocks that ran, by their id, and the value of the last output without a wire. -/
structure Run (F S : Type) where
  vars : String → F
  mem : S
  done : Nat → Option (String → F)
  res : Option F

/-- The values at the inputs in the order that the type of the block declares: by position if the inputs have no names,
by name otherwise. -/
def arrange (zero : F) (t : BlockType) (ins : List (String × F)) : List F :=
  if t.inputs.head? = some (some "") then ins.map (·.2)
  else t.inputs.map (fun name => (ins.lookup (name.getD "")).getD zero)

/-- What one block does, given the names of its inputs with the values that arrive there, from top to bottom. -/
def Block.effect (M : Machine F S) (L : Lang) (parse : String → Option F) (b : Block) (ins : List (String × F)) (r : Run F S) :
    (String → F) × Run F S :=
  if b.typ = "zero" then (fun _ => M.zero, r)
  else if b.typ = "value" then (fun _ => (parse b.lbl).getD M.zero, r)
  else if b.typ = "get" then (fun _ => r.vars b.lbl, r)
  else if b.typ = "->" ∨ b.typ = "->2" ∨ b.typ = "->3" then (fun _ => (ins.head?.map (·.2)).getD M.zero, r)
  else if b.typ = "set" then
    (fun _ => M.zero, { r with vars := upd r.vars b.lbl ((ins.head?.map (·.2)).getD M.zero) })
  else match L b.typ with
    | none => (fun _ => M.zero, r)
    | some t =>
      let args := arrange M.zero t ins
      match binOf b.typ with
      | some op => (fun _ => M.bin op (args.getD 0 M.zero) (args.getD 1 M.zero), r)
      | none =>
        let q := M.call b.typ b.id args r.mem
        (fun port => (q.1 :: q.2.1).getD ((t.outputs.filterMap (fun o => o)).idxOf port) M.zero, { r with mem := q.2.2 })

/-- The value on the wire that leaves the slot `p` to the right, zero if there is none. -/
def wireFrom (a : Area) (zero : F) (run : Pos → Run F S → (String → F) × Run F S) (p : Pos) (r : Run F S) : F × Run F S :=
  match a.refAtOrigin p with
  | none => (zero, r)
  | some (b, o) =>
    match b.outputs.getD (p.2 - o.2).toNat none with
    | none => (zero, r)
    | some name => let q := run o r; (q.1 name, q.2)

/-- The values on many wires, one after the other. -/
def wiresFrom (a : Area) (zero : F) (run : Pos → Run F S → (String → F) × Run F S) : List (String × Pos) → Run F S →
    List (String × F) × Run F S
  | [], r => ([], r)
  | p :: ps, r =>
    let q := wireFrom a zero run p.2 r
    let s := wiresFrom a zero run ps q.2
    ((p.1, q.1) :: s.1, s.2)

/-- The inputs of a block with their names and the slots to the left of them, from top to bottom. -/
def Block.sources (b : Block) (o : Pos) : List (String × Pos) :=
  b.inputRows.map (fun (r : Nat) => ((b.inputs.getD r none).getD "", (o.1 - 1, o.2 + (r : Int))))

/-- Run the block at `o` if it did not run yet: its outputs. The number bounds the length of a chain of wires. -/
def runAt (M : Machine F S) (L : Lang) (parse : String → Option F) (a : Area) : Nat → Pos → Run F S → (String → F) × Run F S
  | 0, _, r => (fun _ => M.zero, r)
  | n + 1, o, r =>
    match a.blocks.lookup o with
    | none => (fun _ => M.zero, r)
    | some b =>
      match r.done b.id with
      | some outs => (outs, r)
      | none =>
        let q := wiresFrom a M.zero (runAt M L parse a n) (b.sources o) r
        let e := b.effect M L parse q.1 q.2
        (e.1, { e.2 with done := fun i => if i = b.id then some e.1 else e.2.done i })

/-- The places where a diagram has an effect: blocks without outputs, and outputs without a wire (with their row). -/
def Area.HasSink (a : Area) (s : Sink) : Prop :=
  ∃ o b, (o, b) ∈ a.blocks ∧ s.1 = o.1 ∧
    ((b.outputRows = [] ∧ s.2.1 = o.2 ∧ s.2.2 = none) ∨
     ∃ r ∈ b.outputRows, s.2.1 = o.2 + (r : Int) ∧ s.2.2 = some r ∧
       ∀ o' b' (r' : Nat), (o', b') ∈ a.blocks → r' ∈ b'.inputRows → ¬ (o'.1 = o.1 + 1 ∧ o'.2 + (r' : Int) = s.2.1))

/-- All effects of the diagram, from top to bottom and in a row from left to right. -/
def Area.SinkOrder (a : Area) (ss : List Sink) : Prop :=
  (∀ s, s ∈ ss ↔ a.HasSink s) ∧ ss.Pairwise (fun s t => s.2.1 < t.2.1 ∨ (s.2.1 = t.2.1 ∧ s.1 < t.1))

/-- One effect. -/
def runSink (M : Machine F S) (L : Lang) (parse : String → Option F) (a : Area) (s : Sink) (r : Run F S) : Run F S :=
  match s.2.2 with
  | none => (runAt M L parse a (a.blocks.length + 1) (s.1, s.2.1) r).2
  | some _ =>
    let q := wireFrom a M.zero (runAt M L parse a (a.blocks.length + 1)) (s.1, s.2.1) r
    { q.2 with res := some q.1 }

/-- All effects. -/
def runSinks (M : Machine F S) (L : Lang) (parse : String → Option F) (a : Area) (ss : List Sink) (r : Run F S) : Run F S :=
  ss.foldl (fun r s => runSink M L parse a s r) r

/-! ## Diagrams for which the compiler keeps its promise -/

/-- The names of the ports of a library node, as `DspNode.type` cuts them. -/
def cutName (s : String) : String := String.ofList (s.toList.take 2)

/-- A library that does not redefine a type of the language, with port names that differ in the first two letters. -/
def LibOk (lib : List DspNode) : Prop :=
  ∀ n ∈ lib, n.name ∉ builtinTypes.map (·.name) ∧ n.name ∉ ["<a>", "<r>", "<res>"] ∧
    (2 ≤ n.outputs.length → (n.outputs.map cutName).Nodup ∧ "" ∉ n.outputs.map cutName) ∧
    ((n.inputs.map cutName).head? = some "" ∨ ((n.inputs.map cutName).Nodup ∧ "" ∉ n.inputs.map cutName))

/-- A block has the ports of its type, perhaps in other rows. -/
def Block.Conforms (L : Lang) (b : Block) : Prop :=
  ∃ t, L b.typ = some t ∧ b.rows = t.rows ∧ b.inputs.length ≤ b.rows ∧ b.outputs.length ≤ b.rows ∧
    (b.inputs.filterMap (fun o => o)).Perm (t.inputs.filterMap (fun o => o)) ∧
    (b.outputs.filterMap (fun o => o)).Perm (t.outputs.filterMap (fun o => o))

/-- The inputs of a block are, from top to bottom, in the order of its type. -/
def Block.Orderly (L : Lang) (b : Block) : Prop :=
  ∀ t, L b.typ = some t → b.inputs.filterMap (fun o => o) = t.inputs.filterMap (fun o => o)

/-- A name that does not begin like those of the compiler. -/
def UserVar (x : String) : Prop := x.toList.head? ≠ some '_' ∧ x.toList.head? ≠ some '%'

/-- What the user has to provide: numbers in the values, ordinary names of variables, inputs in the order of the type, no `if`. -/
structure Block.Usable (L : Lang) (parse : String → Option F) (b : Block) : Prop where
  number : b.typ = "value" → (parse b.lbl).isSome = true
  name : b.typ = "set" ∨ b.typ = "get" → UserVar b.lbl
  orderly : b.Orderly L
  noIf : b.typ ≠ "if"

/-- The nodes of the library deliver a value for each of their outputs. -/
def Machine.Delivers (M : Machine F S) (L : Lang) : Prop :=
  ∀ typ t, L typ = some t → ∀ id args s, t.outputs.length ≤ (M.call typ id args s).2.1.length + 1

/-- A block that calls a node: all but constants, wires, variables and the four operators. -/
def Block.IsNode (b : Block) : Prop := b.typ ∉ ["zero", "value", "get", "->", "->2", "->3", "set", "+", "-", "*", "/"]

/-- `cnt` counts how often the node of each block was called. -/
def Machine.Counts (M : Machine F S) (cnt : S → Nat → Nat) : Prop :=
  ∀ typ id args s i, cnt (M.call typ id args s).2.2 i = cnt s i + (if i = id then 1 else 0)

/-- Before a run. -/
def Run.start (vars : String → F) (mem : S) : Run F S := ⟨vars, mem, fun _ => none, none⟩

/-- The program compiled from the blocks of the area `a` does what they mean: for every machine and every state, it leaves
the nodes in the same state, the variables of the user with the same values, and its value is that of the last output without
a wire, if there is one. -/
def Faithful (L : Lang) (parse : String → Option F) (zero : F) (f : BlockFun) (a : Area) : Prop :=
  ∃ N, ∀ n ≥ N, ∃ prog, compile L parse zero n f = .ok prog ∧
    ∀ (S : Type) (M : Machine F S) (ss : List Sink) (vars : String → F) (mem : S), M.zero = zero → M.Delivers L → a.SinkOrder ss →
      (exec M prog ⟨vars, mem⟩).2.mem = (runSinks M L parse a ss (Run.start vars mem)).mem ∧
      (∀ x, UserVar x → (exec M prog ⟨vars, mem⟩).2.vars x = (runSinks M L parse a ss (Run.start vars mem)).vars x) ∧
      ∀ v, (runSinks M L parse a ss (Run.start vars mem)).res = some v → (exec M prog ⟨vars, mem⟩).1 = v

end

end HexoDSP.Block
