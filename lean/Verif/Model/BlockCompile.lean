import Verif.Model.BlockLang
/-!
# Model of the block compiler, `src/wblockdsp/compiler.rs`, and of `generate_tree`, `src/wblockdsp/language.rs`

The numbers of the compiled program are any type `F`. Reading a literal (`str::parse::<f64>`) is an arbitrary function.
The reference counted nodes of the tree (`Rc<RefCell<JASTNode>>`) are a list, a reference is an index into it.
The program is the tree built with `synfx_dsp_jit::build`, a crate outside the repository.
Loops and recursion without an obvious bound take fuel; `CErr.endless` stands for fuel that ran out, the code would not return.
The output on the console is left out.
-/

namespace HexoDSP.Block

/-! ## `generate_tree` -/

/-- `src/wblockdsp/language.rs:142-154` `count_outputs`. -/
def Block.countOutputs (b : Block) : Nat := b.outputRows.length

/-- A place where a program has an effect: `(x, y, row of an output without a wire)`. -/
abbrev Sink := Int × Int × Option Nat

/-- The order of `src/wblockdsp/language.rs:726`: bottom first, in a row right first. -/
def sinkLe (s t : Sink) : Bool := decide (t.2.1 < s.2.1 ∨ (t.2.1 = s.2.1 ∧ t.1 ≤ s.1))

/-- Insertion for sorting. -/
def insertSink (s : Sink) : List Sink → List Sink
  | [] => [s]
  | t :: l => if sinkLe s t then s :: t :: l else t :: insertSink s l

/-- The sinks of one block, `src/wblockdsp/language.rs:712-720`. -/
def Area.sinksOf (a : Area) (e : Pos × Block) : List Sink :=
  if e.2.countOutputs = 0 then [(e.1.1, e.1.2, none)]
  else (e.2.outputRows.filter (fun (r : Nat) => (a.findPortAt (e.1.1 + 1, e.1.2 + (r : Int)) false).isNone)).map
    (fun (r : Nat) => (e.1.1, e.1.2 + (r : Int), some r))

/-- `src/wblockdsp/language.rs:711-729` `collect_sinks`; the sort of the code is stable, as is this one. -/
def Area.collectSinks (a : Area) : List Sink := (a.blocks.flatMap a.sinksOf).foldr insertSink []

/-- `src/wblockdsp/compiler.rs:13-18` `struct JASTNode`: id, type, label, and the children with the ports at both ends. -/
structure JNode where
  id : Nat
  typ : String
  lbl : String
  nodes : List (String × String × Nat)

/-- `src/wblockdsp/language.rs:1166-1171` `enum GenTreeJob`. -/
inductive Job where
  | node (node out : Nat)
  | output (area : Nat) (p : Pos) (inPort : String) (out : Nat)
  | sink (area : Nat) (p : Pos) (out : Nat)
  | area (area : Nat) (out : Nat)

/-- The nodes made so far and the map `multi_outs`, `src/wblockdsp/language.rs:1243`. -/
structure Gen where
  heap : List JNode
  multi : List ((Nat × Pos) × Nat)

namespace Gen

/-- `Node::from`, `src/wblockdsp/compiler.rs:26-33`. -/
def alloc (g : Gen) (id : Nat) (typ lbl : String) : Gen × Nat :=
  ({ g with heap := g.heap ++ [⟨id, typ, lbl, []⟩] }, g.heap.length)

/-- `add_node`, `src/wblockdsp/compiler.rs:36-38`. -/
def add (g : Gen) (out : Nat) (inPort outPort : String) (node : Nat) : Gen :=
  { g with heap := g.heap.modify out (fun n => { n with nodes := n.nodes ++ [(inPort, outPort, node)] }) }

/-- The node of a block and whether it is new, `src/wblockdsp/language.rs:1291-1296`, `1336-1341`. -/
def nodeFor (g : Gen) (area : Nat) (o : Pos) (b : Block) : Gen × Nat × Bool :=
  match g.multi.lookup (area, o) with
  | some n => (g, n, false)
  | none =>
    let r := g.alloc b.id b.typ b.lbl
    (r.1, r.2, true)

/-- The jobs for a new node, the first one on top, `src/wblockdsp/language.rs:1301-1325`, `1351-1375`. -/
def blockJobs (area : Nat) (b : Block) (o : Pos) (n : Nat) : List Job :=
  b.inputRows.map (fun (r : Nat) => Job.output area (o.1 - 1, o.2 + (r : Int)) ((b.inputs.getD r none).getD "") n) ++
  b.contains.1.toList.map (fun c => Job.area c n) ++ b.contains.2.toList.map (fun c => Job.area c n)

/-- One sink of an area, `src/wblockdsp/language.rs:1257-1281`. -/
def pushSink (area areaNode : Nat) (s : Gen × List Job) (k : Sink) : Gen × List Job :=
  match k.2.2 with
  | some _ =>
    let r := s.1.alloc 0 "<res>" ""
    (r.1, Job.node r.2 areaNode :: Job.output area (k.1, k.2.1) "" r.2 :: s.2)
  | none => (s.1, Job.sink area (k.1, k.2.1) areaNode :: s.2)

/-- The work on one job, `src/wblockdsp/language.rs:1246-1382`. -/
def step (f : BlockFun) (nullTyp : String) (g : Gen) (rest : List Job) : Job → Except Err (Gen × List Job)
  | .area i out =>
    match f.areas[i]? with
    | none => .error (.unknownArea i)
    | some a =>
      let r := g.alloc 0 "<a>" ""
      .ok (a.collectSinks.foldl (pushSink i r.2) (r.1.add out "" "" r.2, rest))
  | .node n out => .ok (g.add out "" "" n, rest)
  | .sink i p out =>
    match f.areas[i]? with
    | none => .error (.unknownArea i)
    | some a =>
      match a.refAtOrigin p with
      | none => .ok (g, rest)
      | some (b, o) =>
        let r := g.nodeFor i o b
        let g := r.1.add out "" "" r.2.1
        if r.2.2 then .ok ({ g with multi := ((i, o), r.2.1) :: g.multi }, blockJobs i b o r.2.1 ++ rest)
        else .ok (g, rest)
  | .output i p inPort out =>
    match f.areas[i]? with
    | none => .error (.unknownArea i)
    | some a =>
      match a.refAtOrigin p with
      | none =>
        let z := g.alloc 0 nullTyp ""
        .ok (z.1.add out inPort "" z.2, rest)
      | some (b, o) =>
        let r := g.nodeFor i o b
        let g := match b.outputs.getD (p.2 - o.2).toNat none with
          | some name => r.1.add out inPort name r.2.1
          | none =>
            let z := r.1.alloc 0 nullTyp ""
            z.1.add out inPort "" z.2
        if r.2.2 then .ok ({ g with multi := ((i, o), r.2.1) :: g.multi }, blockJobs i b o r.2.1 ++ rest)
        else .ok (g, rest)

/-- The loop over the jobs, `src/wblockdsp/language.rs:1246-1383`; `none` is fuel that ran out. -/
def loop (f : BlockFun) (nullTyp : String) : Nat → Gen → List Job → Option (Except Err Gen)
  | _, g, [] => some (.ok g)
  | 0, _, _ :: _ => none
  | n + 1, g, j :: rest =>
    match step f nullTyp g rest j with
    | .error e => some (.error e)
    | .ok r => loop f nullTyp n r.1 r.2

end Gen

/-- `src/wblockdsp/language.rs:1224-1386` `generate_tree`; the node 0 of the list is the root. -/
def BlockFun.generateTree (L : Lang) (f : BlockFun) (fuel : Nat) (nullTyp : String) : Option (Except Err (List JNode)) :=
  match L nullTyp with
  | none => some (.error (.unknownLanguageType nullTyp))
  | some t =>
    (Gen.loop f t.name fuel ⟨[⟨0, "<r>", "", []⟩], []⟩ [Job.area 0 0]).map (fun r => r.map (·.heap))

/-! ## The compiler -/

/-- `src/wblockdsp/compiler.rs:88-111` `enum BlkASTNode`; the inputs of the children of a node are a list of their own. -/
inductive Blk (F : Type) where
  | area (childs : List (Blk F))
  | set (var : String) (expr : Blk F)
  | get (id : Nat) (var : String)
  | node (id : Nat) (out : Option String) (typ lbl : String) (ins : List (Option String)) (childs : List (Blk F))
  | literal (value : F)

/-- `src/wblockdsp/compiler.rs:187-203` `enum BlkJITCompileError`, those that the compiler makes, a panic of `compile`
and a compiler that does not return. -/
inductive CErr where
  | unknownError
  | badTree
  | missingOutputLabel (id : Nat)
  | noTmpVarForOutput (id : Nat) (out : String)
  | badLiteralNumber (s : String)
  | nodeWithoutID (typ : String)
  | unknownType (typ : String)
  | tooManyInputs (typ : String) (id : Nat)
  | wrongNumberOfChilds (typ : String) (id n : Nat)
  | unassignedInput (typ : String) (id : Nat) (name : Option String)
  | panics
  | endless
  deriving DecidableEq

/-- `src/wblockdsp/compiler.rs:205-209` `struct Block2JITCompiler`. -/
structure CS where
  map : List (String × String)
  counter : Nat

/-- The name made by `next_tmpvar_name`, `src/wblockdsp/compiler.rs:221-224`. -/
def tmpName (n : Nat) (extra : String) : String := "_tmp" ++ toString n ++ "_" ++ extra ++ "_"

/-- The key of `store_idout_var`, `src/wblockdsp/compiler.rs:226-232`. -/
def idout (id : Nat) (out : String) : String := toString id ++ "/" ++ out

/-- `store_idout_var`, `src/wblockdsp/compiler.rs:226-228`. -/
def CS.store (cs : CS) (id : Nat) (out v : String) : CS := { cs with map := (idout id out, v) :: cs.map }

/-- `get_var_for_idout`, `src/wblockdsp/compiler.rs:230-232`. -/
def CS.var (cs : CS) (id : Nat) (out : String) : Option String := cs.map.lookup (idout id out)

/-- A tree to compile: what a node is and its children, with the ports at both ends. -/
structure Graph (α : Type) where
  info : α → Nat × String × String
  kids : α → List (String × String × α)

/-- The tree that `generate_tree` made. -/
def heapGraph (heap : List JNode) : Graph Nat :=
  ⟨fun r => match heap[r]? with
    | some n => (n.id, n.typ, n.lbl)
    | none => (0, "", ""),
   fun r => match heap[r]? with
    | some n => n.nodes
    | none => []⟩

/-- `if out.len() > 0 { Some(out) } else { None }`, for example `src/wblockdsp/compiler.rs:256`. -/
def portOpt (s : String) : Option String := if s = "" then none else some s

/-- The names of the outputs of a type: `type_output_count` and `get_output_name_at_index`,
`src/wblockdsp/language.rs:1056-1084`. -/
def outNames (L : Lang) (typ : String) : List String :=
  match L typ with
  | none => []
  | some t => t.outputs.filterMap (fun o => o)

section
variable {α F : Type}

/-- The loops over the children, `src/wblockdsp/compiler.rs:253-259`, `314-327`. -/
def transKids (t : α → Option String → CS → Except CErr (Blk F × CS)) :
    List (String × String × α) → CS → Except CErr (List (Blk F) × CS)
  | [], cs => .ok ([], cs)
  | k :: ks, cs =>
    match t k.2.2 (portOpt k.2.1) cs with
    | .error e => .error e
    | .ok r =>
      match transKids t ks r.2 with
      | .error e => .error e
      | .ok q => .ok (r.1 :: q.1, q.2)

/-- The variables for the outputs after the first one, `src/wblockdsp/compiler.rs:356-371`. -/
def storeOuts (id : Nat) : Nat → List String → CS → List (Blk F) × CS
  | _, [], cs => ([], cs)
  | i, name :: names, cs =>
    let tmp := tmpName (cs.counter + 1) name
    let r := storeOuts id (i + 1) names ((CS.mk cs.map (cs.counter + 1)).store id name tmp)
    (.set tmp (.get 0 ("%" ++ toString i)) :: r.1, r.2)

/-- The last part for operators, `src/wblockdsp/compiler.rs:332-393`: `ins` and `childs` are the compiled children. -/
def transOp (L : Lang) (id : Nat) (myOut : Option String) (typ lbl : String) (ins : List (Option String))
    (childs : List (Blk F)) (cs : CS) : Except CErr (Blk F × CS) :=
  match outNames L typ with
  | name :: name2 :: names =>
    let tmp := tmpName (cs.counter + 1) name
    let r := storeOuts id 1 (name2 :: names) ((CS.mk cs.map (cs.counter + 1)).store id name tmp)
    match myOut with
    | none => .error (.missingOutputLabel id)
    | some out =>
      match r.2.var id out with
      | none => .error (.noTmpVarForOutput id out)
      | some v => .ok (.area (.set tmp (.node id myOut typ lbl ins childs) :: r.1 ++ [.get 0 v]), r.2)
  | _ => .ok (.node id myOut typ lbl ins childs, cs)

/-- `trans2bjit`, `src/wblockdsp/compiler.rs:234-395`. -/
def trans (L : Lang) (parse : String → Option F) (G : Graph α) :
    Nat → α → Option String → CS → Except CErr (Blk F × CS)
  | 0, _, _, _ => .error .endless
  | n + 1, a, myOut, cs =>
    let id := (G.info a).1
    let typ := (G.info a).2.1
    let lbl := (G.info a).2.2
    match cs.var id (myOut.getD "") with
    | some v => .ok (.get 0 v, cs)
    | none =>
      if typ = "<a>" then
        (transKids (trans L parse G n) (G.kids a) cs).map (fun r => (.area r.1, r.2))
      else if typ = "<r>" then
        match G.kids a with
        | [] => .error .badTree
        | k :: _ => (trans L parse G n k.2.2 (portOpt k.2.1) cs).map (fun r => (.area [r.1, .get 0 "_res_"], r.2))
      else if typ = "->" then
        match G.kids a with
        | [] => .error .badTree
        | k :: _ => trans L parse G n k.2.2 (portOpt k.2.1) cs
      else if typ = "value" then
        match parse lbl with
        | some v => .ok (.literal v, cs)
        | none => .error (.badLiteralNumber lbl)
      else if typ = "set" ∨ typ = "<res>" then
        match G.kids a with
        | [] => .error .badTree
        | k :: _ => (trans L parse G n k.2.2 (portOpt k.2.1) cs).map
            (fun r => (.set (if typ = "<res>" then "_res_" else lbl) r.1, r.2))
      else if typ = "get" then .ok (.get id lbl, cs)
      else if typ = "->2" ∨ typ = "->3" then
        match G.kids a with
        | [] => .error .badTree
        | k :: _ =>
          let tmp := tmpName (cs.counter + 1) ""
          (trans L parse G n k.2.2 (portOpt k.2.1) ⟨cs.map, cs.counter + 1⟩).map
            (fun r => (.area [.set tmp r.1, .get 0 tmp], r.2.store id "" tmp))
      else
        match transKids (trans L parse G n) (G.kids a) cs with
        | .error e => .error e
        | .ok r => transOp L id myOut typ lbl ((G.kids a).map (fun k => portOpt k.1)) r.1 r.2

/-- The operators with code of their own, `src/wblockdsp/compiler.rs:471-490`. -/
inductive Bin where
  | add | mul | sub | div
  deriving DecidableEq

/-- `src/wblockdsp/compiler.rs:471`. -/
def binOf (typ : String) : Option Bin :=
  if typ = "+" then some .add else if typ = "*" then some .mul else if typ = "-" then some .sub
  else if typ = "/" then some .div else none

/-- The program: `synfx_dsp_jit::ASTNode`, as far as the compiler uses it. -/
inductive Jit (F : Type) where
  | stmts (l : List (Jit F))
  | assign (var : String) (e : Jit F)
  | var (v : String)
  | literal (v : F)
  | bin (op : Bin) (a b : Jit F)
  | call (typ : String) (id : Nat) (args : List (Jit F))

/-- The first child for a named input, `src/wblockdsp/compiler.rs:446-454`. -/
def childFor (name : Option String) : List (Option String) → List (Except CErr (Jit F)) → Option (Except CErr (Jit F))
  | i :: ins, c :: cs => if i = name then some c else childFor name ins cs
  | _, _ => none

/-- `?` over a list. -/
def sequence {β : Type} : List (Except CErr β) → Except CErr (List β)
  | [] => .ok []
  | .error e :: _ => .error e
  | .ok x :: l => (sequence l).map (x :: ·)

/-- The arguments of an operator, `src/wblockdsp/compiler.rs:422-468`. The code compiles a child when its turn comes;
here all are compiled before, which makes no difference as compiling a child has no effect but its result. -/
def jitArgs (L : Lang) (typ : String) (id : Nat) (ins : List (Option String)) (childs : List (Except CErr (Jit F))) :
    Except CErr (List (Jit F)) :=
  match L typ with
  | none => .error (.unknownType typ)
  | some t =>
    if t.inputs.length < childs.length then .error (.tooManyInputs typ id)
    else if t.inputs.head? = some (some "") then
      if t.inputs.length ≠ childs.length then .error (.wrongNumberOfChilds typ id childs.length)
      else sequence childs
    else sequence (t.inputs.map (fun name => (childFor name ins childs).getD (.error (.unassignedInput typ id name))))

/-- `bjit2jit` of a node, `src/wblockdsp/compiler.rs:413-494`. -/
def jitNode (L : Lang) (zero : F) (id : Nat) (typ : String) (ins : List (Option String))
    (childs : List (Except CErr (Jit F))) : Except CErr (Jit F) :=
  if typ = "if" then .error .unknownError
  else if typ = "zero" then .ok (.literal zero)
  else if id = 0 then .error (.nodeWithoutID typ)
  else
    match jitArgs L typ id ins childs with
    | .error e => .error e
    | .ok args =>
      match binOf typ with
      | some op =>
        match args with
        | [a, b] => .ok (.bin op a b)
        | _ => .error (.wrongNumberOfChilds typ id args.length)
      | none => .ok (.call typ id args)

mutual
/-- `bjit2jit`, `src/wblockdsp/compiler.rs:398-497`. -/
def toJit (L : Lang) (zero : F) : Blk F → Except CErr (Jit F)
  | .area childs => (sequence (toJits L zero childs)).map .stmts
  | .set var expr => (toJit L zero expr).map (.assign var)
  | .get _ var => .ok (.var var)
  | .node id _ typ _ ins childs => jitNode L zero id typ ins (toJits L zero childs)
  | .literal v => .ok (.literal v)
/-- All children. -/
def toJits (L : Lang) (zero : F) : List (Blk F) → List (Except CErr (Jit F))
  | [] => []
  | b :: bs => toJit L zero b :: toJits L zero bs
end

/-- `compile` of a new compiler, `src/wblockdsp/compiler.rs:499-515`. -/
def compile (L : Lang) (parse : String → Option F) (zero : F) (fuel : Nat) (f : BlockFun) : Except CErr (Jit F) :=
  match f.generateTree L fuel "zero" with
  | none => .error .endless
  | some (.error _) => .error .panics
  | some (.ok heap) =>
    match trans L parse (heapGraph heap) fuel 0 none ⟨[], 0⟩ with
    | .error e => .error e
    | .ok r => toJit L zero r.1

end

end HexoDSP.Block
