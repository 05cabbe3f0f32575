import Verif.Model.BlockCompile
/-!
# Block programs on their way to the `Code` nodes

The parts of `src/global.rs` that keep the code engines and the block functions by number (the instance of the `Code` node), and
`src/dsp/node_code.rs`. The code engine is a part of the crate `synfx-dsp-jit`; it is modelled by what its documentation in
`src/global.rs:161-168` promises: programs go to the backend that was asked for last (those sent before the first one was asked for wait
for it). Its queue is taken to be large enough, the library of node types to be the same for all engines.
-/

namespace HexoDSP.Code
open HexoDSP.Block

variable {F : Type}

/-- A code engine: the number of its present backend, whether it was handed out, and all programs sent, each with the number of the
backend it goes to, the latest first. -/
structure Engine (F : Type) where
  conn : Nat
  taken : Bool
  sent : List (Nat × Jit F)

/-- `CodeEngine::new_stdlib`, used in `src/global.rs:141`. -/
def Engine.new : Engine F := ⟨0, false, []⟩

/-- `CodeEngine::get_backend`, used in `src/global.rs:167`: the first backend comes with the engine, each further one replaces the last. -/
def Engine.getBackend (e : Engine F) : Engine F × Nat :=
  if e.taken then (⟨e.conn + 1, true, e.sent⟩, e.conn + 1) else (⟨e.conn, true, e.sent⟩, e.conn)

/-- `CodeEngine::upload`, used in `src/global.rs:209`; `accept` tells the programs the JIT compiler takes. -/
def Engine.upload (accept : Jit F → Bool) (e : Engine F) (p : Jit F) : Option (Engine F) :=
  if accept p then some ⟨e.conn, e.taken, (e.conn, p) :: e.sent⟩ else none

/-- The program that the backend `k` runs after `process_updates` (`src/dsp/node_code.rs:155`), `none` before the first one arrived. -/
def Engine.plays (e : Engine F) (k : Nat) : Option (Jit F) := (e.sent.find? (fun s => s.1 = k)).map (·.2)

/-- `src/global.rs:27-46` `NodeGlobalData`, the fields `code_engines` and `block_functions`: with each block function the generation that
was last looked at. The handles shared with the user are part of the state. -/
structure Global (F : Type) where
  engines : Nat → Option (Engine F)
  funs : Nat → Option (Nat × World)

/-- `src/global.rs:49-60` `new_ref`. -/
def Global.new : Global F := ⟨fun _ => none, fun _ => none⟩

/-- Change the entry of a map. -/
def put {A : Type} (m : Nat → Option A) (k : Nat) (v : A) : Nat → Option A := fun j => if j = k then some v else m j

/-- The calls. `edit` is a change of the block function through the handle that `get_block_function` returned. -/
inductive Call where
  | getFun (id : Nat)
  | backend (id : Nat)
  | edit (id : Nat) (op : Op)
  | check (id : Nat)

/-- The answers of `check_code`. -/
inductive Answer where
  | ok
  | compileError (e : CErr)
  | jitError
  deriving DecidableEq

/-- The surroundings: the library of node types, how numbers are read, the zero, a bound for the loops of the compiler, and what the
JIT compiler accepts. -/
structure Setup (F : Type) where
  lib : List DspNode
  parse : String → Option F
  zero : F
  fuel : Nat
  accept : Jit F → Bool

/-- `src/global.rs:137-146` `get_code_engine`. -/
def Global.withEngine (g : Global F) (id : Nat) : Global F :=
  match g.engines id with
  | some _ => g
  | none => ⟨put g.engines id Engine.new, g.funs⟩

/-- `src/global.rs:174-191` `get_block_function`: it makes the code engine and the block function. -/
def Global.getFun (g : Global F) (id : Nat) : Global F :=
  let g := g.withEngine id
  match g.funs id with
  | some _ => g
  | none => ⟨g.engines, put g.funs id (0, World.new)⟩

/-- `src/global.rs:166-168` `get_code_engine_backend`, called from `Code::new` (`src/dsp/node_code.rs:38-57`). -/
def Global.backend (g : Global F) (id : Nat) : Global F :=
  let g := g.withEngine id
  match g.engines id with
  | some e => ⟨put g.engines id e.getBackend.1, g.funs⟩
  | none => g

/-- `src/global.rs:196-220` `check_code`; `none` is a panic or a compiler that does not return. The generation is stored before the compiler
runs. -/
def Global.check (s : Setup F) (g : Global F) (id : Nat) : Option (Global F × Answer) :=
  match g.engines id with
  | none => some (g, .ok)
  | some e =>
    match g.funs id with
    | none => some (g, .ok)
    | some (gen, w) =>
      if gen ≠ w.fn.generation then
        let g : Global F := ⟨g.engines, put g.funs id (w.fn.generation, w)⟩
        match compile (language s.lib) s.parse s.zero s.fuel w.fn with
        | .error .panics => none
        | .error .endless => none
        | .error err => some (g, .compileError err)
        | .ok p =>
          match e.upload s.accept p with
          | none => some (g, .jitError)
          | some e => some (⟨put g.engines id e, g.funs⟩, .ok)
      else some (g, .ok)

/-- One call. -/
def Global.step (s : Setup F) (g : Global F) : Call → Option (Global F × Answer)
  | .getFun id => some (g.getFun id, .ok)
  | .backend id => some (g.backend id, .ok)
  | .edit id op =>
    match g.funs id with
    | none => some (g, .ok)
    | some (gen, w) => (w.step (language s.lib) op).map (fun r => (⟨g.engines, put g.funs id (gen, r.1)⟩, .ok))
  | .check id => g.check s id

end HexoDSP.Code
