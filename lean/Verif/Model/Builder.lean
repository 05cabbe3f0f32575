import Verif.Model.SynthConstructor
/-!
# Model of the builders: `src/build.rs`

The compiler accepts a call of a builder only if the macro has made a method of that name for that node. A call it rejects is `none`. Handles (`sin(0)`, its
clones, and what `build` and `output` give: `src/build.rs:88-119`, `src/build.rs:248-258`) are a node id and a reference to a shared list of operations; the reference is a number here.
-/

namespace HexoDSP.Builder
open HexoDSP.Table HexoDSP.Synth

/-- All lists of operations, and the node each of them was made for. -/
structure Heap (V : Type) where
  store : Store V
  owners : List NodeId

/-- Calls on builders. `r` is the list behind the handle; the two names of `input` are those of the input and of the output that was chosen last on the
output struct (`none`: no output was chosen). -/
inductive Call (V : Type) where
  /-- `sin(instance)` etc. (`src/build.rs:241-246`) -/
  | make (k : Fin nodeTable.length) (inst : Fin 256)
  /-- `.set().freq(v)` (`src/build.rs:164-169`, `src/build.rs:213-215`) -/
  | set (r : Nat) (name : String) (v : V)
  /-- `.set().mode(i)` (`src/build.rs:173-178`) -/
  | setting (r : Nat) (name : String) (i : Int)
  /-- `.set_mod().freq(v, ma)` (`src/build.rs:191-196`, `src/build.rs:219-221`) -/
  | setMod (r : Nat) (name : String) (v ma : V)
  /-- `.input().freq(&src.output().sig())` (`src/build.rs:141-151`, `src/build.rs:225-237`) -/
  | input (r : Nat) (name : String) (src : Nat) (port : Option String)

variable {V : Type}

/-- The methods of `set_param`, `set_param_mod` and `input_port` for parameters (`src/build.rs:134-198`). -/
def hasParam : NodeId → String → Bool
  | .nop, _ => false
  | .node k _, s => (row k).params.any (fun p => p.name = s)

/-- The methods of `set_param` for settings (`src/build.rs:171-180`). -/
def hasAtom : NodeId → String → Bool
  | .nop, _ => false
  | .node k _, s => (row k).atoms.any (fun p => p.name = s)

/-- The methods of `output_port` (`src/build.rs:122-129`). -/
def hasOut : NodeId → String → Bool
  | .nop, _ => false
  | .node k _, s => (row k).outs.any (fun p => p.name = s)

/-- An output that can be chosen, or none (`src/build.rs:107-109`). -/
def portOk (id : NodeId) : Option String → Bool
  | none => true
  | some o => hasOut id o

/-- One call. -/
def Heap.call (h : Heap V) : Call V → Option (Heap V)
  | .make k inst => some ⟨fun r => if r = h.owners.length then [] else h.store r, h.owners ++ [.node k inst]⟩
  | .set r name v => match h.owners[r]? with
    | none => none
    | some id => if hasParam id name then some { h with store := h.store.push r (.set name v) } else none
  | .setting r name i => match h.owners[r]? with
    | none => none
    | some id => if hasAtom id name then some { h with store := h.store.push r (.setting name i) } else none
  | .setMod r name v ma => match h.owners[r]? with
    | none => none
    | some id => if hasParam id name then some { h with store := h.store.push r (.setMod name v ma) } else none
  | .input r name src port => match h.owners[r]?, h.owners[src]? with
    | some id, some sid =>
      if hasParam id name && portOk sid port then
        some { h with store := h.store.push r (.input name (sid, src) (port.getD "")) }
      else none
    | _, _ => none

/-- Nothing was built yet. -/
def Heap.new : Heap V := ⟨fun _ => [], []⟩

/-- A program of builder calls. -/
def Heap.run (h : Heap V) : List (Call V) → Option (Heap V)
  | [] => some h
  | c :: cs => (h.call c).bind (fun h => h.run cs)

/-- The node of a list. -/
def Heap.own (h : Heap V) (r : Nat) : NodeId := (h.owners[r]?).getD (.node ⟨0, by decide +kernel⟩ 0)

end HexoDSP.Builder
