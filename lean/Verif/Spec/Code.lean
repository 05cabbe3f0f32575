import Verif.Model.Code
import Verif.Spec.BlockRun
/-! # What the `Code` nodes are to play -/

namespace HexoDSP.Code
open HexoDSP.Block

variable {F : Type}

/-- Histories of calls for the `Code` node `id` in which its blocks are changed with proper calls that C69 speaks about, its node is made at
most once and no check for it failed. There are no conditions on calls for other nodes. -/
inductive Smooth (s : Setup F) (id : Nat) : Global F → Prop
  | new : Smooth s id Global.new
  | step {g g' : Global F} {c : Call} {a : Answer} : Smooth s id g → g.step s c = some (g', a) →
      (∀ op gen w, c = .edit id op → g.funs id = some (gen, w) → w.Proper (language s.lib) op ∧
        (∀ j p j2 p2, op = .move j p j2 p2 → j2 < w.fn.areas.length) ∧ ∀ j p, op ≠ .retrieve j p true) →
      (∀ e, c = .backend id → g.engines id = some e → e.taken = false) →
      (c = .check id → a = .ok) → Smooth s id g'

/-- All states that can be reached. -/
inductive Anyhow (s : Setup F) : Global F → Prop
  | new : Anyhow s Global.new
  | step {g g' : Global F} {c : Call} {a : Answer} : Anyhow s g → g.step s c = some (g', a) → Anyhow s g'

/-- The program the present node `id` plays. -/
def Global.playing (g : Global F) (id : Nat) : Option (Jit F) := (g.engines id).bind (fun e => e.plays e.conn)

/-- The blocks of the diagram `id`. -/
def Global.diagram (g : Global F) (id : Nat) : Option BlockFun := (g.funs id).map (fun f => f.2.fn)

/-- The program does what the blocks in the area mean: see `Faithful`. -/
def Means (L : Lang) (parse : String → Option F) (zero : F) (prog : Jit F) (a : Area) : Prop :=
  ∀ (S : Type) (M : Machine F S) (ss : List Sink) (vars : String → F) (mem : S), M.zero = zero → M.Delivers L → a.SinkOrder ss →
    (exec M prog ⟨vars, mem⟩).2.mem = (runSinks M L parse a ss (Run.start vars mem)).mem ∧
    (∀ x, UserVar x → (exec M prog ⟨vars, mem⟩).2.vars x = (runSinks M L parse a ss (Run.start vars mem)).vars x) ∧
    ∀ v, (runSinks M L parse a ss (Run.start vars mem)).res = some v → (exec M prog ⟨vars, mem⟩).1 = v

end HexoDSP.Code
