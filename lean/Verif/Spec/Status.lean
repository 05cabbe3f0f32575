import Verif.Model.Status
import Verif.Spec.Many
/-! Histories of an engine together with the table of status values and a record of what each node stored last. -/

namespace HexoDSP.StatusSpec
open HexoDSP.Engine EngineSpec

variable {N V A M σ : Type} [DecidableEq N] [Add V] [Mul V] [Sub V] [Div V] [NatCast V] [OfNat V 0]

/-- The last LED and phase value each node stored; 0 before it stored any. -/
abbrev Record (N V : Type) := N → V × V

/-- Node `n` stores the values `s`. -/
def note (l : Record N V) (x : N × Shown V) : Record N V :=
  fun n => if n = x.1 then (x.2.led.getD (l n).1, x.2.phase.getD (l n).2) else l n

/-- `Lit ops w vals l`: the calls `ops` were made on a new engine, in any order, and none panicked. Each call of a node in each block stored values of
its choice. The engine is then in state `w`, the table has the values `vals` and `l` is the record. -/
inductive Lit (T : NodeTable N V A) (a0 : A) (run : σ → CallIn N V A → σ × (Nat → Block V)) :
    List (EOp N V A M) → World N V A M σ → List V → Record N V → Prop
  | new (st : σ) : Lit T a0 run [] (World.new st) statusNew (fun _ => (0, 0))
  | call {ops : List (EOp N V A M)} {w w1 : World N V A M σ} {vals : List V} {l : Record N V} {op : EOp N V A M} :
      Lit T a0 run ops w vals l → Polite w op → w.step T a0 run op = some (w1, none) → Lit T a0 run (ops ++ [op]) w1 vals l
  | block {ops : List (EOp N V A M)} {w w1 : World N V A M σ} {vals vals1 : List V} {l : Record N V} {nf : Nat} {r : BlockResult N V A}
      {shown : List (Shown V)} :
      Lit T a0 run ops w vals l → w.step T a0 run (.process nf) = some (w1, some r) → shown.length = r.calls.length →
      showBlock vals w.exec.prog.prog shown = some vals1 →
      Lit T a0 run (ops ++ [.process nf]) w1 vals1 (((r.calls.map (fun c => c.node)).zip shown).foldl note l)
  | outside {ops : List (EOp N V A M)} {w : World N V A M σ} {vals : List V} {l : Record N V} (st : σ) :
      Lit T a0 run ops w vals l → Lit T a0 run ops { w with st := st } vals l

end HexoDSP.StatusSpec
