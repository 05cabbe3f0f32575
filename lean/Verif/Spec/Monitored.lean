import Verif.Spec.PatchTimed
/-!
# The cell that is watched (C136)
-/

namespace HexoDSP.Patch
open HexoDSP.Matrix (Cell)
open HexoDSP.Engine (NodeId BlockResult)
open HexoDSP.EngineSpec

variable {K V A : Type}

/-- A block of audio feeds the six signals of the monitor with the ports of cell `c`: signals 0 to 2 with what its node gets at the inputs named in the cell, signals 3 to
5 with what it puts out at the outputs named there, and nothing for an empty cell. -/
def ShowsCell (c : Cell (NodeId K)) (r : BlockResult (NodeId K) V A) : Prop :=
  match c.nodeId with
  | none => r.monitor = []
  | some n => ∃ k ∈ r.calls, k.node = n ∧ ∀ i blk, (i, blk) ∈ r.monitor ↔ Shows [c.in1, c.in2, c.in3] [c.out1, c.out2, c.out3] k i blk

end HexoDSP.Patch
