import Verif.Model.GateSeq
/-!
# What a gate cell stands for (C59, C60)

From the help text of `TSeq` (`src/dsp/node_tseq.rs:113-140`): three hexadecimal digits, probability, ratcheting and length.
-/

namespace HexoDSP.GateSpec

/-- The digits of a gate cell. -/
def cellOf (prob ratchet len : Nat) : Nat := prob * 256 + ratchet * 16 + len

/-- Is the gate on at position `x` of the row? The row is divided into `16 - ratchet` equal parts; in each the gate is on for the first
`(len + 1) / 16` of the part. -/
def On (ratchet len : Nat) (x : ℚ) : Prop :=
  ∃ k : Nat, k < 16 - ratchet ∧
    (k : ℚ) / ((16 - ratchet : Nat) : ℚ) ≤ x ∧ x < ((k : ℚ) + 1) / ((16 - ratchet : Nat) : ℚ) ∧
    x ≤ ((k : ℚ) + ((len : ℚ) + 1) / 16) / ((16 - ratchet : Nat) : ℚ)

/-- The chance of a gate cell, in percent of 16. -/
def chance (prob : Nat) : ℚ := ((prob : ℚ) + 1) / 16

end HexoDSP.GateSpec
