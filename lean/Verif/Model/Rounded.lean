import Mathlib.Data.Rat.Defs
/-!
# Numbers with rounded arithmetic

`f32` numbers as rational numbers, with arithmetic that rounds after each operation. With it the models that are made for any arithmetic become models of the code as it runs, for instance that of the
smoother, `src/util.rs:5-71`.
-/

namespace HexoDSP

/-- The type `f32` of the code (as in `src/util.rs:9-11`), without NaN and infinities. -/
structure Rounded (rn : ℚ → ℚ) where
  val : ℚ

variable {rn : ℚ → ℚ}

/-- `+` of `f32`, as in `src/util.rs:66`. -/
instance : Add (Rounded rn) := ⟨fun a b => ⟨rn (a.val + b.val)⟩⟩

/-- `-` of `f32`, as in `src/util.rs:40`. -/
instance : Sub (Rounded rn) := ⟨fun a b => ⟨rn (a.val - b.val)⟩⟩

/-- `/` of `f32`, as in `src/util.rs:40`. -/
instance : Div (Rounded rn) := ⟨fun a b => ⟨rn (a.val / b.val)⟩⟩

/-- `as f32` of an unsigned number, as in `src/util.rs:40`. -/
instance : NatCast (Rounded rn) := ⟨fun n => ⟨rn n⟩⟩

/-- `0.0`, as in `src/util.rs:18`. -/
instance : OfNat (Rounded rn) 0 := ⟨⟨0⟩⟩

/-- `1.0`, as in `src/dsp/node_midip.rs:183`. -/
instance : OfNat (Rounded rn) 1 := ⟨⟨1⟩⟩

end HexoDSP
