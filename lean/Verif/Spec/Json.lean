/-! # Ranges of the number types of the code -/

namespace HexoDSP.Json

/-- The range of `i64`. -/
def IsI64 (i : Int) : Prop := -2 ^ 63 ≤ i ∧ i < 2 ^ 63

/-- A natural number in the range of `i64`. -/
def FitsI64 (n : Nat) : Prop := n < 2 ^ 63

/-- The range of `i32`. -/
def IsI32 (i : Int) : Prop := -2147483648 ≤ i ∧ i < 2147483648

end HexoDSP.Json
