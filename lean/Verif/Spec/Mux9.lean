import Verif.Model.Mux9
/-!
# How the multiplexer should choose its input
-/

namespace HexoDSP.Mux9Spec
open HexoDSP.Mux

variable {T : Type}

/-- In which frames a trigger fires, by itself. -/
def fires (check : T → ℚ → Bool × T) : T → List ℚ → List Bool
  | _, [] => []
  | t, x :: xs => (check t x).1 :: fires check (check t x).2 xs

/-- The position (0 is `in_1`) out of `n` after the triggers of one frame: reset first, then one step up and one step down, both
cyclic. -/
def move (n : Nat) (pos : Int) (rst up down : Bool) : Int :=
  let p := if rst then 0 else pos
  let p := if up then (p + 1) % n else p
  if down then (p - 1) % n else p

/-- The positions over the frames. -/
def positions (n : Nat) : Int → List (Bool × Bool × Bool) → List Int
  | _, [] => []
  | p, (r, u, d) :: l => move n p r u d :: positions n (move n p r u d) l

end HexoDSP.Mux9Spec
