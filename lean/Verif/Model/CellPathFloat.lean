import Verif.Model.CellDir
import Mathlib.Algebra.Order.Field.Rat
import Mathlib.Algebra.Field.Rat
/-!
# `CellDir::path_from_to` with the arithmetic of `f32`

The same code as in `Verif/Model/CellDir.lean`, with a rounding `rn` after each operation. `powf(2.0)` is taken as the rounded square.
-/

namespace HexoDSP.CellPathFloat
open HexoDSP CellDir

/-- `src/cell_dir.rs:93-94`: the squared distance. -/
def dist (rn : ℚ → ℚ) (b p : Pos) : ℚ := rn (rn (rn (rn b.1 - rn p.1) ^ 2) + rn (rn (rn b.2 - rn p.2) ^ 2))

/-- The body of the loop `for e in 0..6`, `src/cell_dir.rs:89-106`; the accumulator is `(min_distance, min_dir, min_new_a)`. -/
def nearerStep (rn : ℚ → ℚ) (a b : Pos) (acc : ℚ × CellDir × Pos) (e : Nat) : ℚ × CellDir × Pos :=
  match (ofEdge e).offsPos a with
  | some newPos => if dist rn b newPos < acc.1 then (dist rn b newPos, ofEdge e, newPos) else acc
  | none => acc

/-- `src/cell_dir.rs:85-106`: the best neighbour of `a`. -/
def nearest (rn : ℚ → ℚ) (a b : Pos) : ℚ × CellDir × Pos := [0, 1, 2, 3, 4, 5].foldl (nearerStep rn a b) (99999, C, a)

/-- The `while` loop `src/cell_dir.rs:81-118`; `fuel` is `defensive_max`. -/
def pathLoop (rn : ℚ → ℚ) : Nat → Pos → Pos → List CellDir
  | 0, _, _ => []
  | fuel + 1, a, b =>
    if a = b then [] else
    let m := nearest rn a b
    if m.1 < 99999 then m.2.1 :: pathLoop rn fuel m.2.2 b else []

/-- `src/cell_dir.rs:76-123` `CellDir::path_from_to`. -/
def pathFromTo (rn : ℚ → ℚ) (a b : Pos) : List CellDir := pathLoop rn 1024 a b

end HexoDSP.CellPathFloat
