/-!
# Model of `src/cell_dir.rs`

Hexagonal grid directions. Positions are pairs of natural numbers (`(usize, usize)` in the
code); offsets are integers (`i32` in the code).  Simplification: the casts
`usize as i32` are modelled as exact, i.e. coordinates are assumed to be below `2^31`.
-/

namespace HexoDSP

/-- `src/cell_dir.rs:6-15` `enum CellDir`, in declaration order. -/
inductive CellDir where
  | TR | BR | B | BL | TL | T | C
  deriving DecidableEq, Repr

namespace CellDir

/-- Grid positions, `(usize, usize)`. -/
abbrev Pos := Nat × Nat

/-- `src/cell_dir.rs:18-28` `CellDir::from`. The argument is a `u8` in the code. -/
def ofEdge (edge : Nat) : CellDir :=
  match edge with
  | 0 => TR
  | 1 => BR
  | 2 => B
  | 3 => BL
  | 4 => TL
  | 5 => T
  | _ => C

/-- `src/cell_dir.rs:30-40` `CellDir::flip`. -/
def flip : CellDir → CellDir
  | TR => BL
  | BR => TL
  | B => T
  | BL => TR
  | TL => BR
  | T => B
  | C => T

/-- `src/cell_dir.rs:54-56` `CellDir::as_edge` (the discriminant as `u8`). -/
def asEdge : CellDir → Nat
  | TR => 0
  | BR => 1
  | B => 2
  | BL => 3
  | TL => 4
  | T => 5
  | C => 6

/-- `src/cell_dir.rs:43-46` `CellDir::is_output`. -/
def isOutput (d : CellDir) : Bool := d.asEdge ≤ 2

/-- `src/cell_dir.rs:49-51` `CellDir::is_input`. -/
def isInput (d : CellDir) : Bool := !d.isOutput

/-- `src/cell_dir.rs:58-74` `CellDir::as_menu_pos`. -/
def asMenuPos : CellDir → Int × Int
  | TR => (0, 1)
  | BR => (1, 1)
  | B => (0, 1)
  | BL => (-1, 1)
  | TL => (-1, 0)
  | T => (0, -1)
  | C => (0, 0)

/-- `src/cell_dir.rs:137-154` `CellDir::as_offs`. -/
def asOffs (d : CellDir) (x : Nat) : Int × Int :=
  let even := x % 2 = 0
  match d with
  | TR => (1, if even then -1 else 0)
  | BR => (1, if even then 0 else 1)
  | B => (0, 1)
  | BL => (-1, if even then 0 else 1)
  | TL => (-1, if even then -1 else 0)
  | T => (0, -1)
  | C => (0, 0)

/-- `src/cell_dir.rs:125-135` `CellDir::offs_pos`. -/
def offsPos (d : CellDir) (pos : Pos) : Option Pos :=
  let offs := d.asOffs pos.1
  let newPos := ((pos.1 : Int) + offs.1, (pos.2 : Int) + offs.2)
  if newPos.1 ≥ 0 ∧ newPos.2 ≥ 0 then some (newPos.1.toNat, newPos.2.toNat) else none

/-- One `if ipos_b == (ipos_a.0 + ox, ipos_a.1 + oy)` test of `src/cell_dir.rs:163-187`. -/
def hits (d : CellDir) (a b : Pos) : Bool :=
  decide ((b.1 : Int) = a.1 + (d.asOffs a.1).1 ∧ (b.2 : Int) = a.2 + (d.asOffs a.1).2)

/-- `src/cell_dir.rs:159-190` `CellDir::are_adjacent`, same order of tests. -/
def areAdjacent (a b : Pos) : Option CellDir :=
  if hits T a b then some T
  else if hits TL a b then some TL
  else if hits BL a b then some BL
  else if hits TR a b then some TR
  else if hits BR a b then some BR
  else if hits B a b then some B
  else none

/-- The squared distance of `src/cell_dir.rs:93-94`.  Simplification: the code computes it in
`f32` with `powf(2.0)`; the model uses exact integers (all integers below `2^24` are exact in
`f32`, and only distances below `99999` are ever accepted). -/
def sqDist (b p : Pos) : Int :=
  ((b.1 : Int) - p.1) * ((b.1 : Int) - p.1) + ((b.2 : Int) - p.2) * ((b.2 : Int) - p.2)

/-- The body of the loop `for e in 0..6`, `src/cell_dir.rs:89-106`; the accumulator is
`(min_distance, min_dir, min_new_a)`. -/
def nearerStep (a b : Pos) (acc : Int × CellDir × Pos) (e : Nat) : Int × CellDir × Pos :=
  match (ofEdge e).offsPos a with
  | some newPos => if sqDist b newPos < acc.1 then (sqDist b newPos, ofEdge e, newPos) else acc
  | none => acc

/-- `src/cell_dir.rs:85-106`: the best neighbour of `a`. -/
def nearest (a b : Pos) : Int × CellDir × Pos :=
  [0, 1, 2, 3, 4, 5].foldl (nearerStep a b) (99999, C, a)

/-- The `while` loop `src/cell_dir.rs:81-118`; `fuel` is `defensive_max`. -/
def pathLoop : Nat → Pos → Pos → List CellDir
  | 0, _, _ => []
  | fuel + 1, a, b =>
    if a = b then [] else
    let m := nearest a b
    if m.1 < 99999 then m.2.1 :: pathLoop fuel m.2.2 b else []

/-- `src/cell_dir.rs:76-123` `CellDir::path_from_to`. -/
def pathFromTo (a b : Pos) : List CellDir := pathLoop 1024 a b

end CellDir
end HexoDSP
