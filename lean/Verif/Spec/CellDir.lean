import Verif.Model.CellDir
/-!
# Specification vocabulary for the hexagonal grid (C01, C02, C03)
-/

namespace HexoDSP.CellDir

/-- The six edges of a cell: every direction but the centre. -/
def IsEdge (d : CellDir) : Prop := d ≠ C

instance (d : CellDir) : Decidable (IsEdge d) := inferInstanceAs (Decidable (d ≠ C))

/-- Follow a list of directions; `none` when the walk would leave the grid. -/
def walk : Pos → List CellDir → Option Pos
  | p, [] => some p
  | p, d :: ds => (d.offsPos p).bind (fun q => walk q ds)

/-- City block distance between two positions. -/
def blockDist (a b : Pos) : Nat := ((a.1 : Int) - b.1).natAbs + ((a.2 : Int) - b.2).natAbs

/-- Where the centre of a cell is drawn: odd columns are shifted down by half a cell (the vertical
unit is half a cell, the y axis points down). -/
def centre (p : Pos) : Int × Int := ((p.1 : Int), 2 * (p.2 : Int) + (p.1 : Int) % 2)

/-- How the centre moves when stepping in a direction, wherever the step starts: top-right goes
one column right and half a cell up, bottom goes a full cell down, and so on. -/
def shift : CellDir → Int × Int
  | TR => (1, -1)
  | BR => (1, 1)
  | B => (0, 2)
  | BL => (-1, 1)
  | TL => (-1, -1)
  | T => (0, -2)
  | C => (0, 0)

end HexoDSP.CellDir
