import Verif.Model.Block
import Mathlib.Logic.Relation
/-! What the properties of block programs are stated with. -/

set_option linter.dupNamespace false

namespace HexoDSP.Block

/-- The block `b` placed at `o` takes the slot `q`: the slots of its rows, from `o` downwards. -/
def Covers (o : Pos) (b : Block) (q : Pos) : Prop := q.1 = o.1 ∧ o.2 ≤ q.2 ∧ q.2 < o.2 + (b.rows : Int)

/-- All blocks of all areas of the program, whether the area is still reachable or not. -/
def BlockFun.allBlocks (f : BlockFun) : List Block := f.areas.flatMap (fun a => a.blocks.map (·.2))

/-- The sub areas of a block. -/
def Block.subs (b : Block) : List Nat := b.contains.1.toList ++ b.contains.2.toList

/-- Area `a` has a block with the sub area `c`. -/
def BlockFun.Nests (f : BlockFun) (a c : Nat) : Prop := ∃ p b, f.blockAt a p = some b ∧ c ∈ b.subs

/-- Two slots of an area are joined by a pair of ports: an output in a row of one block and, in the next column and the same row, an input of
another one. -/
def Area.Joined (a : Area) (o o' : Pos) : Prop :=
  ∃ (b b' : Block) (r r' : Nat), a.blocks.lookup o = some b ∧ a.blocks.lookup o' = some b' ∧ r < b.rows ∧ r' < b'.rows ∧
    (b.outputs.getD r none).isSome = true ∧ (b'.inputs.getD r' none).isSome = true ∧
    o'.1 = o.1 + 1 ∧ o.2 + (r : Int) = o'.2 + (r' : Int)

/-- The types of a language take at least one slot. -/
def Lang.Tall (L : Lang) : Prop := ∀ s t, L s = some t → 1 ≤ t.rows

/-- A filler fit for splitting chains: it takes one slot and has no sub areas, as `"->"` in the language of `src/wblockdsp/definition.rs`. -/
def BlockType.Slim (t : BlockType) : Prop := t.rows = 1 ∧ t.areaCount ≠ 1 ∧ t.areaCount ≠ 2

/-- The use of the calls the properties hold for. Chains are split only with such fillers, and a block is not cloned into an area with a number
that this call itself is about to give out (there are at most two). -/
def World.Proper (L : Lang) (w : World) : Op → Prop
  | .split _ _ (some s) => ∀ t, L s = some t → t.Slim
  | .clone _ _ id2 _ => ¬ (w.fn.areas.length ≤ id2 ∧ id2 < w.fn.areas.length + 2)
  | _ => True

/-- The states reached by such calls. -/
inductive Reached (L : Lang) : World → Prop
  | new : Reached L World.new
  | step {w w' : World} {op : Op} {r : Except Err Unit} : Reached L w → w.Proper L op → w.step L op = some (w', r) → Reached L w'

/-- The states reached by any calls. -/
inductive AnyReached (L : Lang) : World → Prop
  | new : AnyReached L World.new
  | step {w w' : World} {op : Op} {r : Except Err Unit} : AnyReached L w → w.step L op = some (w', r) → AnyReached L w'

/-- From one state to a later one without loading a snapshot. -/
inductive Later (L : Lang) : World → World → Prop
  | refl {w : World} : Later L w w
  | step {w w' w'' : World} {op : Op} {r : Except Err Unit} : Later L w w' → w'.Proper L op → (∀ k, op ≠ .restore k) →
      w'.step L op = some (w'', r) → Later L w w''

/-- From one state to a later one by any such calls. -/
inductive Onward (L : Lang) : World → World → Prop
  | refl {w : World} : Onward L w w
  | step {w w' w'' : World} {op : Op} {r : Except Err Unit} : Onward L w w' → w'.Proper L op → w'.step L op = some (w'', r) → Onward L w w''

/-- The block at `o` of area `id` has an output in the row `y` of the area and the block at `o'`, one column to the right, an input. -/
def BlockFun.WiredAt (f : BlockFun) (id : Nat) (o o' : Pos) (y : Int) : Prop :=
  ∃ (b b' : Block) (r r' : Nat), f.blockAt id o = some b ∧ f.blockAt id o' = some b' ∧ r < b.rows ∧ r' < b'.rows ∧
    (b.outputs.getD r none).isSome = true ∧ (b'.inputs.getD r' none).isSome = true ∧
    o'.1 = o.1 + 1 ∧ o.2 + (r : Int) = y ∧ o'.2 + (r' : Int) = y

/-- The number of sub areas of a block of this type. -/
def BlockType.subCount (t : BlockType) : Nat := if t.areaCount = 1 then 1 else if t.areaCount = 2 then 2 else 0

/-- The block `b` is a new block of type `t` with the number `n`. -/
def Block.IsNew (b : Block) (t : BlockType) (lbl : String) (n : Nat) : Prop :=
  b.id = n ∧ b.typ = t.name ∧ b.lbl = lbl ∧ b.rows = t.rows ∧ b.inputs = t.inputs ∧ b.outputs = t.outputs ∧ b.color = t.color ∧ b.expanded = true

/-- The block at `o` of area `id` has an output in a row, and the block at `o'`, one column to the right, has an input in that row. -/
def BlockFun.Wired (f : BlockFun) (id : Nat) (o o' : Pos) : Prop :=
  ∃ (b b' : Block) (r r' : Nat), f.blockAt id o = some b ∧ f.blockAt id o' = some b' ∧ r < b.rows ∧ r' < b'.rows ∧
    (b.outputs.getD r none).isSome = true ∧ (b'.inputs.getD r' none).isSome = true ∧
    o'.1 = o.1 + 1 ∧ o.2 + (r : Int) = o'.2 + (r' : Int)

/-- Connected by any number of such pairs of ports, in any direction. -/
def BlockFun.Connected (f : BlockFun) (id : Nat) : Pos → Pos → Prop :=
  Relation.ReflTransGen (fun o o' => f.Wired id o o' ∨ f.Wired id o' o)

/-- The width of an area. -/
def BlockFun.width (f : BlockFun) (id : Nat) : Nat := match f.areas[id]? with
  | none => 0
  | some a => a.size.1

/-- The height of an area. -/
def BlockFun.height (f : BlockFun) (id : Nat) : Nat := match f.areas[id]? with
  | none => 0
  | some a => a.size.2

/-- All blocks and the sub areas drawn right of and below the first slot of their block fit in the width `w`. -/
def BlockFun.WideEnough (f : BlockFun) (id w : Nat) : Prop :=
  1 ≤ w ∧ (∀ q o, f.originAt id q = some o → q.1 < (w : Int)) ∧
    ∀ o b, f.blockAt id o = some b → ∀ c ∈ b.subs, max o.1 0 + (f.width c : Int) < (w : Int)

/-- The same for the height: a row for the block itself and a row above each sub area; the second sub area is below the first one. -/
def BlockFun.HighEnough (f : BlockFun) (id h : Nat) : Prop :=
  1 ≤ h ∧ (∀ q o, f.originAt id q = some o → q.2 < (h : Int)) ∧
    ∀ o b, f.blockAt id o = some b →
      (∀ c, b.contains.1 = some c → max o.2 0 + 1 + (f.height c : Int) < (h : Int)) ∧
      (∀ c, b.contains.2 = some c → b.contains.1 = none → max o.2 0 + 1 + (f.height c : Int) < (h : Int)) ∧
      (∀ c d, b.contains.2 = some c → b.contains.1 = some d →
        max o.2 0 + 1 + (f.height d : Int) + 1 + (f.height c : Int) < (h : Int))

/-- An area shrinks to what it needs. -/
def BlockFun.shrinks (f : BlockFun) (id : Nat) : Bool := match f.areas[id]? with
  | none => false
  | some a => a.autoShrink

/-- The numbers of a snapshot have the types of the code, `usize` and `i64`; numbers that are written without a conversion are below 2^63. -/
def Snapshot.Small (s : Snapshot) : Prop :=
  s.curId < 2 ^ 63 ∧ ∀ a ∈ s.areas, a.size.1 < 2 ^ 64 ∧ a.size.2 < 2 ^ 64 ∧ ∀ e ∈ a.blocks,
    (-2 ^ 63 ≤ e.1.1 ∧ e.1.1 < 2 ^ 63) ∧ (-2 ^ 63 ≤ e.1.2 ∧ e.1.2 < 2 ^ 63) ∧ e.2.id < 2 ^ 64 ∧ e.2.rows < 2 ^ 64 ∧
    (∀ c ∈ e.2.subs, c < 2 ^ 63) ∧ e.2.color < 2 ^ 63

/-- Two areas show the same. -/
def Area.Same (a b : Area) : Prop :=
  (∀ p, a.blocks.lookup p = b.blocks.lookup p) ∧ (∀ p, a.origin.lookup p = b.origin.lookup p) ∧ a.size = b.size ∧
    a.autoShrink = b.autoShrink ∧ a.header = b.header

end HexoDSP.Block
