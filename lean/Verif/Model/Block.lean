import Verif.Model.Map
import Verif.Model.Json
/-!
# Model of the block language, `src/wblockdsp/language.rs`

Coordinates are `i64` in the code, here integers without bounds: overflow of coordinates is not modelled. Sizes, ids and counters are natural
numbers. The `HashMap`s are association lists (`Verif/Model/Map.lean`), the order of iteration is the order of the list. The language (a shared
`Rc<RefCell<BlockLanguage>>`, filled once by `setup_hxdsp_block_language`) is a function from names to types that does not change.
-/

namespace HexoDSP.Block
open Json

/-- A slot of an area, `(x, y)`. -/
abbrev Pos := Int × Int

/-- `src/wblockdsp/language.rs:69-92` `struct Block`. -/
structure Block where
  id : Nat
  rows : Nat
  contains : Option Nat × Option Nat
  expanded : Bool
  typ : String
  lbl : String
  inputs : List (Option String)
  outputs : List (Option String)
  color : Nat
  deriving DecidableEq

/-- `src/wblockdsp/language.rs:95-107` `clone_with_new_id`. -/
def Block.cloneWithNewId (b : Block) (id : Nat) : Block := { b with id := id }

/-- `v.resize(n, None)` if `v` is shorter. -/
def padTo (n : Nat) (v : List (Option String)) : List (Option String) := v ++ List.replicate (n - v.length) none

/-- `src/wblockdsp/language.rs:123-126`: `remove` (which panics if there is no such element) and `insert`. -/
def rotatePort (v : List (Option String)) (idx : Nat) : Option (List (Option String)) :=
  match v[idx]? with
  | none => none
  | some e => some ((v.eraseIdx idx).insertIdx ((idx + 1) % v.length) e)

/-- `src/wblockdsp/language.rs:112-127` `shift_port`. -/
def Block.shiftPort (b : Block) (idx : Nat) (output : Bool) : Option Block :=
  if b.rows ≤ 1 then some b
  else if output then (rotatePort (padTo b.rows b.outputs) idx).map (fun v => { b with outputs := v })
  else (rotatePort (padTo b.rows b.inputs) idx).map (fun v => { b with inputs := v })

/-- The rows visited by `for_input_ports`, `src/wblockdsp/language.rs:158-166`. -/
def Block.inputRows (b : Block) : List Nat := (List.range b.rows).filter (fun i => (b.inputs.getD i none).isSome)

/-- The rows visited by `for_output_ports`, `src/wblockdsp/language.rs:131-139`. -/
def Block.outputRows (b : Block) : List Nat := (List.range b.rows).filter (fun i => (b.outputs.getD i none).isSome)

/-- `src/wblockdsp/language.rs:562-568` `struct BlockArea`. -/
structure Area where
  blocks : List (Pos × Block)
  origin : List (Pos × Pos)
  size : Nat × Nat
  autoShrink : Bool
  header : String

namespace Area

/-- `src/wblockdsp/language.rs:571-579` `BlockArea::new`. -/
def new (w h : Nat) : Area := { blocks := [], origin := [], size := (w, h), autoShrink := false, header := "" }

/-- `src/wblockdsp/language.rs:874-882` `update_origin_map`. -/
def updateOrigin (a : Area) : Area :=
  { a with origin := a.blocks.foldl (fun m e => (List.range e.2.rows).foldl
      (fun (m : List (Pos × Pos)) (r : Nat) => Map.insert m (e.1.1, e.1.2 + (r : Int)) e.1) m) [] }

/-- `src/wblockdsp/language.rs:736-740` `ref_at_origin`. -/
def refAtOrigin (a : Area) (p : Pos) : Option (Block × Pos) :=
  match a.origin.lookup p with
  | none => none
  | some o => (a.blocks.lookup o).map (fun b => (b, o))

/-- `src/wblockdsp/language.rs:731-734` `ref_at`. -/
def refAt (a : Area) (p : Pos) : Option Block := (a.refAtOrigin p).map (·.1)

/-- `src/wblockdsp/language.rs:753-776` `find_port_at`. -/
def findPortAt (a : Area) (p : Pos) (expectOutput : Bool) : Option (Block × Pos × Nat) :=
  match a.refAtOrigin p with
  | none => none
  | some (b, o) =>
    let portY := (max (p.2 - o.2) 0).toNat
    if expectOutput then
      if (b.outputs.getD portY none).isSome then some (b, o, portY) else none
    else if (b.inputs.getD portY none).isSome then some (b, o, portY) else none

/-- `src/wblockdsp/language.rs:778-784` `set_blocks_from`. -/
def setBlocksFrom (a : Area) (l : List (Pos × Block)) : Area :=
  ({ a with blocks := l.foldl (fun m e => Map.insert m e.1 e.2) a.blocks } : Area).updateOrigin

/-- `src/wblockdsp/language.rs:786-789` `set_block_at`. -/
def setBlockAt (a : Area) (p : Pos) (b : Block) : Area := ({ a with blocks := Map.insert a.blocks p b } : Area).updateOrigin

/-- `src/wblockdsp/language.rs:791-800` `BlockArea::remove_at`. -/
def removeAt (a : Area) (p : Pos) : Option (Block × Pos × Area) :=
  match a.refAtOrigin p with
  | none => none
  | some (b, o) => some (b, o, ({ a with blocks := a.blocks.filter (fun e => !(e.1 == o)) } : Area).updateOrigin)

/-- `src/wblockdsp/language.rs:884-894` `check_space_at`. -/
def checkSpace (a : Area) (p : Pos) (rows : Nat) : Bool :=
  (List.range rows).all (fun i => (a.origin.lookup (p.1, p.2 + (i : Int))).isNone)

/-- `src/wblockdsp/language.rs:806-816` `get_direct_sub_areas`. -/
def directSubs (a : Area) : List Nat := a.blocks.flatMap (fun e => e.2.contains.1.toList ++ e.2.contains.2.toList)

/-- `src/wblockdsp/language.rs:821-833`: the slots in use. -/
def slotSize (a : Area) : Nat × Nat :=
  a.origin.foldl (fun s e => (max s.1 ((max e.1.1 0).toNat + 1), max s.2 ((max e.1.2 0).toNat + 1))) (1, 1)

/-- `src/wblockdsp/language.rs:835-861`: one block with the sizes of its sub areas. -/
def growFor (sub : Nat → Nat × Nat) (s : Nat × Nat) (e : Pos × Block) : Nat × Nat :=
  let x := (max e.1.1 0).toNat
  let y := (max e.1.2 0).toNat
  let (s, prevH) := match e.2.contains.1 with
    | none => (s, 1)
    | some c => ((max s.1 (x + (sub c).1 + 1), max s.2 (y + ((sub c).2 + 1) + 1)), 1 + ((sub c).2 + 1))
  match e.2.contains.2 with
  | none => s
  | some c => (max s.1 (x + (sub c).1 + 1), max s.2 (y + ((sub c).2 + prevH) + 1))

/-- `src/wblockdsp/language.rs:820-872` `resolve_size`. -/
def resolveSize (a : Area) (sub : Nat → Nat × Nat) : Nat × Nat :=
  let s := a.blocks.foldl (growFor sub) a.slotSize
  if a.autoShrink then s else (max a.size.1 s.1, max a.size.2 s.2)

/-- The list `check_port_conns` of a block, `src/wblockdsp/language.rs:621-632`. -/
def portConns (b : Block) (o : Pos) : List (Pos × Bool) :=
  b.inputRows.map (fun (i : Nat) => ((o.1 - 1, o.2 + (i : Int)), true)) ++
    b.outputRows.map (fun (i : Nat) => ((o.1 + 1, o.2 + (i : Int)), false))

/-- The loop of `src/wblockdsp/language.rs:605-650`, at most `fuel` times; the queue and the blocks found so far. The sets `sources` and `sinks`
are never read. -/
def chainLoop (a : Area) : Nat → List Pos → List Pos → List Pos
  | 0, _, found => found
  | _ + 1, [], found => found
  | fuel + 1, p :: dq, found =>
    match a.refAtOrigin p with
    | none => a.chainLoop fuel dq found
    | some (b, o) =>
      if o ∈ found then a.chainLoop fuel dq found
      else a.chainLoop fuel (dq ++ (portConns b o).filterMap (fun c => (a.findPortAt c.1 c.2).map (fun r => r.2.1))) (o :: found)

/-- A bound for the number of iterations; `chain_loop_finishes` shows that it is never reached. -/
def chainFuel (a : Area) : Nat := (a.blocks.map (fun e => 2 * e.2.rows + 1)).sum + 1

/-- `src/wblockdsp/language.rs:593-654` `chain_at`: the positions of the blocks of the chain. -/
def chainAt (a : Area) (p : Pos) : Option (List Pos) :=
  match a.refAtOrigin p with
  | none => none
  | some (_, o) => some (a.chainLoop a.chainFuel [o] [])

end Area

/-! ## `BlockChain` -/

/-- The field `load` of `BlockChain`, `src/wblockdsp/language.rs:366`. The position is put first. -/
abbrev Load := List (Pos × Block)

/-- The comparison of `src/wblockdsp/language.rs:400`. -/
def posLe (a b : Pos × Block) : Bool := decide (a.1.1 < b.1.1 ∨ (a.1.1 = b.1.1 ∧ a.1.2 ≤ b.1.2))

/-- Insertion before the first element that is not smaller. -/
def insertPos (e : Pos × Block) : Load → Load
  | [] => [e]
  | f :: l => if posLe e f then e :: f :: l else f :: insertPos e l

/-- `src/wblockdsp/language.rs:399-401` `sort_load_pos`: the stable sort of the standard library, as an insertion sort. -/
def sortLoad (l : Load) : Load := l.foldr insertPos []

/-- `src/wblockdsp/language.rs:370-376` `move_by_offs`. -/
def moveByOffs (l : Load) (xo yo : Int) : Load := l.map (fun e => ((e.1.1 + xo, e.1.2 + yo), e.2))

/-- `src/wblockdsp/language.rs:380-397` `normalize_load_pos`. -/
def normalizeLoad (l : Load) : Load × Pos :=
  let minX := l.foldl (fun m e => min m e.1.1) 100000000
  let minY := l.foldl (fun m e => min m e.1.2) 100000000
  (sortLoad (moveByOffs l (-minX) (-minY)), (minX, minY))

/-- `src/wblockdsp/language.rs:403-426` `get_connected_inputs_from_load_at_x`. -/
def connectedInputs (l : Load) (xSplit : Int) : List Pos :=
  let outs := l.flatMap (fun e => if e.1.1 = xSplit then e.2.outputRows.map (fun (r : Nat) => e.1.2 + (r : Int)) else [])
  l.flatMap (fun e =>
    if e.1.1 = xSplit + 1 then
      (e.2.inputRows.filter (fun (r : Nat) => (e.1.2 + (r : Int)) ∈ outs)).map (fun (r : Nat) => (e.1.1, e.1.2 + (r : Int)))
    else [])

/-- `src/wblockdsp/language.rs:476-486` `remove_load`. -/
def removeLoad (a : Area) (chain : List Pos) : Load × Area :=
  let r := chain.foldl (fun (s : Load × Area) p =>
    match s.2.removeAt p with
    | none => s
    | some (b, o, a) => (s.1 ++ [(o, b)], a)) ([], a)
  (sortLoad r.1, r.2)

/-- `src/wblockdsp/language.rs:529-542` `area_has_space_for_load`. -/
def hasSpaceFor (a : Area) (l : Load) (xo yo : Int) : Bool :=
  l.all (fun e => a.checkSpace (e.1.1 + xo, e.1.2 + yo) e.2.rows)

/-- `src/wblockdsp/language.rs:494-516`: the offsets that are tried. -/
def fitOffsets : List (Int × Int) :=
  [(0, 0), (0, -1), (0, -2), (0, -3), (-1, 0), (-1, -1), (-1, -2), (-1, -3), (1, 0), (1, -1), (1, -2), (1, -3),
   (0, 1), (0, 2), (0, 3), (-1, 1), (-1, 2), (-1, 3), (1, 1), (1, 2), (1, 3)]

/-- `src/wblockdsp/language.rs:493-527` `try_fit_load_into_space`: the moved load. -/
def tryFit (a : Area) (l : Load) : Option Load :=
  (fitOffsets.find? (fun o => hasSpaceFor a l o.1 o.2)).map (fun o => moveByOffs l o.1 o.2)

/-! ## Types, `BlockFun` -/

/-- `src/wblockdsp/language.rs:973-983` `struct BlockType`, what is used for making blocks. -/
structure BlockType where
  name : String
  rows : Nat
  inputs : List (Option String)
  outputs : List (Option String)
  areaCount : Nat
  color : Nat

/-- `src/wblockdsp/language.rs:1017-1020` `BlockLanguage::types`. -/
abbrev Lang := String → Option BlockType

/-- `src/wblockdsp/language.rs:986-993` `touch_contains`. -/
def BlockType.touchContains (t : BlockType) (b : Block) : Block :=
  { b with contains := match t.areaCount with
      | 0 => (none, none)
      | 1 => (some 1, none)
      | 2 => (some 1, some 1)
      | _ => (none, none) }

/-- `src/wblockdsp/language.rs:995-1013` `instanciate_block`; `id` is the number drawn from the generator. -/
def BlockType.instanciate (t : BlockType) (userInput : Option String) (id : Nat) : Block :=
  t.touchContains
    { id := id, rows := t.rows, contains := (none, none), expanded := true, typ := t.name, lbl := userInput.getD t.name,
      inputs := t.inputs, outputs := t.outputs, color := t.color }

/-- `src/wblockdsp/language.rs:1104-1110` `enum BlockDSPError`. -/
inductive Err where
  | unknownArea (id : Nat)
  | unknownLanguageType (name : String)
  | noBlockAt (id : Nat) (x y : Int)
  | circularAction (a b : Nat)
  | noSpaceAvailable (id : Nat) (x y : Int) (rows : Nat)
  deriving DecidableEq

/-- `src/wblockdsp/language.rs:1156-1163` `struct BlockFun`; the work lists are temporary. `curId` is the value of the shared counter. -/
structure BlockFun where
  areas : List Area
  curId : Nat
  generation : Nat

/-- `src/wblockdsp/language.rs:1113-1116` `struct BlockFunSnapshot`. -/
structure Snapshot where
  areas : List Area
  curId : Nat

namespace BlockFun

/-- `src/wblockdsp/language.rs:1174-1183` `BlockFun::new`. -/
def new : BlockFun := { areas := [Area.new 16 16], curId := 0, generation := 0 }

/-- `src/wblockdsp/language.rs:1779-1782` `block_at`. -/
def blockAt (f : BlockFun) (id : Nat) (p : Pos) : Option Block := (f.areas[id]?).bind (fun a => a.blocks.lookup p)

/-- `src/wblockdsp/language.rs:1784-1786` `origin_at`. -/
def originAt (f : BlockFun) (id : Nat) (p : Pos) : Option Pos := (f.areas[id]?).bind (fun a => a.origin.lookup p)

/-- `src/wblockdsp/language.rs:1193-1196` `block_ref`. -/
def blockRef (f : BlockFun) (id : Nat) (p : Pos) : Option Block := (f.areas[id]?).bind (fun a => a.refAt p)

/-- The new area of `src/wblockdsp/language.rs:1716-1718`. -/
def subArea : Area := { Area.new 1 1 with autoShrink := true }

/-- `src/wblockdsp/language.rs:1714-1728` `create_areas_for_block`. -/
def createAreas (f : BlockFun) (b : Block) : BlockFun × Block :=
  let (f, b) := match b.contains.1 with
    | none => (f, b)
    | some _ => ({ f with areas := f.areas ++ [subArea] }, { b with contains := (some f.areas.length, b.contains.2) })
  match b.contains.2 with
  | none => (f, b)
  | some _ => ({ f with areas := f.areas ++ [subArea] }, { b with contains := (b.contains.1, some f.areas.length) })

/-- `src/wblockdsp/language.rs:1730-1766` `instanciate_at`. -/
def instanciateAt (L : Lang) (f : BlockFun) (id : Nat) (p : Pos) (typ : String) (userInput : Option String) :
    BlockFun × Except Err Unit :=
  match f.areas[id]? with
  | none => (f, .error (.unknownArea id))
  | some area =>
    match L typ with
    | none => (f, .error (.unknownLanguageType typ))
    | some t =>
      if area.checkSpace p t.rows then
        let b := t.instanciate userInput (f.curId + 1)
        let (f, b) := ({ f with curId := f.curId + 1 } : BlockFun).createAreas b
        ({ f with generation := f.generation + 1, areas := f.areas.modify id (fun a => a.setBlockAt p b) }, .ok ())
      else (f, .error (.noSpaceAvailable id p.1 p.2 t.rows))

/-- `src/wblockdsp/language.rs:1768-1773` `BlockFun::remove_at`. -/
def removeAt (f : BlockFun) (id : Nat) (p : Pos) : BlockFun × Except Err Unit :=
  match f.areas[id]? with
  | none => (f, .error (.unknownArea id))
  | some area =>
    match area.removeAt p with
    | none => (f, .error (.noBlockAt id p.1 p.2))
    | some (_, _, a) => ({ f with areas := f.areas.set id a, generation := f.generation + 1 }, .ok ())

/-- `src/wblockdsp/language.rs:1489-1499`: the loop over the areas, at most `fuel` times. `none`: there is no such area (a panic), or the
number of iterations is exceeded; `sub_areas_found` shows that neither happens. -/
def subAreasLoop (areas : List Area) : Nat → List Nat → List Nat → Option (List Nat)
  | _, [], acc => some acc
  | 0, _ :: _, _ => none
  | fuel + 1, i :: dq, acc =>
    match areas[i]? with
    | none => none
    | some a => subAreasLoop areas fuel (dq ++ a.directSubs) (acc ++ [i])

/-- `src/wblockdsp/language.rs:1472-1500` `all_sub_areas_of`. -/
def allSubAreasOf (f : BlockFun) (b : Block) : Option (List Nat) :=
  subAreasLoop f.areas f.areas.length (b.contains.1.toList ++ b.contains.2.toList) []

/-- `src/wblockdsp/language.rs:1452-1470` `area_is_subarea_of`. -/
def areaIsSubareaOf (f : BlockFun) (area id : Nat) (p : Pos) : Option Bool :=
  match f.blockRef id p with
  | none => some false
  | some b => (f.allSubAreasOf b).map (fun l => decide (area ∈ l))

/-- `src/wblockdsp/language.rs:1692-1695`, `1545-1550`: the row of the destination. -/
def destY (y yo y2 : Int) : Int := if y > yo then max (y2 - (y - yo)) 0 else y2

/-- `src/wblockdsp/language.rs:1672-1712` `move_block_from_to`. -/
def moveBlock (f : BlockFun) (id : Nat) (p : Pos) (id2 : Nat) (p2 : Pos) : Option (BlockFun × Except Err Unit) :=
  match f.areaIsSubareaOf id2 id p with
  | none => none
  | some true => some (f, .error (.circularAction id id2))
  | some false =>
    match f.areas[id]? with
    | none => some (f, .error (.unknownArea id))
    | some area =>
      match area.removeAt p with
      | none => some (f, .error (.noBlockAt id p.1 p.2))
      | some (b, o, a) =>
        let f : BlockFun := { f with areas := f.areas.set id a }
        let y2 := destY p.2 o.2 p2.2
        match f.areas[id2]? with
        | none => some (f, .error (.unknownArea id2))
        | some area2 =>
          let f : BlockFun := { f with generation := f.generation + 1 }
          if area2.checkSpace (p2.1, y2) b.rows then
            some ({ f with areas := f.areas.modify id2 (fun a => a.setBlockAt (p2.1, y2) b) }, .ok ())
          else
            some ({ f with areas := f.areas.modify id (fun a => a.setBlockAt o b) },
              .error (.noSpaceAvailable id2 p2.1 y2 b.rows))

/-- `src/wblockdsp/language.rs:1521-1565` `clone_block_from_to`. -/
def cloneBlock (L : Lang) (f : BlockFun) (id : Nat) (p : Pos) (id2 : Nat) (p2 : Pos) : BlockFun × Except Err Unit :=
  match f.areas[id]? with
  | none => (f, .error (.unknownArea id))
  | some area =>
    match area.refAtOrigin p with
    | none => (f, .error (.noBlockAt id p.1 p.2))
    | some (b, o) =>
      let b := b.cloneWithNewId (f.curId + 1)
      let b := match L b.typ with
        | none => b
        | some t => t.touchContains b
      let (f, b) := ({ f with curId := f.curId + 1 } : BlockFun).createAreas b
      let y2 := destY p.2 o.2 p2.2
      match f.areas[id2]? with
      | none => (f, .error (.unknownArea id2))
      | some area2 =>
        if area2.checkSpace (p2.1, y2) b.rows then
          ({ f with areas := f.areas.modify id2 (fun a => a.setBlockAt (p2.1, y2) b), generation := f.generation + 1 }, .ok ())
        else (f, .error (.noSpaceAvailable id2 p2.1 y2 b.rows))

/-- The filler blocks of `src/wblockdsp/language.rs:450-459` with the ids after `cur`. -/
def fillers (t : BlockType) (cur : Nat) (ps : List Pos) : Load :=
  ps.zipIdx.map (fun e => (e.1, t.instanciate none (cur + 1 + e.2)))

/-- `src/wblockdsp/language.rs:435-462` `split_load_after_x`; the second result is the new value of the id counter. -/
def splitLoad (l : Load) (xSplit ySplit : Int) (filler : Option BlockType) (cur : Nat) : Load × Nat :=
  let fillerPos := connectedInputs l xSplit
  let l := l.map (fun e => if e.1.1 > xSplit then ((e.1.1 + 1, e.1.2), e.2) else e)
  match filler with
  | none => (sortLoad l, cur)
  | some t =>
    let ps := fillerPos.filter (fun q => q.2 ≠ ySplit)
    (sortLoad (l ++ fillers t cur ps), cur + ps.length)

/-- `src/wblockdsp/language.rs:1567-1603` `split_block_chain_after`. -/
def splitChain (L : Lang) (f : BlockFun) (id : Nat) (p : Pos) (filler : Option String) : BlockFun × Except Err Unit :=
  match f.areas[id]? with
  | none => (f, .error (.unknownArea id))
  | some area =>
    match area.chainAt p with
    | none => (f, .error (.noBlockAt id p.1 p.2))
    | some chain =>
      let (load, a) := removeLoad area chain
      let typ : Except Err (Option BlockType) := match filler with
        | none => .ok none
        | some s => match L s with
          | none => .error (.unknownLanguageType s)
          | some t => .ok (some t)
      match typ with
      | .error e => (f, .error e)
      | .ok typ =>
        let (load, cur) := splitLoad load p.1 p.2 typ f.curId
        let f : BlockFun := { f with curId := cur }
        if hasSpaceFor a load 0 0 then
          ({ f with areas := f.areas.set id (a.setBlocksFrom load), generation := f.generation + 1 }, .ok ())
        else (f, .error (.noSpaceAvailable id p.1 p.2 0))

/-- `src/wblockdsp/language.rs:544-558` `area_is_subarea_of_loaded`. -/
def areaIsSubareaOfLoaded (f : BlockFun) (area : Nat) (l : Load) : Option Bool :=
  (l.mapM (fun e => f.allSubAreasOf e.2)).map (fun ls => decide (area ∈ ls.flatten))

/-- `src/wblockdsp/language.rs:1605-1670` `move_block_chain_from_to`. -/
def moveChain (f : BlockFun) (id : Nat) (p : Pos) (id2 : Nat) (p2 : Pos) : Option (BlockFun × Except Err Unit) :=
  match f.areas[id]? with
  | none => some (f, .error (.unknownArea id))
  | some area =>
    match area.chainAt p with
    | none => some (f, .error (.noBlockAt id p.1 p.2))
    | some chain =>
      let (load, a) := removeLoad area chain
      let f : BlockFun := { f with generation := f.generation + 1 }
      if id2 = id then
        match tryFit a (moveByOffs load (p2.1 - p.1) (p2.2 - p.2)) with
        | none => some (f, .error (.noSpaceAvailable id p2.1 p2.2 0))
        | some load =>
          some ({ f with areas := f.areas.set id (a.setBlocksFrom load), generation := f.generation + 1 }, .ok ())
      else
        match f.areaIsSubareaOfLoaded id2 load with
        | none => none
        | some true => some (f, .error (.circularAction id id2))
        | some false =>
          let (load, o) := normalizeLoad load
          let load := moveByOffs load (max (o.1 - p.1 + p2.1) 0) (max (o.2 - p.2 + p2.2) 0)
          match f.areas[id2]? with
          | none => some (f, .error (.unknownArea id))
          | some area2 =>
            match tryFit area2 load with
            | none => some (f, .error (.noSpaceAvailable id p2.1 p2.2 1))
            | some load =>
              some ({ f with areas := (f.areas.set id a).set id2 (area2.setBlocksFrom load), generation := f.generation + 1 },
                .ok ())

/-- `src/wblockdsp/language.rs:1502-1519` `retrieve_block_chain_at`; `src/wblockdsp/language.rs:464-474` `clone_load` draws one id for each
block. The chain handed out is not part of the program any more and is left out. -/
def retrieveChain (f : BlockFun) (id : Nat) (p : Pos) (remove : Bool) : BlockFun :=
  match f.areas[id]? with
  | none => f
  | some area =>
    match area.chainAt p with
    | none => f
    | some chain =>
      if remove then { f with areas := f.areas.set id (removeLoad area chain).2 }
      else { f with curId := f.curId + (chain.filter (fun q => (area.refAtOrigin q).isSome)).length }

/-- `src/wblockdsp/language.rs:1203-1208` `BlockFun::shift_port`. -/
def shiftPort (f : BlockFun) (id : Nat) (p : Pos) (row : Nat) (output : Bool) : Option BlockFun :=
  match f.areas[id]? with
  | none => some f
  | some area =>
    match area.refAtOrigin p with
    | none => some f
    | some (b, o) =>
      (b.shiftPort row output).map (fun b =>
        { f with areas := f.areas.set id { area with blocks := Map.insert area.blocks o b }, generation := f.generation + 1 })

/-! ### `recalculate_area_sizes`, `src/wblockdsp/language.rs:1388-1450` -/

/-- The first loop, `1405-1424`, at most `fuel` times: the stack (its top first), the parents, the sizes and the list of leaves. `none`: there
is no such area (a panic) or the number of iterations is exceeded. -/
def diveLoop (areas : List Area) : Nat → List Nat → (Nat → Nat) → (Nat → Nat × Nat) → List Nat →
    Option ((Nat → Nat) × (Nat → Nat × Nat) × List Nat)
  | _, [], parents, sizes, leaves => some (parents, sizes, leaves)
  | 0, _ :: _, _, _, _ => none
  | fuel + 1, i :: stack, parents, sizes, leaves =>
    match areas[i]? with
    | none => none
    | some a =>
      let sizes := fun j => if j = i then a.resolveSize (fun _ => (0, 0)) else sizes j
      if a.directSubs = [] then diveLoop areas fuel stack parents sizes (i :: leaves)
      else if a.directSubs.all (fun s => decide (s < areas.length)) then
        diveLoop areas fuel (a.directSubs.reverse ++ stack) (fun j => if j ∈ a.directSubs then i else parents j) sizes leaves
      else none

/-- The second loop, `1436-1449`, at most `fuel` times. -/
def climbLoop : Nat → List Nat → (Nat → Nat) → (Nat → Nat × Nat) → List Area → Option (List Area)
  | _, [], _, _, areas => some areas
  | 0, _ :: _, _, _, _ => none
  | fuel + 1, i :: queue, parents, sizes, areas =>
    match areas[i]? with
    | none => none
    | some a =>
      let s := a.resolveSize sizes
      climbLoop fuel (if i > 0 then queue ++ [parents i] else queue) parents (fun j => if j = i then s else sizes j)
        (areas.set i { a with size := s })

/-- `src/wblockdsp/language.rs:1388-1450` `recalculate_area_sizes`. The bounds are not reached, see `recalculate_terminates`. -/
def recalculate (f : BlockFun) : Option BlockFun :=
  match diveLoop f.areas f.areas.length [0] (fun _ => 0) (fun _ => (0, 0)) [] with
  | none => none
  | some (parents, sizes, leaves) =>
    (climbLoop (f.areas.length * f.areas.length) leaves parents sizes f.areas).map (fun as => { f with areas := as })

/-- `src/wblockdsp/language.rs:1210-1215` `save_snapshot`. -/
def saveSnapshot (f : BlockFun) : Snapshot := { areas := f.areas, curId := f.curId }

/-- `src/wblockdsp/language.rs:1217-1222` `load_snapshot`. -/
def loadSnapshot (f : BlockFun) (s : Snapshot) : Option BlockFun :=
  ({ f with areas := s.areas, curId := s.curId } : BlockFun).recalculate.map
    (fun f => { f with generation := f.generation + 1 })

end BlockFun

/-! ## Histories -/

/-- A program and the snapshots taken of it so far. -/
structure World where
  fn : BlockFun
  saved : List Snapshot

/-- The calls that change a program. -/
inductive Op where
  | instanciate (id : Nat) (p : Pos) (typ : String) (userInput : Option String)
  | remove (id : Nat) (p : Pos)
  | move (id : Nat) (p : Pos) (id2 : Nat) (p2 : Pos)
  | clone (id : Nat) (p : Pos) (id2 : Nat) (p2 : Pos)
  | split (id : Nat) (p : Pos) (filler : Option String)
  | moveChain (id : Nat) (p : Pos) (id2 : Nat) (p2 : Pos)
  | retrieve (id : Nat) (p : Pos) (remove : Bool)
  | shiftPort (id : Nat) (p : Pos) (row : Nat) (output : Bool)
  | recalculate
  | save
  | restore (k : Nat)

/-- One call; `none` is a panic or a call that does not return. The result of the call, if it has one. `restore k` loads the snapshot number
`k` of those taken, nothing happens if there is none. -/
def World.step (L : Lang) (w : World) : Op → Option (World × Except Err Unit)
  | .instanciate id p typ ui => let r := w.fn.instanciateAt L id p typ ui; some ({ w with fn := r.1 }, r.2)
  | .remove id p => let r := w.fn.removeAt id p; some ({ w with fn := r.1 }, r.2)
  | .move id p id2 p2 => (w.fn.moveBlock id p id2 p2).map (fun r => ({ w with fn := r.1 }, r.2))
  | .clone id p id2 p2 => let r := w.fn.cloneBlock L id p id2 p2; some ({ w with fn := r.1 }, r.2)
  | .split id p filler => let r := w.fn.splitChain L id p filler; some ({ w with fn := r.1 }, r.2)
  | .moveChain id p id2 p2 => (w.fn.moveChain id p id2 p2).map (fun r => ({ w with fn := r.1 }, r.2))
  | .retrieve id p remove => some ({ w with fn := w.fn.retrieveChain id p remove }, .ok ())
  | .shiftPort id p row output => (w.fn.shiftPort id p row output).map (fun f => ({ w with fn := f }, .ok ()))
  | .recalculate => w.fn.recalculate.map (fun f => ({ w with fn := f }, .ok ()))
  | .save => some ({ w with saved := w.saved ++ [w.fn.saveSnapshot] }, .ok ())
  | .restore k =>
    match w.saved[k]? with
    | none => some (w, .ok ())
    | some s => (w.fn.loadSnapshot s).map (fun f => ({ w with fn := f }, .ok ()))

/-- A new program. -/
def World.new : World := { fn := BlockFun.new, saved := [] }

/-- A history. -/
def World.run (L : Lang) (w : World) (ops : List Op) : Option World :=
  ops.foldlM (fun w op => (w.step L op).map (fun r => r.1)) w

/-! ## Documents, `serialize` and `deserialize` -/

variable {F : Type}

/-- `src/wblockdsp/language.rs:182-212` `Block::serialize`. -/
def Block.serialize (b : Block) : Value F :=
  let c : Option Nat → Value F := fun o => match o with
    | some n => .int n
    | none => .null
  .obj [("id", .int (usizeAsI64 b.id)), ("rows", .int (usizeAsI64 b.rows)), ("contains", .arr [c b.contains.1, c b.contains.2]),
    ("expanded", .bool b.expanded), ("typ", .str b.typ), ("lbl", .str b.lbl), ("color", .int b.color),
    ("inputs", .arr (b.inputs.map ofOptStr)), ("outputs", .arr (b.outputs.map ofOptStr))]

/-- `v.as_i64().unwrap_or(0) as usize` -/
def usizeOf (v : Value F) : Nat := i64AsUsize (v.asI64.getD 0)

/-- `src/wblockdsp/language.rs:215-263` `Block::deserialize`. -/
def Block.deserialize (v : Value F) : Block :=
  let c : Value F → Option Nat := fun v => v.asI64.map i64AsUsize
  { id := usizeOf (v.key "id"), rows := usizeOf (v.key "rows"),
    contains := (c ((v.key "contains").at 0), c ((v.key "contains").at 1)),
    expanded := (v.key "expanded").asBool.getD true, typ := (v.key "typ").asStr.getD "?", lbl := (v.key "lbl").asStr.getD "?",
    inputs := (v.key "inputs").elems.map Value.asStr, outputs := (v.key "outputs").elems.map Value.asStr,
    color := usizeOf (v.key "color") }

/-- `src/wblockdsp/language.rs:898-919` `BlockArea::serialize`. -/
def Area.serialize (a : Area) : Value F :=
  .obj [("size", .arr [.int (usizeAsI64 a.size.1), .int (usizeAsI64 a.size.2)]), ("header", .str a.header),
    ("auto_shrink", .bool a.autoShrink),
    ("blocks", .arr (a.blocks.map (fun e => .obj [("x", .int e.1.1), ("y", .int e.1.2), ("block", e.2.serialize)])))]

/-- `src/wblockdsp/language.rs:923-948` `BlockArea::deserialize`. -/
def Area.deserialize (v : Value F) : Area :=
  ({ blocks := (v.key "blocks").elems.foldl (fun m b =>
       Map.insert m ((b.key "x").asI64.getD 0, (b.key "y").asI64.getD 0) (Block.deserialize (b.key "block"))) []
     origin := []
     size := (usizeOf ((v.key "size").at 0), usizeOf ((v.key "size").at 1))
     autoShrink := (v.key "auto_shrink").asBool.getD true
     header := (v.key "header").asStr.getD "" } : Area).updateOrigin

/-- `src/wblockdsp/language.rs:1119-1136` `BlockFunSnapshot::serialize`. -/
def Snapshot.serialize (s : Snapshot) : Value F :=
  .obj [("VERSION", .int 1), ("current_block_id_counter", .int s.curId), ("areas", .arr (s.areas.map Area.serialize))]

/-- `src/wblockdsp/language.rs:1138-1152` `BlockFunSnapshot::deserialize`. -/
def Snapshot.deserialize (v : Value F) : Snapshot :=
  { areas := (v.key "areas").elems.map Area.deserialize, curId := usizeOf (v.key "current_block_id_counter") }

end HexoDSP.Block
