import Verif.Model.NodeId
/-!
# Model of the node lists of `src/dsp/mod.rs`: categories and random nodes

The random generator `SplitMix64` of `synfx_dsp` is an arbitrary sequence of numbers.
-/

namespace HexoDSP.NodeList
open HexoDSP.Table

/-- `src/dsp/mod.rs:1788-1814` `UICategory::get_node_ids`: the rows from the one given on; the result is the list of the arguments of the calls. -/
def listFrom (cat : String) (skip : Nat) : List (Fin nodeTable.length) → List NodeId
  | [] => []
  | k :: ks =>
    if (row k).category = cat then
      if skip = 0 then .node k 0 :: listFrom cat skip ks else listFrom cat (skip - 1) ks
    else listFrom cat skip ks

/-- `src/dsp/mod.rs:1788-1814` `UICategory::get_node_ids`. -/
def getNodeIds (cat : String) (skip : Nat) : List NodeId := listFrom cat skip (List.finRange nodeTable.length)

/-- `src/dsp/mod.rs:1817-1821`. -/
inductive Selector where
  | any
  | onlyUseful

/-- `src/dsp/mod.rs:1823-1839` `rand_node_satisfies_spec`. -/
def satisfies (id : NodeId) (sel : Selector) : Bool :=
  match id with
  | .nop => false
  | .node k _ =>
    match sel with
    | .any => true
    | .onlyUseful =>
      if (row k).label = "Out" then false
      else if (row k).label = "FbRd" then false
      else if (row k).label = "Test" then false
      else if (row k).label = "Rust1x1" then false
      else true

/-- `src/dsp/mod.rs:1845-1854`: the first loop, with `fuel` rounds left and the numbers from `i` on. -/
def randLoop (rnd : Nat → Nat) (count : Nat) (sel : Selector) : (fuel i : Nat) → List NodeId → List NodeId
  | 0, _, out => out
  | fuel + 1, i, out =>
    if out.length < count then
      let cur := allNodeIds.getD (rnd i % allNodeIds.length) .nop
      randLoop rnd count sel fuel (i + 1) (if satisfies cur sel then out ++ [cur] else out)
    else out

/-- `src/dsp/mod.rs:1856-1858`: the second loop. -/
def pad (count : Nat) (out : List NodeId) : List NodeId := out ++ List.replicate (count - out.length) .nop

/-- `src/dsp/mod.rs:1841-1861` `get_rand_node_id`. -/
def getRandNodeId (rnd : Nat → Nat) (count : Nat) (sel : Selector) : List NodeId :=
  pad count (randLoop rnd count sel 100 0 [])

end HexoDSP.NodeList
