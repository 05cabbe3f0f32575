import Verif.Model.Block
/-!
# Model of the language definition, `src/wblockdsp/definition.rs`

The library of DSP nodes is in the crate `synfx-dsp-jit`, outside the repository: any list of nodes with their port names.
-/

namespace HexoDSP.Block

/-- What is used of `synfx_dsp_jit::DSPNodeType`; `input_count` and `output_count` are the numbers of names. -/
structure DspNode where
  name : String
  inputs : List String
  outputs : List String
  stateful : Bool

/-- `src/wblockdsp/definition.rs:21-143`, `193-210`: the types defined here (category, description and user input left out). -/
def builtinTypes : List BlockType :=
  [{ name := "zero", rows := 1, inputs := [], outputs := [some ""], areaCount := 0, color := 1 },
   { name := "π", rows := 1, inputs := [], outputs := [some ""], areaCount := 0, color := 1 },
   { name := "2π", rows := 1, inputs := [], outputs := [some ""], areaCount := 0, color := 1 },
   { name := "value", rows := 1, inputs := [], outputs := [some ""], areaCount := 0, color := 1 },
   { name := "->", rows := 1, inputs := [some ""], outputs := [some ""], areaCount := 0, color := 6 },
   { name := "->2", rows := 2, inputs := [some ""], outputs := [some "", some ""], areaCount := 0, color := 6 },
   { name := "->3", rows := 3, inputs := [some ""], outputs := [some "", some "", some ""], areaCount := 0, color := 6 },
   { name := "set", rows := 1, inputs := [some ""], outputs := [], areaCount := 0, color := 2 },
   { name := "get", rows := 1, inputs := [], outputs := [some ""], areaCount := 0, color := 12 },
   { name := "if", rows := 1, inputs := [some ""], outputs := [some ""], areaCount := 2, color := 0 },
   { name := "+", rows := 2, inputs := [some "", some ""], outputs := [some ""], areaCount := 0, color := 4 },
   { name := "-", rows := 2, inputs := [some "a", some "b"], outputs := [some ""], areaCount := 0, color := 4 },
   { name := "*", rows := 2, inputs := [some "", some ""], outputs := [some ""], areaCount := 0, color := 4 },
   { name := "/", rows := 2, inputs := [some "a", some "b"], outputs := [some ""], areaCount := 0, color := 4 }]

/-- `src/wblockdsp/definition.rs:213-242`: the type of a node of the library. The names are cut to two bytes, here to two characters. -/
def DspNode.type (n : DspNode) : BlockType :=
  { name := n.name, rows := max n.inputs.length n.outputs.length, inputs := n.inputs.map (fun s => some (String.ofList (s.toList.take 2))),
    outputs := n.outputs.map (fun s => some (String.ofList (s.toList.take 2))), areaCount := 0, color := if n.stateful then 8 else 16 }

/-- `src/wblockdsp/definition.rs:16-260` `setup_hxdsp_block_language`: a type defined later replaces one with the same name. -/
def language (lib : List DspNode) : Lang := fun s => (builtinTypes ++ lib.map DspNode.type).reverse.find? (fun t => t.name == s)

end HexoDSP.Block
