import Mathlib.Data.Rat.Defs
/-!
# The node table, `src/dsp/mod.rs:1420-1784` `node_list!`

A transcription of the table, row by row (made with a script that parses the macro text). The column `steps` is left out: it only concerns the
display. The columns with the format functions are in `Model/Format.lean` and `Model/SettingNames.lean`. Numbers are the decimal literals of the source as rationals.
-/

namespace HexoDSP.Table

/-- The normalisation functions `n_*` and, under the same name, the denormalisation functions `d_*` of `src/dsp/mod.rs:939-1092,1385-1402`. Some
rows use `n_id` in the place of a denormalisation function; it is the same macro as `d_id` (`939-948`). -/
inductive Curve where
  | id | vol | gain | driv | declick | env | lfot | time | ftme | timz | vps | pit | det
  deriving DecidableEq

/-- The rounding functions `r_*`, `src/dsp/mod.rs:1076-1281`. -/
inductive Round where
  | id | vol | gain | driv | det | s | dc_ms | ems | tms | fms | tmz | fq | vps | lfot
  deriving DecidableEq

/-- `($in_idx $para $n_fun $d_fun $r_fun … $min, $max, $def)` -/
structure ParamRow where
  idx : Nat
  name : String
  n : Curve
  d : Curve
  r : Round
  min : Rat
  max : Rat
  dflt : Rat
  deriving DecidableEq

/-- `$at_fun($at_init)`: the constructor of the default value of an atom. -/
inductive AtomInit where
  | setting (v : Int)
  | param (v : Rat)
  | audioUnloaded (s : String)
  deriving DecidableEq

/-- `{$in_at_idx $at_idx $atom $at_fun($at_init) $at_ui … $amin $amax}` -/
structure AtomRow where
  inIdx : Nat
  atIdx : Nat
  name : String
  init : AtomInit
  ui : String
  min : Int
  max : Int
  deriving DecidableEq

/-- `[$out_idx $out]` -/
structure OutRow where
  idx : Nat
  name : String
  deriving DecidableEq

/-- `$str => $variant UIType::… UICategory::$ui_cat …` -/
structure NodeRow where
  name : String
  label : String
  category : String
  params : List ParamRow
  atoms : List AtomRow
  outs : List OutRow
  deriving DecidableEq

/-- `src/dsp/mod.rs:1423-1431` -/
def row_amp : NodeRow where
  name := "amp"
  label := "Amp"
  category := "Signal"
  params := [
    ⟨0, "inp", .id, .id, .id, (-1), 1, 0⟩,
    ⟨1, "gain", .gain, .gain, .gain, 0, 1, 1⟩,
    ⟨2, "att", .id, .id, .id, 0, 1, 1⟩]
  atoms := [
    ⟨3, 0, "neg_att", .setting 1, "mode", 0, 1⟩]
  outs := [⟨0, "sig"⟩]

/-- `src/dsp/mod.rs:1432-1440` -/
def row_mix3 : NodeRow where
  name := "mix3"
  label := "Mix3"
  category := "NtoM"
  params := [
    ⟨0, "ch1", .id, .id, .id, (-1), 1, 0⟩,
    ⟨1, "ch2", .id, .id, .id, (-1), 1, 0⟩,
    ⟨2, "ch3", .id, .id, .id, (-1), 1, 0⟩,
    ⟨3, "vol1", .vol, .vol, .vol, 0, 1, 1⟩,
    ⟨4, "vol2", .vol, .vol, .vol, 0, 1, 1⟩,
    ⟨5, "vol3", .vol, .vol, .vol, 0, 1, 1⟩,
    ⟨6, "ovol", .vol, .vol, .vol, 0, 1, 1⟩]
  atoms := []
  outs := [⟨0, "sig"⟩]

/-- `src/dsp/mod.rs:1441-1456` -/
def row_mux9 : NodeRow where
  name := "mux9"
  label := "Mux9"
  category := "NtoM"
  params := [
    ⟨0, "slct", .id, .id, .id, 0, 1, 0⟩,
    ⟨1, "t_rst", .id, .id, .id, (-1), 1, 0⟩,
    ⟨2, "t_up", .id, .id, .id, (-1), 1, 0⟩,
    ⟨3, "t_down", .id, .id, .id, (-1), 1, 0⟩,
    ⟨4, "in_1", .id, .id, .id, (-1), 1, 0⟩,
    ⟨5, "in_2", .id, .id, .id, (-1), 1, 0⟩,
    ⟨6, "in_3", .id, .id, .id, (-1), 1, 0⟩,
    ⟨7, "in_4", .id, .id, .id, (-1), 1, 0⟩,
    ⟨8, "in_5", .id, .id, .id, (-1), 1, 0⟩,
    ⟨9, "in_6", .id, .id, .id, (-1), 1, 0⟩,
    ⟨10, "in_7", .id, .id, .id, (-1), 1, 0⟩,
    ⟨11, "in_8", .id, .id, .id, (-1), 1, 0⟩,
    ⟨12, "in_9", .id, .id, .id, (-1), 1, 0⟩]
  atoms := [
    ⟨13, 0, "in_cnt", .setting 3, "mode", 0, 8⟩]
  outs := [⟨0, "sig"⟩]

/-- `src/dsp/mod.rs:1457-1463` -/
def row_smap : NodeRow where
  name := "smap"
  label := "SMap"
  category := "Ctrl"
  params := [
    ⟨0, "inp", .id, .id, .id, (-1), 1, 0⟩,
    ⟨1, "min", .id, .id, .s, (-1), 1, (-1)⟩,
    ⟨2, "max", .id, .id, .s, (-1), 1, 1⟩]
  atoms := [
    ⟨3, 1, "mode", .setting 0, "mode", 0, 3⟩,
    ⟨4, 0, "clip", .setting 0, "mode", 0, 1⟩]
  outs := [⟨0, "sig"⟩]

/-- `src/dsp/mod.rs:1464-1473` -/
def row_map : NodeRow where
  name := "map"
  label := "Map"
  category := "Ctrl"
  params := [
    ⟨0, "inp", .id, .id, .id, (-1), 1, 0⟩,
    ⟨1, "atv", .id, .id, .id, (-1), 1, 1⟩,
    ⟨2, "offs", .id, .id, .s, (-1), 1, 0⟩,
    ⟨3, "imin", .id, .id, .s, (-1), 1, (-1)⟩,
    ⟨4, "imax", .id, .id, .s, (-1), 1, 1⟩,
    ⟨5, "min", .id, .id, .s, (-1), 1, (-1)⟩,
    ⟨6, "max", .id, .id, .s, (-1), 1, 1⟩]
  atoms := [
    ⟨7, 0, "clip", .setting 0, "mode", 0, 1⟩]
  outs := [⟨0, "sig"⟩]

/-- `src/dsp/mod.rs:1474-1479` -/
def row_quant : NodeRow where
  name := "quant"
  label := "Quant"
  category := "Ctrl"
  params := [
    ⟨0, "freq", .pit, .pit, .id, (-1), (5647131/10000000), 440⟩,
    ⟨1, "oct", .id, .id, .s, (-1), 1, 0⟩]
  atoms := [
    ⟨2, 0, "keys", .setting 0, "keys", 0, 0⟩]
  outs := [⟨0, "sig"⟩, ⟨1, "t"⟩]

/-- `src/dsp/mod.rs:1480-1487` -/
def row_cqnt : NodeRow where
  name := "cqnt"
  label := "CQnt"
  category := "Ctrl"
  params := [
    ⟨0, "inp", .id, .id, .id, 0, 1, 0⟩,
    ⟨1, "oct", .id, .id, .s, (-1), 1, 0⟩]
  atoms := [
    ⟨2, 0, "keys", .setting 0, "keys", 0, 0⟩,
    ⟨3, 1, "omin", .setting 0, "mode", 0, 4⟩,
    ⟨4, 2, "omax", .setting 0, "mode", 0, 4⟩]
  outs := [⟨0, "sig"⟩, ⟨1, "t"⟩]

/-- `src/dsp/mod.rs:1488-1503` -/
def row_tseq : NodeRow where
  name := "tseq"
  label := "TSeq"
  category := "Mod"
  params := [
    ⟨0, "clock", .id, .id, .id, 0, 1, 0⟩,
    ⟨1, "trig", .id, .id, .id, (-1), 1, 0⟩]
  atoms := [
    ⟨2, 0, "cmode", .setting 1, "mode", 0, 2⟩]
  outs := [⟨0, "trk1"⟩, ⟨1, "trk2"⟩, ⟨2, "trk3"⟩, ⟨3, "trk4"⟩, ⟨4, "trk5"⟩, ⟨5, "trk6"⟩, ⟨6, "gat1"⟩, ⟨7, "gat2"⟩, ⟨8, "gat3"⟩, ⟨9, "gat4"⟩, ⟨10, "gat5"⟩, ⟨11, "gat6"⟩]

/-- `src/dsp/mod.rs:1504-1513` -/
def row_code : NodeRow where
  name := "code"
  label := "Code"
  category := "Signal"
  params := [
    ⟨0, "in1", .id, .id, .id, (-1), 1, 0⟩,
    ⟨1, "in2", .id, .id, .id, (-1), 1, 0⟩,
    ⟨2, "alpha", .id, .id, .id, (-1), 1, 0⟩,
    ⟨3, "beta", .id, .id, .id, (-1), 1, 0⟩,
    ⟨4, "delta", .id, .id, .id, (-1), 1, 0⟩,
    ⟨5, "gamma", .id, .id, .id, (-1), 1, 0⟩]
  atoms := []
  outs := [⟨0, "sig"⟩, ⟨1, "sig1"⟩, ⟨2, "sig2"⟩]

/-- `src/dsp/mod.rs:1514-1520` -/
def row_rust1x1 : NodeRow where
  name := "rust1x1"
  label := "Rust1x1"
  category := "Signal"
  params := [
    ⟨0, "inp", .id, .id, .id, (-1), 1, 0⟩,
    ⟨1, "alpha", .id, .id, .id, (-1), 1, 0⟩,
    ⟨2, "beta", .id, .id, .id, (-1), 1, 0⟩,
    ⟨3, "delta", .id, .id, .id, (-1), 1, 0⟩,
    ⟨4, "gamma", .id, .id, .id, (-1), 1, 0⟩]
  atoms := []
  outs := [⟨0, "sig"⟩]

/-- `src/dsp/mod.rs:1521-1532` -/
def row_sampl : NodeRow where
  name := "sampl"
  label := "Sampl"
  category := "Osc"
  params := [
    ⟨0, "freq", .pit, .pit, .fq, (-1), (564713133/1000000000), 440⟩,
    ⟨1, "trig", .id, .id, .id, (-1), 1, 0⟩,
    ⟨2, "offs", .id, .id, .id, 0, 1, 0⟩,
    ⟨3, "len", .id, .id, .id, 0, 1, 1⟩,
    ⟨4, "dcms", .declick, .declick, .dc_ms, 0, 1, 3⟩,
    ⟨5, "det", .det, .det, .det, (-1/5), (1/5), 0⟩]
  atoms := [
    ⟨6, 0, "sample", .audioUnloaded "", "sample", 0, 0⟩,
    ⟨7, 1, "pmode", .setting 0, "mode", 0, 1⟩,
    ⟨8, 2, "dclick", .setting 0, "mode", 0, 1⟩,
    ⟨9, 3, "dir", .setting 0, "mode", 0, 1⟩]
  outs := [⟨0, "sig"⟩]

/-- `src/dsp/mod.rs:1536-1540` -/
def row_sin : NodeRow where
  name := "sin"
  label := "Sin"
  category := "Osc"
  params := [
    ⟨0, "freq", .pit, .pit, .fq, (-1), (5647131/10000000), 440⟩,
    ⟨1, "det", .det, .det, .det, (-1/5), (1/5), 0⟩,
    ⟨2, "pm", .id, .id, .id, (-1), 1, 0⟩]
  atoms := []
  outs := [⟨0, "sig"⟩]

/-- `src/dsp/mod.rs:1541-1546` -/
def row_bosc : NodeRow where
  name := "bosc"
  label := "BOsc"
  category := "Osc"
  params := [
    ⟨0, "freq", .pit, .pit, .fq, (-1), (5647131/10000000), 440⟩,
    ⟨1, "det", .det, .det, .det, (-1/5), (1/5), 0⟩,
    ⟨2, "pw", .id, .id, .id, 0, 1, (1/2)⟩]
  atoms := [
    ⟨3, 0, "wtype", .setting 0, "mode", 0, 4⟩]
  outs := [⟨0, "sig"⟩]

/-- `src/dsp/mod.rs:1547-1556` -/
def row_vosc : NodeRow where
  name := "vosc"
  label := "VOsc"
  category := "Osc"
  params := [
    ⟨0, "freq", .pit, .pit, .fq, (-1), (5647131/10000000), 440⟩,
    ⟨1, "det", .det, .det, .det, (-1/5), (1/5), 0⟩,
    ⟨2, "d", .id, .id, .id, 0, 1, (1/2)⟩,
    ⟨3, "v", .id, .id, .id, 0, 1, (1/2)⟩,
    ⟨4, "vs", .vps, .vps, .vps, 0, 1, 0⟩,
    ⟨5, "damt", .id, .id, .id, 0, 1, 0⟩]
  atoms := [
    ⟨6, 0, "dist", .setting 0, "mode", 0, 3⟩,
    ⟨7, 1, "ovrsmpl", .setting 1, "mode", 0, 1⟩]
  outs := [⟨0, "sig"⟩]

/-- `src/dsp/mod.rs:1557-1563` -/
def row_bowstri : NodeRow where
  name := "bowstri"
  label := "BowStri"
  category := "Osc"
  params := [
    ⟨0, "freq", .pit, .pit, .fq, (-1), (5647131/10000000), 440⟩,
    ⟨1, "det", .det, .det, .det, (-1/5), (1/5), 0⟩,
    ⟨2, "vel", .id, .id, .id, 0, 1, (1/2)⟩,
    ⟨3, "force", .id, .id, .id, 0, 1, (1/2)⟩,
    ⟨4, "pos", .id, .id, .id, 0, 1, (1/2)⟩]
  atoms := []
  outs := [⟨0, "sig"⟩]

/-- `src/dsp/mod.rs:1564-1571` -/
def row_midip : NodeRow where
  name := "midip"
  label := "MidiP"
  category := "IOUtil"
  params := [
    ⟨0, "det", .det, .det, .det, (-1/5), (1/5), 0⟩,
    ⟨1, "glen", .lfot, .lfot, .lfot, 0, 1, 250⟩]
  atoms := [
    ⟨2, 0, "chan", .setting 0, "mode", 0, 15⟩,
    ⟨3, 1, "gmode", .setting 0, "mode", 0, 2⟩]
  outs := [⟨0, "freq"⟩, ⟨1, "gate"⟩, ⟨2, "vel"⟩]

/-- `src/dsp/mod.rs:1572-1580` -/
def row_midicc : NodeRow where
  name := "midicc"
  label := "MidiCC"
  category := "IOUtil"
  params := [
    ⟨0, "slew", .timz, .timz, .tmz, 0, 1, 0⟩]
  atoms := [
    ⟨1, 0, "chan", .setting 0, "mode", 0, 15⟩,
    ⟨2, 1, "cc1", .setting 0, "mode", 0, 127⟩,
    ⟨3, 2, "cc2", .setting 0, "mode", 0, 127⟩,
    ⟨4, 3, "cc3", .setting 0, "mode", 0, 127⟩]
  outs := [⟨0, "sig1"⟩, ⟨1, "sig2"⟩, ⟨2, "sig3"⟩]

/-- `src/dsp/mod.rs:1581-1588` -/
def row_exta : NodeRow where
  name := "exta"
  label := "ExtA"
  category := "IOUtil"
  params := [
    ⟨0, "slew", .timz, .timz, .tmz, 0, 1, 0⟩,
    ⟨1, "atv1", .id, .id, .id, (-1), 1, 1⟩,
    ⟨2, "atv2", .id, .id, .id, (-1), 1, 1⟩,
    ⟨3, "atv3", .id, .id, .id, (-1), 1, 1⟩]
  atoms := []
  outs := [⟨0, "sig1"⟩, ⟨1, "sig2"⟩, ⟨2, "sig3"⟩]

/-- `src/dsp/mod.rs:1589-1596` -/
def row_extb : NodeRow where
  name := "extb"
  label := "ExtB"
  category := "IOUtil"
  params := [
    ⟨0, "slew", .timz, .timz, .tmz, 0, 1, 0⟩,
    ⟨1, "atv1", .id, .id, .id, (-1), 1, 1⟩,
    ⟨2, "atv2", .id, .id, .id, (-1), 1, 1⟩,
    ⟨3, "atv3", .id, .id, .id, (-1), 1, 1⟩]
  atoms := []
  outs := [⟨0, "sig1"⟩, ⟨1, "sig2"⟩, ⟨2, "sig3"⟩]

/-- `src/dsp/mod.rs:1597-1604` -/
def row_extc : NodeRow where
  name := "extc"
  label := "ExtC"
  category := "IOUtil"
  params := [
    ⟨0, "slew", .timz, .timz, .tmz, 0, 1, 0⟩,
    ⟨1, "atv1", .id, .id, .id, (-1), 1, 1⟩,
    ⟨2, "atv2", .id, .id, .id, (-1), 1, 1⟩,
    ⟨3, "atv3", .id, .id, .id, (-1), 1, 1⟩]
  atoms := []
  outs := [⟨0, "sig1"⟩, ⟨1, "sig2"⟩, ⟨2, "sig3"⟩]

/-- `src/dsp/mod.rs:1605-1612` -/
def row_extd : NodeRow where
  name := "extd"
  label := "ExtD"
  category := "IOUtil"
  params := [
    ⟨0, "slew", .timz, .timz, .tmz, 0, 1, 0⟩,
    ⟨1, "atv1", .id, .id, .id, (-1), 1, 1⟩,
    ⟨2, "atv2", .id, .id, .id, (-1), 1, 1⟩,
    ⟨3, "atv3", .id, .id, .id, (-1), 1, 1⟩]
  atoms := []
  outs := [⟨0, "sig1"⟩, ⟨1, "sig2"⟩, ⟨2, "sig3"⟩]

/-- `src/dsp/mod.rs:1613-1620` -/
def row_exte : NodeRow where
  name := "exte"
  label := "ExtE"
  category := "IOUtil"
  params := [
    ⟨0, "slew", .timz, .timz, .tmz, 0, 1, 0⟩,
    ⟨1, "atv1", .id, .id, .id, (-1), 1, 1⟩,
    ⟨2, "atv2", .id, .id, .id, (-1), 1, 1⟩,
    ⟨3, "atv3", .id, .id, .id, (-1), 1, 1⟩]
  atoms := []
  outs := [⟨0, "sig1"⟩, ⟨1, "sig2"⟩, ⟨2, "sig3"⟩]

/-- `src/dsp/mod.rs:1621-1628` -/
def row_extf : NodeRow where
  name := "extf"
  label := "ExtF"
  category := "IOUtil"
  params := [
    ⟨0, "slew", .timz, .timz, .tmz, 0, 1, 0⟩,
    ⟨1, "atv1", .id, .id, .id, (-1), 1, 1⟩,
    ⟨2, "atv2", .id, .id, .id, (-1), 1, 1⟩,
    ⟨3, "atv3", .id, .id, .id, (-1), 1, 1⟩]
  atoms := []
  outs := [⟨0, "sig1"⟩, ⟨1, "sig2"⟩, ⟨2, "sig3"⟩]

/-- `src/dsp/mod.rs:1629-1632` -/
def row_inp : NodeRow where
  name := "inp"
  label := "Inp"
  category := "IOUtil"
  params := [
    ⟨0, "vol", .vol, .vol, .vol, 0, 1, 1⟩]
  atoms := []
  outs := [⟨0, "sig1"⟩, ⟨1, "sig2"⟩]

/-- `src/dsp/mod.rs:1633-1642` -/
def row_out : NodeRow where
  name := "out"
  label := "Out"
  category := "IOUtil"
  params := [
    ⟨0, "ch1", .id, .id, .id, (-1), 1, 0⟩,
    ⟨1, "ch2", .id, .id, .id, (-1), 1, 0⟩,
    ⟨2, "vol", .vol, .vol, .vol, 0, 1, 1⟩]
  atoms := [
    ⟨3, 0, "mono", .setting 0, "mode", 0, 1⟩]
  outs := []

/-- `src/dsp/mod.rs:1643-1644` -/
def row_fbwr : NodeRow where
  name := "fbwr"
  label := "FbWr"
  category := "IOUtil"
  params := [
    ⟨0, "inp", .id, .id, .id, (-1), 1, 0⟩]
  atoms := []
  outs := []

/-- `src/dsp/mod.rs:1645-1647` -/
def row_fbrd : NodeRow where
  name := "fbrd"
  label := "FbRd"
  category := "IOUtil"
  params := [
    ⟨0, "vol", .vol, .vol, .vol, 0, 1, 1⟩]
  atoms := []
  outs := [⟨0, "sig"⟩]

/-- `src/dsp/mod.rs:1648-1661` -/
def row_scope : NodeRow where
  name := "scope"
  label := "Scope"
  category := "IOUtil"
  params := [
    ⟨0, "in1", .id, .id, .id, (-1), 1, 0⟩,
    ⟨1, "in2", .id, .id, .id, (-1), 1, 0⟩,
    ⟨2, "in3", .id, .id, .id, (-1), 1, 0⟩,
    ⟨3, "time", .lfot, .lfot, .lfot, 0, 1, 1000⟩,
    ⟨4, "trig", .id, .id, .id, (-1), 1, 0⟩,
    ⟨5, "thrsh", .id, .id, .id, (-1), 1, 0⟩,
    ⟨6, "off1", .id, .id, .id, (-1), 1, 0⟩,
    ⟨7, "off2", .id, .id, .id, (-1), 1, 0⟩,
    ⟨8, "off3", .id, .id, .id, (-1), 1, 0⟩,
    ⟨9, "gain1", .gain, .gain, .gain, 0, 1, 1⟩,
    ⟨10, "gain2", .gain, .gain, .gain, 0, 1, 1⟩,
    ⟨11, "gain3", .gain, .gain, .gain, 0, 1, 1⟩]
  atoms := [
    ⟨12, 0, "tsrc", .setting 0, "mode", 0, 2⟩]
  outs := []

/-- `src/dsp/mod.rs:1662-1671` -/
def row_ad : NodeRow where
  name := "ad"
  label := "Ad"
  category := "Mod"
  params := [
    ⟨0, "inp", .id, .id, .id, (-1), 1, 1⟩,
    ⟨1, "trig", .id, .id, .id, (-1), 1, 0⟩,
    ⟨2, "atk", .env, .env, .ems, 0, 1, 3⟩,
    ⟨3, "dcy", .env, .env, .ems, 0, 1, 10⟩,
    ⟨4, "ashp", .id, .id, .id, 0, 1, (1/2)⟩,
    ⟨5, "dshp", .id, .id, .id, 0, 1, (1/2)⟩]
  atoms := [
    ⟨6, 0, "mult", .setting 0, "mode", 0, 2⟩]
  outs := [⟨0, "sig"⟩, ⟨1, "eoet"⟩]

/-- `src/dsp/mod.rs:1672-1684` -/
def row_adsr : NodeRow where
  name := "adsr"
  label := "Adsr"
  category := "Mod"
  params := [
    ⟨0, "inp", .id, .id, .id, (-1), 1, 1⟩,
    ⟨1, "gate", .id, .id, .id, (-1), 1, 0⟩,
    ⟨2, "atk", .env, .env, .ems, 0, 1, 3⟩,
    ⟨3, "dcy", .env, .env, .ems, 0, 1, 10⟩,
    ⟨4, "sus", .id, .id, .id, 0, 1, (1/2)⟩,
    ⟨5, "rel", .env, .env, .ems, 0, 1, 40⟩,
    ⟨6, "ashp", .id, .id, .id, 0, 1, (1/2)⟩,
    ⟨7, "dshp", .id, .id, .id, 0, 1, (1/2)⟩,
    ⟨8, "rshp", .id, .id, .id, 0, 1, (1/2)⟩]
  atoms := [
    ⟨9, 0, "mult", .setting 0, "mode", 0, 2⟩]
  outs := [⟨0, "sig"⟩, ⟨1, "eoet"⟩]

/-- `src/dsp/mod.rs:1685-1689` -/
def row_tslfo : NodeRow where
  name := "tslfo"
  label := "TsLFO"
  category := "Mod"
  params := [
    ⟨0, "time", .lfot, .lfot, .lfot, 0, 1, 1000⟩,
    ⟨1, "trig", .id, .id, .id, (-1), 1, 0⟩,
    ⟨2, "rev", .id, .id, .id, 0, 1, (1/2)⟩]
  atoms := []
  outs := [⟨0, "sig"⟩]

/-- `src/dsp/mod.rs:1690-1697` -/
def row_rndwk : NodeRow where
  name := "rndwk"
  label := "RndWk"
  category := "Mod"
  params := [
    ⟨0, "trig", .id, .id, .id, (-1), 1, 0⟩,
    ⟨1, "step", .id, .id, .id, 0, 1, (1/5)⟩,
    ⟨2, "offs", .id, .id, .id, (-1), 1, 0⟩,
    ⟨3, "min", .id, .id, .id, 0, 1, 0⟩,
    ⟨4, "max", .id, .id, .id, 0, 1, 1⟩,
    ⟨5, "slew", .timz, .timz, .tmz, 0, 1, 75⟩]
  atoms := []
  outs := [⟨0, "sig"⟩]

/-- `src/dsp/mod.rs:1698-1705` -/
def row_delay : NodeRow where
  name := "delay"
  label := "Delay"
  category := "Signal"
  params := [
    ⟨0, "inp", .id, .id, .id, (-1), 1, 0⟩,
    ⟨1, "trig", .id, .id, .id, (-1), 1, 0⟩,
    ⟨2, "time", .time, .time, .tms, 0, 1, 250⟩,
    ⟨3, "fb", .id, .id, .id, (-1), 1, 0⟩,
    ⟨4, "mix", .id, .id, .id, 0, 1, (1/2)⟩]
  atoms := [
    ⟨5, 0, "mode", .setting 0, "mode", 0, 1⟩]
  outs := [⟨0, "sig"⟩]

/-- `src/dsp/mod.rs:1706-1710` -/
def row_allp : NodeRow where
  name := "allp"
  label := "AllP"
  category := "Signal"
  params := [
    ⟨0, "inp", .id, .id, .id, (-1), 1, 0⟩,
    ⟨1, "time", .ftme, .ftme, .fms, 0, 1, 25⟩,
    ⟨2, "g", .id, .id, .id, (-1), 1, (7/10)⟩]
  atoms := []
  outs := [⟨0, "sig"⟩]

/-- `src/dsp/mod.rs:1711-1716` -/
def row_comb : NodeRow where
  name := "comb"
  label := "Comb"
  category := "Signal"
  params := [
    ⟨0, "inp", .id, .id, .id, (-1), 1, 0⟩,
    ⟨1, "time", .ftme, .ftme, .fms, 0, 1, 25⟩,
    ⟨2, "g", .id, .id, .id, (-1), 1, (7/10)⟩]
  atoms := [
    ⟨3, 0, "mode", .setting 0, "mode", 0, 1⟩]
  outs := [⟨0, "sig"⟩]

/-- `src/dsp/mod.rs:1717-1721` -/
def row_noise : NodeRow where
  name := "noise"
  label := "Noise"
  category := "Osc"
  params := [
    ⟨0, "atv", .id, .id, .id, (-1), 1, (1/2)⟩,
    ⟨1, "offs", .id, .id, .s, (-1), 1, 0⟩]
  atoms := [
    ⟨2, 0, "mode", .setting 0, "mode", 0, 1⟩]
  outs := [⟨0, "sig"⟩]

/-- `src/dsp/mod.rs:1722-1728` -/
def row_formfm : NodeRow where
  name := "formfm"
  label := "FormFM"
  category := "Osc"
  params := [
    ⟨0, "freq", .pit, .pit, .fq, (-1), (5647131/10000000), 440⟩,
    ⟨1, "det", .det, .det, .det, (-1/5), (1/5), 0⟩,
    ⟨2, "form", .pit, .pit, .fq, (-1), (5647131/10000000), 440⟩,
    ⟨3, "side", .id, .id, .id, 0, 1, (1/5)⟩,
    ⟨4, "peak", .id, .id, .id, 0, 1, (2/5)⟩]
  atoms := []
  outs := [⟨0, "sig"⟩]

/-- `src/dsp/mod.rs:1729-1734` -/
def row_sfilter : NodeRow where
  name := "sfilter"
  label := "SFilter"
  category := "Signal"
  params := [
    ⟨0, "inp", .id, .id, .id, (-1), 1, 0⟩,
    ⟨1, "freq", .pit, .pit, .fq, (-1), (5647131/10000000), 1000⟩,
    ⟨2, "res", .id, .id, .id, 0, 1, (1/2)⟩]
  atoms := [
    ⟨3, 0, "ftype", .setting 8, "mode", 0, 13⟩]
  outs := [⟨0, "sig"⟩]

/-- `src/dsp/mod.rs:1735-1745` -/
def row_fvafilt : NodeRow where
  name := "fvafilt"
  label := "FVaFilt"
  category := "Signal"
  params := [
    ⟨0, "in_l", .id, .id, .id, (-1), 1, 0⟩,
    ⟨1, "in_r", .id, .id, .id, (-1), 1, 0⟩,
    ⟨2, "freq", .pit, .pit, .fq, (-1), (6883/12500), 1000⟩,
    ⟨3, "res", .id, .id, .id, 0, 1, (1/2)⟩,
    ⟨4, "drive", .driv, .driv, .driv, 0, 1, 1⟩]
  atoms := [
    ⟨5, 0, "ftype", .setting 0, "mode", 0, 2⟩,
    ⟨6, 1, "smode", .setting 0, "mode", 0, 4⟩,
    ⟨7, 2, "lmode", .setting 0, "mode", 0, 10⟩]
  outs := [⟨0, "sig_l"⟩, ⟨1, "sig_r"⟩]

/-- `src/dsp/mod.rs:1746-1753` -/
def row_biqfilt : NodeRow where
  name := "biqfilt"
  label := "BiqFilt"
  category := "Signal"
  params := [
    ⟨0, "inp", .id, .id, .id, (-1), 1, 0⟩,
    ⟨1, "freq", .pit, .pit, .fq, (-1), (5647131/10000000), 1000⟩,
    ⟨2, "q", .id, .id, .id, 0, 1, (1/2)⟩,
    ⟨3, "gain", .gain, .gain, .gain, 0, 1, 1⟩]
  atoms := [
    ⟨4, 0, "ftype", .setting 0, "mode", 0, 1⟩,
    ⟨5, 1, "order", .setting 0, "mode", 0, 3⟩]
  outs := [⟨0, "sig"⟩]

/-- `src/dsp/mod.rs:1754-1771` -/
def row_pverb : NodeRow where
  name := "pverb"
  label := "PVerb"
  category := "Signal"
  params := [
    ⟨0, "in_l", .id, .id, .id, (-1), 1, 0⟩,
    ⟨1, "in_r", .id, .id, .id, (-1), 1, 0⟩,
    ⟨2, "predly", .timz, .timz, .tmz, 0, 1, 0⟩,
    ⟨3, "size", .id, .id, .id, 0, 1, (1/2)⟩,
    ⟨4, "dcy", .id, .id, .id, 0, 1, (1/4)⟩,
    ⟨5, "ilpf", .pit, .pit, .fq, (-1), (5647131/10000000), 22050⟩,
    ⟨6, "ihpf", .pit, .pit, .fq, (-1), (5647131/10000000), 0⟩,
    ⟨7, "dif", .id, .id, .id, 0, 1, 1⟩,
    ⟨8, "dmix", .id, .id, .id, 0, 1, 1⟩,
    ⟨9, "mspeed", .id, .id, .id, 0, 1, 0⟩,
    ⟨10, "mshp", .id, .id, .id, 0, 1, (1/2)⟩,
    ⟨11, "mdepth", .id, .id, .id, 0, 1, (1/5)⟩,
    ⟨12, "rlpf", .pit, .pit, .fq, (-1), (5647131/10000000), 22050⟩,
    ⟨13, "rhpf", .pit, .pit, .fq, (-1), (5647131/10000000), 0⟩,
    ⟨14, "mix", .id, .id, .id, 0, 1, (1/2)⟩]
  atoms := []
  outs := [⟨0, "sig_l"⟩, ⟨1, "sig_r"⟩]

/-- `src/dsp/mod.rs:1772-1781` -/
def row_test : NodeRow where
  name := "test"
  label := "Test"
  category := "IOUtil"
  params := [
    ⟨0, "f", .id, .id, .id, 0, 1, (1/2)⟩]
  atoms := [
    ⟨1, 0, "p", .param 0, "knob", 0, 10⟩,
    ⟨2, 1, "trig", .param 0, "knob", 0, 0⟩]
  outs := [⟨0, "sig"⟩, ⟨1, "tsig"⟩, ⟨2, "out2"⟩, ⟨3, "out3"⟩, ⟨4, "out4"⟩, ⟨5, "outc"⟩]

/-- `src/dsp/mod.rs:1420-1784` `node_list!` without `nop`, in the order of the source. -/
def nodeTable : List NodeRow :=
  [row_amp, row_mix3, row_mux9, row_smap, row_map, row_quant, row_cqnt, row_tseq,
   row_code, row_rust1x1, row_sampl, row_sin, row_bosc, row_vosc, row_bowstri, row_midip,
   row_midicc, row_exta, row_extb, row_extc, row_extd, row_exte, row_extf, row_inp,
   row_out, row_fbwr, row_fbrd, row_scope, row_ad, row_adsr, row_tslfo, row_rndwk,
   row_delay, row_allp, row_comb, row_noise, row_formfm, row_sfilter, row_fvafilt, row_biqfilt,
   row_pverb, row_test]

end HexoDSP.Table
