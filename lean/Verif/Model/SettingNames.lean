import Verif.Model.NodeId
import Verif.Model.Format
/-!
# Model of the names of settings: the macros `fa_*!` of the nodes and the columns of settings in the table `src/dsp/mod.rs:1420-1784`

`fa_distort` of the crate `synfx_dsp` (the setting `dist` of `VOsc`) and the display of a sample are not modelled.
-/

namespace HexoDSP.SettingNames
open HexoDSP.Table

/-- How the value of a setting is displayed. -/
inductive Fa where
  /-- By names; the second part is the text for all other values. -/
  | names (l : List String) (other : String)
  /-- As a number: `src/dsp/node_midip.rs:13-17` `fa_midip_chan!`, `src/dsp/node_midicc.rs:13-17` `fa_midicc_cc!`. -/
  | number
  /-- Not at all, as `?`: `src/dsp/node_quant.rs:12-16` `fa_quant!`, `src/dsp/node_cqnt.rs:12-16` `fa_cqnt!`. -/
  | unknown
  /-- By a macro that is not modelled. -/
  | external

/-- `src/dsp/node_amp.rs:11-20` `fa_amp_neg_att!`. -/
def faAmpNegAtt : Fa := .names ["Allow", "Clip"] "?"

/-- `src/dsp/node_mux9.rs:12-28` `fa_mux9_in_cnt!`. -/
def faMux9InCnt : Fa := .names ["1", "2", "3", "4", "5", "6", "7", "8", "9"] "?"

/-- `src/dsp/node_smap.rs:23-34` `fa_smap_mode!`. -/
def faSmapMode : Fa := .names ["Unipolar", "Bipolar", "UniInv", "BiInv"] ""

/-- `src/dsp/node_smap.rs:11-20` `fa_smap_clip!`. -/
def faSmapClip : Fa := .names ["Off", "Clip"] "?"

/-- `src/dsp/node_map.rs:11-20` `fa_map_clip!`. -/
def faMapClip : Fa := .names ["Off", "Clip"] "?"

/-- `src/dsp/node_cqnt.rs:19-31` `fa_cqnt_omin!`. -/
def faCqntOmin : Fa := .names ["-0", "-1", "-2", "-3", "-4"] "?"

/-- `src/dsp/node_cqnt.rs:34-46` `fa_cqnt_omax!`. -/
def faCqntOmax : Fa := .names ["+0", "+1", "+2", "+3", "+4"] "?"

/-- `src/dsp/node_tseq.rs:15-25` `fa_tseq_cmode!`. -/
def faTseqCmode : Fa := .names ["RowT", "PatT", "Phase"] "?"

/-- `src/dsp/node_sampl.rs:35-44` `fa_sampl_pmode!`. -/
def faSamplPmode : Fa := .names ["Loop", "OneShot"] "?"

/-- `src/dsp/node_sampl.rs:23-32` `fa_sampl_dclick!`. -/
def faSamplDclick : Fa := .names ["Off", "On"] "?"

/-- `src/dsp/node_sampl.rs:11-20` `fa_sampl_dir!`. -/
def faSamplDir : Fa := .names ["Forward", "Reverse"] "?"

/-- `src/dsp/node_bosc.rs:13-25` `fa_bosc_wtype!`. -/
def faBoscWtype : Fa := .names ["Sin", "Tri", "Saw", "Pulse", "Pulse-DC"] "?"

/-- `src/dsp/node_vosc.rs:13-22` `fa_vosc_ovrsmpl!`. -/
def faVoscOvrsmpl : Fa := .names ["Off", "On"] "?"

/-- `src/dsp/node_midip.rs:20-30` `fa_midip_gmode!`. -/
def faMidipGmode : Fa := .names ["MIDI", "Trigger", "Gate Len"] "?"

/-- `src/dsp/node_out.rs:12-21` `fa_out_mono!`. -/
def faOutMono : Fa := .names ["Stereo", "Mono"] "?"

/-- `src/dsp/node_scope.rs:21-31` `fa_scope_tsrc!`. -/
def faScopeTsrc : Fa := .names ["Off", "Intern", "Extern"] "?"

/-- `src/dsp/node_ad.rs:13-23` `fa_ad_mult!`. -/
def faAdMult : Fa := .names ["x1", "x10", "x100"] "?"

/-- `src/dsp/node_adsr.rs:13-23` `fa_adsr_mult!`. -/
def faAdsrMult : Fa := .names ["x1", "x10", "x100"] "?"

/-- `src/dsp/node_delay.rs:12-21` `fa_delay_mode!`. -/
def faDelayMode : Fa := .names ["Time", "Sync"] "?"

/-- `src/dsp/node_comb.rs:12-21` `fa_comb_mode!`. -/
def faCombMode : Fa := .names ["FedBack", "FedForw"] "?"

/-- `src/dsp/node_noise.rs:12-21` `fa_noise_mode!`. -/
def faNoiseMode : Fa := .names ["Bipolar", "Unipolar"] "?"

/-- `src/dsp/node_sfilter.rs:16-37` `fa_sfilter_type!`. -/
def faSfilterType : Fa := .names ["LP 1p", "LP 1pt", "HP 1p", "HP 1pt", "LP 12c", "HP 12c", "BP 12c", "NO 12c", "LP 12s", "HP 12s", "BP 12s", "NO 12s", "PK 12s", "LP 24m"] "?"

/-- `src/dsp/node_fvafilt.rs:15-25` `fa_fvafilt_type!`. -/
def faFvafiltType : Fa := .names ["Ladder", "SVF", "SallenKey"] "?"

/-- `src/dsp/node_fvafilt.rs:28-40` `fa_fvafilt_svf_mode!`. -/
def faFvafiltSvfMode : Fa := .names ["LP", "HP", "BP1", "BP2", "Notch"] "?"

/-- `src/dsp/node_fvafilt.rs:43-61` `fa_fvafilt_lmode!`. -/
def faFvafiltLmode : Fa := .names ["LP 6dB", "LP 12dB", "LP 18dB", "LP 24dB", "HP 6dB", "HP 12dB", "HP 18dB", "HP 24dB", "BP 12dB", "BP 24dB", "N 12dB"] "?"

/-- `src/dsp/node_biqfilt.rs:12-21` `fa_biqfilt_type!`. -/
def faBiqfiltType : Fa := .names ["BtW LP", "Res"] "?"

/-- `src/dsp/node_biqfilt.rs:24-35` `fa_biqfilt_ord!`. -/
def faBiqfiltOrd : Fa := .names ["1", "2", "3", "4"] "?"

/-- `src/dsp/node_test.rs:13-31` `fa_test_s!`. -/
def faTestS : Fa := .names ["Zero", "One", "Two", "Three", "Four", "Five", "Six", "Seven", "Eigth", "Nine", "Ten"] "?"

/-- The column with the macro, by node and setting. -/
def macroOf : List (String × String × Fa) := [
  -- `src/dsp/mod.rs:1430`
  ("amp", "neg_att", faAmpNegAtt),
  -- `src/dsp/mod.rs:1455`
  ("mux9", "in_cnt", faMux9InCnt),
  -- `src/dsp/mod.rs:1461`
  ("smap", "mode", faSmapMode),
  -- `src/dsp/mod.rs:1462`
  ("smap", "clip", faSmapClip),
  -- `src/dsp/mod.rs:1472`
  ("map", "clip", faMapClip),
  -- `src/dsp/mod.rs:1477`
  ("quant", "keys", .unknown),
  -- `src/dsp/mod.rs:1483`
  ("cqnt", "keys", .unknown),
  -- `src/dsp/mod.rs:1484`
  ("cqnt", "omin", faCqntOmin),
  -- `src/dsp/mod.rs:1485`
  ("cqnt", "omax", faCqntOmax),
  -- `src/dsp/mod.rs:1491`
  ("tseq", "cmode", faTseqCmode),
  -- `src/dsp/mod.rs:1528`
  ("sampl", "sample", .external),
  -- `src/dsp/mod.rs:1529`
  ("sampl", "pmode", faSamplPmode),
  -- `src/dsp/mod.rs:1530`
  ("sampl", "dclick", faSamplDclick),
  -- `src/dsp/mod.rs:1531`
  ("sampl", "dir", faSamplDir),
  -- `src/dsp/mod.rs:1545`
  ("bosc", "wtype", faBoscWtype),
  -- `src/dsp/mod.rs:1554`
  ("vosc", "dist", .external),
  -- `src/dsp/mod.rs:1555`
  ("vosc", "ovrsmpl", faVoscOvrsmpl),
  -- `src/dsp/mod.rs:1567`
  ("midip", "chan", .number),
  -- `src/dsp/mod.rs:1568`
  ("midip", "gmode", faMidipGmode),
  -- `src/dsp/mod.rs:1574`
  ("midicc", "chan", .number),
  -- `src/dsp/mod.rs:1575`
  ("midicc", "cc1", .number),
  -- `src/dsp/mod.rs:1576`
  ("midicc", "cc2", .number),
  -- `src/dsp/mod.rs:1577`
  ("midicc", "cc3", .number),
  -- `src/dsp/mod.rs:1642`
  ("out", "mono", faOutMono),
  -- `src/dsp/mod.rs:1661`
  ("scope", "tsrc", faScopeTsrc),
  -- `src/dsp/mod.rs:1669`
  ("ad", "mult", faAdMult),
  -- `src/dsp/mod.rs:1682`
  ("adsr", "mult", faAdsrMult),
  -- `src/dsp/mod.rs:1704`
  ("delay", "mode", faDelayMode),
  -- `src/dsp/mod.rs:1715`
  ("comb", "mode", faCombMode),
  -- `src/dsp/mod.rs:1720`
  ("noise", "mode", faNoiseMode),
  -- `src/dsp/mod.rs:1733`
  ("sfilter", "ftype", faSfilterType),
  -- `src/dsp/mod.rs:1741`
  ("fvafilt", "ftype", faFvafiltType),
  -- `src/dsp/mod.rs:1742`
  ("fvafilt", "smode", faFvafiltSvfMode),
  -- `src/dsp/mod.rs:1743`
  ("fvafilt", "lmode", faFvafiltLmode),
  -- `src/dsp/mod.rs:1751`
  ("biqfilt", "ftype", faBiqfiltType),
  -- `src/dsp/mod.rs:1752`
  ("biqfilt", "order", faBiqfiltOrd),
  -- `src/dsp/mod.rs:1774`
  ("test", "p", faTestS),
  -- `src/dsp/mod.rs:1775`
  ("test", "trig", faTestS)]

/-- The text for a number: `$v.round() as usize` rounds halves away from zero and saturates at 0. -/
noncomputable def Fa.text (f : Fa) (v : ℝ) : Option String :=
  match f with
  | .names l other => some (l.getD ⌊v + 1 / 2⌋₊ other)
  | .number => some (String.ofList (Format.digits ⌊v + 1 / 2⌋₊))
  | .unknown => some "?"
  | .external => none

/-- The macro of a setting. -/
def faOf (p : ParamId) : Option Fa :=
  match p.node with
  | .nop => none
  | .node k _ =>
    match (row k).atoms.find? (fun a => a.inIdx = p.idx) with
    | none => none
    | some a => (macroOf.find? (fun m => m.1 = (row k).name ∧ m.2.1 = a.name)).map (fun m => m.2.2)

/-- `src/dsp/mod.rs:2035-2046` `ParamId::format` for settings. -/
noncomputable def format (p : ParamId) (v : ℝ) : Option String := (faOf p).bind fun f => f.text v

end HexoDSP.SettingNames
