import Verif.Spec.Reset
import Verif.Model.Noise
import Verif.Model.SinNode
import Verif.Model.FormFM
import Verif.Model.SFilter
import Verif.Model.Delay
import Verif.Model.Osc
import Verif.Model.Reverb
import Verif.Model.BowStri
import Verif.Model.Quant
import Verif.Model.BiqFilt
import Verif.Model.FVaFilt
import Verif.Model.Mux9
import Verif.Model.Midi
import Verif.Model.Sampl
import Verif.Model.RndWk
import Verif.Model.TestNode
import Verif.Model.ExtParam
import Verif.Model.TSeqNode
/-!
# The nodes with their `set_sample_rate` and `reset`

Every node of `src/dsp` implements `DspNode` (`src/dsp/mod.rs:714-745`). Here the models of the nodes are put together with the two functions besides
`process`.
-/

namespace HexoDSP.Reset

/-- `src/dsp/node_noise.rs:76-118`: the sample rate is not kept. -/
def noise {S : Type} (R : Noise.Rng S) (inst : Nat) : Machine (Noise.Node S) (Int × List Noise.Frame) (List ℚ × ℚ) where
  new := Noise.Node.new R inst
  block n b := n.process R b.1 b.2
  reset n := n.reset R
  rate n _ := n

/-- `src/dsp/node_sin.rs:14-21` `struct Sin`. -/
structure Sin where
  srate : ℚ
  phase : ℚ
  init : ℚ

/-- `src/dsp/node_sin.rs:26-30` and `71-115`; `ph` is `nid.init_phase()`. -/
def sin (rn : ℚ → ℚ) (fuel : Nat) (sine : ℚ → ℚ) (ph : ℚ) : Machine Sin (List (ℚ × ℚ)) (List ℚ) where
  new := ⟨44100, ph, ph⟩
  block n fs := (SinNode.run rn fuel (1 / n.srate) n.phase fs).map (fun r => ({ n with phase := r.2 }, SinNode.signal sine r.1))
  reset n := { n with phase := n.init }
  rate n r := { n with srate := r }

/-- `src/dsp/node_formfm.rs:12-15` `struct FormFM`. -/
structure Form where
  isr : ℝ
  phase : ℝ

/-- `src/dsp/node_formfm.rs:18-20` and `61-136`. -/
noncomputable def formfm : Machine Form (List FormFM.Input) (List ℝ) where
  new := ⟨1 / 44100, 0⟩
  block n fs := some ({ n with phase := (FormFM.run n.isr n.phase fs).2 }, (FormFM.run n.isr n.phase fs).1)
  reset n := { n with phase := 0 }
  rate n r := { n with isr := 1 / (r : ℝ) }

/-- `src/dsp/node_sfilter.rs:41-54` and `212-396`, with the sample rate; a block brings the setting, the frames and what the output buffer holds. -/
def sfilter (E : SFilter.Ext) : Machine (SFilter.Node × ℚ) (ℤ × List SFilter.Frame × List ℚ) (List ℚ) where
  new := (SFilter.Node.new, 1 / 44100)
  block n b := some (((n.1.process E n.2 b.1 b.2.1 b.2.2).2, n.2), (n.1.process E n.2 b.1 b.2.1 b.2.2).1)
  reset n := (⟨SFilter.Mem.zero, -1⟩, n.2)
  rate n r := (n.1, 1 / r)

/-- `src/dsp/node_delay.rs:31-33` and `74-138`. -/
def delay {B C : Type} (E : Delay.Ext B C) : Machine (Delay.Node B C) (Int × List Delay.Frame) (List ℚ) where
  new := Delay.Node.new E
  block n b := some (n.process E b.1 b.2)
  reset n := n.reset E
  rate n r := n.setSampleRate E r

/-- `src/dsp/node_bosc.rs:35-39` and `114-186`. -/
def bosc {S : Type} (E : Osc.Blep S) (ph : ℚ) : Machine (Osc.BOsc S) (Int × List Osc.BFrame) (List ℚ) where
  new := Osc.BOsc.new E ph
  block n b := some (n.process E b.1 b.2)
  reset n := { n with osc := E.reset n.osc }
  rate n r := { n with israte := 1 / r }

/-- `src/dsp/node_vosc.rs:35-43` and `113-189`. -/
def vosc {S O : Type} (E : Osc.Vps S O) (ph : ℚ) : Machine (Osc.VOsc S O) (Osc.VSet × List Osc.VFrame) (List ℚ) where
  new := Osc.VOsc.new E ph
  block n b := some (n.process E b.1 b.2)
  reset n := { n with osc := E.reset n.osc, over := E.overReset n.over }
  rate n r := { n with israte := 1 / (r * Osc.OVERSAMPLING), over := E.overRate n.over r }

/-- `src/dsp/node_tslfo.rs:19-21` and `67-110`. -/
def tslfo {S T : Type} (E : Reverb.Lfo S T) : Machine (Reverb.TsLFO S T) (List Reverb.LFrame) (List ℚ) where
  new := Reverb.TsLFO.new E
  block n fs := some (n.process E fs)
  reset n := ⟨E.reset n.lfo, E.trigReset n.trig⟩
  rate n r := { n with lfo := E.rate n.lfo r }

/-- `src/dsp/node_bowstri.rs:38-70` and `144-194`. -/
def bowstri {D P B : Type} (E : BowStri.Ext D P B) : Machine (BowStri.Node D P B) (List BowStri.Frame) (List ℚ) where
  new := BowStri.Node.new E
  block n fs := some (n.process E fs)
  reset n := n.reset E
  rate n r := n.rate E r

/-- `src/dsp/node_quant.rs:26-28` and `62-102`; `src/dsp/node_cqnt.rs:56-58` and `91-133`. -/
def quant {K Q C : Type} (E : Quant.Ext K Q C) : Machine (Quant.Node Q C) (K × List Quant.Frame) (List (ℚ × ℚ)) where
  new := Quant.Node.new E
  block n b := some (n.process E b.1 b.2)
  reset n := { n with change := E.changeReset n.change }
  rate n r := { n with change := E.changeRate n.change r }

/-- `src/dsp/node_biqfilt.rs:49-58` and `84-167`; the `reset` at `94-98` empties the memories of the filters and leaves the coefficients. -/
def biqfilt {C M X : Type} (E : BiqFilt.Ext C M X) : Machine (BiqFilt.Node C M) (BiqFilt.Block X) (List X) where
  new := BiqFilt.Node.new E
  block n b := (n.process E b).map (fun r => (r.2, r.1))
  reset n := { n with cascade := n.cascade.map (fun b => (b.1, E.m0)) }
  rate n r := n.setSampleRate E r

/-- `src/dsp/node_fvafilt.rs:76-87` and `220-393`: `reset` empties the memories and leaves the parameters and the coefficients. The sample rate is one of the
shared parameters of the filters, whose coefficients are arbitrary here; it is not modelled. -/
def fvafilt {X CS MS CV MV CL ML D U : Type} (E : FVaFilt.Ext X CS MS CV MV CL ML D U) :
    Machine (FVaFilt.Node CS MS CV MV CL ML D U) (FVaFilt.Setting × List (FVaFilt.Frame X)) (List X) where
  new := FVaFilt.Node.new E
  block n b := some ((n.loop E b.1 false b.2).2, (n.loop E b.1 false b.2).1)
  reset n := { n with ladder := (n.ladder.1, E.lad0.2), sk := (n.sk.1, E.sk0.2), svf := (n.svf.1, E.svf0.2), dc := E.dc0, up := E.half0, down := E.half0 }
  rate n _ := n

/-- `src/dsp/node_mux9.rs:40-47` and `122-209`: `reset` is empty. -/
def mux9 {T : Type} (t0 : T) (check : T → ℚ → Bool × T) : Machine (Mux.Mux9 T) (ℤ × Nat × List Mux.Frame) (List ℚ) where
  new := Mux.Mux9.new t0
  block n b := (n.process check b.1 b.2.1 b.2.2).map (fun r => (r.2, r.1))
  reset n := n
  rate n _ := n

/-- `src/dsp/node_midicc.rs:30-39` and `75-139`: `reset` is empty. -/
def midicc {S : Type} (s0 : S) (slew : S → ℚ → ℚ → ℚ × S) :
    Machine (Midi.MidiCC ℚ S) (Midi.CCSettings × Midi.CCBlock ℚ) (List (ℚ × ℚ × ℚ)) where
  new := Midi.MidiCC.new s0
  block n b := some ((n.process slew b.1 b.2.ms b.2.ccs b.2.nframes).2, (n.process slew b.1 b.2.ms b.2.ccs b.2.nframes).1)
  reset n := n
  rate n _ := n

/-- `src/dsp/node_midip.rs:44-53` and `89-196` in gate mode "MIDI": `reset` is for the generators of the two other gate modes only. -/
def midip : Machine (Midi.MidiP ℚ) (Int × Midi.NoteBlock ℚ) (List (Midi.MidiPOut ℚ)) where
  new := Midi.MidiP.new
  block n b := some ((n.process b.1 b.2.det b.2.notes b.2.nframes).2, (n.process b.1 b.2.det b.2.notes b.2.nframes).1)
  reset n := n
  rate n _ := n

/-- `src/dsp/node_sampl.rs:57-67` and `292-345`: `reset` is for the trigger input only, whose answers are given here. With the sample rate. -/
def sampl (interp : List ℚ → ℕ → ℚ → ℚ) (checked : Bool) (declickMs : ℚ) :
    Machine (Sampl.St × ℚ) (Sampl.Knobs × List Sampl.Frame) (List ℚ) where
  new := (Sampl.St.init, 44100)
  block n b := (Sampl.process interp checked n.2 declickMs b.1 n.1 b.2).map (fun r => ((r.1, n.2), r.2.1))
  reset n := n
  rate n r := (n.1, r)

/-- `src/dsp/node_rndwk.rs:21-26` and `77-144`: `reset` does not seed the generator again. `slewRate` and `slewReset` are those of `SlewValue`. -/
def rndwk {S T R : Type} (e : RndWk.Ext S T R) (slewRate : S → ℚ → S) (slewReset : S → S) (trigReset : T → T) (seed : R) :
    Machine (RndWk.Node S T R) (List RndWk.Frame) (List ℚ) where
  new := RndWk.Node.new e seed
  block n fs := some ((n.run e fs).2, (n.run e fs).1)
  reset n := { n with slew := slewReset n.slew, trig := trigReset n.trig, target := 0 }
  rate n r := { n with slew := slewRate n.slew r }

/-- `src/dsp/node_test.rs:41-43` and `68-124`: `reset` is for the trigger output only. -/
def test {P : Type} (E : TestNode.Ext P) : Machine (TestNode.Node P) TestNode.Arg (List TestNode.Out) where
  new := TestNode.Node.new E
  block n a := some (n.process E a)
  reset n := { n with trigSig := E.reset n.trigSig }
  rate n r := { n with trigSig := E.rate n.trigSig r }

/-- `src/dsp/node_ext.rs:22-24` and `61-111`: `reset` is empty. A block brings the host, what the output buffers hold, and the frames. -/
def ext {S : Type} (L : ExtParam.Slew S) (set : Fin 6) :
    Machine (ExtParam.Node S) (Option ExtParam.Host × List (Fin 3 → ℚ) × List ExtParam.Frame) (List (Fin 3 → ℚ)) where
  new := ExtParam.Node.new L
  block n b := some (n.process L set b.1 b.2.1 b.2.2)
  reset n := n.reset
  rate n r := n.setSampleRate r

open HexoDSP.Tracker in
/-- `src/dsp/node_tseq.rs:181-185` `reset`: the backend goes, the clock and the trigger input start again. -/
def tseqReset {C T R : Type} (clockReset : C → C) (trigReset : T → T) (s : World × TSeqNode.Node C T R) : World × TSeqNode.Node C T R :=
  ({ s.1 with backend := none }, { s.2 with clock := clockReset s.2.clock, trig := trigReset s.2.trig })

end HexoDSP.Reset
