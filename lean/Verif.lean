import Verif.Props.CellDir
import Verif.Props.GraphOrdering
import Verif.Props.Matrix
import Verif.Props.Smoother
import Verif.Props.NodeConf
import Verif.Props.MatrixEngine
import Verif.Props.Ownership
import Verif.Props.Messages
import Verif.Props.Flow
import Verif.Props.Param
import Verif.Props.VisualFilter
import Verif.Props.Midi
import Verif.Props.Feedback
import Verif.Props.Scope
import Verif.Props.Mux9
import Verif.Props.MapNodes
import Verif.Props.Tracker
import Verif.Props.Sequencer
import Verif.Props.Monitor
import Verif.Props.Save
import Verif.Props.NodeTable
import Verif.Props.Norm
import Verif.Props.Block
import Verif.Props.BlockOps
import Verif.Props.Repr
import Verif.Props.Samples
import Verif.Props.Log
import Verif.Props.ChainBuilder
import Verif.Props.SynthConstructor
import Verif.Props.Patch
import Verif.Props.Sampl
import Verif.Props.BlockCompile
import Verif.Props.Code
import Verif.Props.ScopeNode
import Verif.Props.Rounding
import Verif.Props.TSeqNode
import Verif.Props.RndWk
import Verif.Props.SinNode
import Verif.Props.PatchTimed
import Verif.Props.IoNodes
import Verif.Props.FormFM
import Verif.Props.SFilter
import Verif.Props.BiqFilt
import Verif.Props.FVaFilt
import Verif.Props.RustNode
import Verif.Props.Cut
import Verif.Props.Twin
import Verif.Props.Many
import Verif.Props.Noise
import Verif.Props.Delay
import Verif.Props.ExtParam
import Verif.Props.Env
import Verif.Props.DropThread
import Verif.Props.Osc
import Verif.Props.BowStri
import Verif.Props.Quant
import Verif.Props.Reverb
import Verif.Props.Label
import Verif.Props.NodeList
import Verif.Props.FreeOutput
import Verif.Props.Status
import Verif.Props.Robust
import Verif.Props.TestNode
import Verif.Props.Graph
import Verif.Props.CodeNode
import Verif.Props.Builder
import Verif.Props.Observer
import Verif.Props.Cutting
import Verif.Props.Rate
import Verif.Props.BlockView
import Verif.Props.Reset
import Verif.Props.Isolate
import Verif.Props.Ride
import Verif.Props.Float
import Verif.Props.FloatNodes
import Verif.Props.Moved
import Verif.Props.MonitorThread
import Verif.Props.FloatSeq
import Verif.Props.MidiGate
import Verif.Props.MidiSet
import Verif.Props.Format
import Verif.Props.SettingNames
import Verif.Props.ShownModes
import Verif.Props.ShownModes2
import Verif.Props.Monitored
import Verif.Props.Leds
import Verif.Props.SinFloat
import Verif.Props.NormFloat
import Verif.Props.CellEdit
import Verif.Props.PatchKeep
import Verif.Props.FormFMFloat
import Verif.Props.KnobFloat
import Verif.Props.ChainMove
import Verif.Props.ChainGiven
import Verif.Props.SamplFloat
import Verif.Props.ScopeClock
import Verif.Props.SmootherFloat
import Verif.Props.NoteFloat
import Verif.Props.BowStriFloat
import Verif.Props.MuxFloat
import Verif.Props.SamplPart
import Verif.Props.MixFloat
import Verif.Props.SampleConv
import Verif.Props.RateFloat
import Verif.Props.CellPathFloat
import Verif.Props.NoiseFloat
import Verif.Props.FeedbackFloat
import Verif.Props.SMapFloat
