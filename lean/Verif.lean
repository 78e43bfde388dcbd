import Verif.Lemmas.Accessors
import Verif.Lemmas.Adsr
import Verif.Lemmas.AdsrEnvelope
import Verif.Lemmas.AdsrExample
import Verif.Lemmas.AdsrFloat
import Verif.Lemmas.AdsrFloat2
import Verif.Lemmas.AdsrFloat3
import Verif.Lemmas.AdsrNote
import Verif.Lemmas.AdsrNotes
import Verif.Lemmas.AdsrRun
import Verif.Lemmas.AdsrSchedule
import Verif.Lemmas.AdsrShape
import Verif.Lemmas.Automation
import Verif.Lemmas.Biquad
import Verif.Lemmas.BiquadRun
import Verif.Lemmas.Buffer
import Verif.Lemmas.Buffer2
import Verif.Lemmas.Buffer3
import Verif.Lemmas.Chain
import Verif.Lemmas.ChainSession
import Verif.Lemmas.Clicks
import Verif.Lemmas.Client
import Verif.Lemmas.Compressor
import Verif.Lemmas.CompressorTrack
import Verif.Lemmas.ConvertFloat
import Verif.Lemmas.Convolution
import Verif.Lemmas.Dynamics
import Verif.Lemmas.EffectCancel
import Verif.Lemmas.EffectRun
import Verif.Lemmas.EffectSteps
import Verif.Lemmas.EffectTime
import Verif.Lemmas.Effects
import Verif.Lemmas.Engine
import Verif.Lemmas.EngineControl
import Verif.Lemmas.EngineGarbage
import Verif.Lemmas.EngineLoop
import Verif.Lemmas.EngineSplit
import Verif.Lemmas.EngineView
import Verif.Lemmas.Envelope
import Verif.Lemmas.EnvelopeDelivery
import Verif.Lemmas.EventLoop
import Verif.Lemmas.Events
import Verif.Lemmas.FadeFloat
import Verif.Lemmas.FileRender
import Verif.Lemmas.Files
import Verif.Lemmas.Float
import Verif.Lemmas.FloatRound
import Verif.Lemmas.Follower
import Verif.Lemmas.FollowerFloat
import Verif.Lemmas.FollowerFloat2
import Verif.Lemmas.Fourier
import Verif.Lemmas.Gain
import Verif.Lemmas.GainFloat
import Verif.Lemmas.GainTime
import Verif.Lemmas.Graph
import Verif.Lemmas.GraphRun
import Verif.Lemmas.Grid
import Verif.Lemmas.HMap
import Verif.Lemmas.Healthy
import Verif.Lemmas.Kernels
import Verif.Lemmas.LiveDelay
import Verif.Lemmas.LiveHost
import Verif.Lemmas.LiveSession
import Verif.Lemmas.MeterExample
import Verif.Lemmas.MeterNode
import Verif.Lemmas.MeterSignal
import Verif.Lemmas.MeterSpec
import Verif.Lemmas.Metronome
import Verif.Lemmas.MetronomeExample
import Verif.Lemmas.MixedHistory
import Verif.Lemmas.MixedLevels
import Verif.Lemmas.MixedNodes
import Verif.Lemmas.Mixer
import Verif.Lemmas.MixerFloat
import Verif.Lemmas.Network
import Verif.Lemmas.NetworkRun
import Verif.Lemmas.OfflineExample
import Verif.Lemmas.Oscillator
import Verif.Lemmas.OscillatorFloat
import Verif.Lemmas.OscillatorRun
import Verif.Lemmas.OscillatorSession
import Verif.Lemmas.Pan
import Verif.Lemmas.PanFloat
import Verif.Lemmas.PanSweep
import Verif.Lemmas.Parameter
import Verif.Lemmas.Parameter2
import Verif.Lemmas.ParameterFloat
import Verif.Lemmas.ParameterFloat2
import Verif.Lemmas.PeriodicFloat
import Verif.Lemmas.PoolBuf
import Verif.Lemmas.ProgramSteps
import Verif.Lemmas.Progress
import Verif.Lemmas.RecordExample
import Verif.Lemmas.Recorder
import Verif.Lemmas.RecorderKeepsUp
import Verif.Lemmas.RecorderLive
import Verif.Lemmas.RecorderNode
import Verif.Lemmas.RecorderRun
import Verif.Lemmas.RecorderSchedule
import Verif.Lemmas.RecorderSpec
import Verif.Lemmas.RecorderStall
import Verif.Lemmas.Render
import Verif.Lemmas.RenderAll
import Verif.Lemmas.RenderBlock
import Verif.Lemmas.RenderInv
import Verif.Lemmas.RenderLoop
import Verif.Lemmas.RenderProcess
import Verif.Lemmas.RenderStep
import Verif.Lemmas.Rewiring
import Verif.Lemmas.RewiringRun
import Verif.Lemmas.RowExamples
import Verif.Lemmas.RowSessions
import Verif.Lemmas.SampleFloat
import Verif.Lemmas.SampleRate
import Verif.Lemmas.Sampler
import Verif.Lemmas.SamplerExact
import Verif.Lemmas.SamplerHistory
import Verif.Lemmas.SamplerLate
import Verif.Lemmas.SamplerLoop
import Verif.Lemmas.SamplerLoopNode
import Verif.Lemmas.SamplerNode
import Verif.Lemmas.SamplerPlay
import Verif.Lemmas.SamplerQuiet
import Verif.Lemmas.SamplerRun
import Verif.Lemmas.SecondOrder
import Verif.Lemmas.Sets
import Verif.Lemmas.ShapeFloat
import Verif.Lemmas.ShaperFloat
import Verif.Lemmas.SliceWrite
import Verif.Lemmas.Timestamp
import Verif.Lemmas.TopologicalSort
import Verif.Lemmas.Unbounded
import Verif.Lemmas.Voice
import Verif.Lemmas.Waveshaper
import Verif.Model.Accessors
import Verif.Model.Adsr
import Verif.Model.AdsrExample
import Verif.Model.AdsrFloat
import Verif.Model.Basic
import Verif.Model.Biquad
import Verif.Model.Buffer
import Verif.Model.Client
import Verif.Model.Compressor
import Verif.Model.Connect
import Verif.Model.ConvertFloat
import Verif.Model.Convolution
import Verif.Model.DspGraph
import Verif.Model.Effects
import Verif.Model.Envelope
import Verif.Model.Events
import Verif.Model.FadeFloat
import Verif.Model.FadeReal
import Verif.Model.FileExamples
import Verif.Model.Files
import Verif.Model.Float
import Verif.Model.Follower
import Verif.Model.FollowerFloat
import Verif.Model.Gain
import Verif.Model.GainFloat
import Verif.Model.Graph
import Verif.Model.Grid
import Verif.Model.HMap
import Verif.Model.Ids
import Verif.Model.Kernels
import Verif.Model.Level
import Verif.Model.LiveHost
import Verif.Model.MeterExample
import Verif.Model.MeterNode
import Verif.Model.Metronome
import Verif.Model.MetronomeExample
import Verif.Model.MixedNodes
import Verif.Model.Mixer
import Verif.Model.MixerFloat
import Verif.Model.Notifiers
import Verif.Model.OfflineExample
import Verif.Model.Oscillator
import Verif.Model.OscillatorExample
import Verif.Model.OscillatorFloat
import Verif.Model.Pan
import Verif.Model.PanFloat
import Verif.Model.Parameter
import Verif.Model.ParameterFloat
import Verif.Model.PeriodicFloat
import Verif.Model.Processor
import Verif.Model.RecordExample
import Verif.Model.Recorder
import Verif.Model.RecorderNode
import Verif.Model.RowExamples
import Verif.Model.SampleFloat
import Verif.Model.Sampler
import Verif.Model.SamplerNode
import Verif.Model.ShapeFloat
import Verif.Model.ShaperFloat
import Verif.Model.Timestamp
import Verif.Model.TopologicalSort
import Verif.Model.Unbounded
import Verif.Model.Voice
import Verif.Model.Waveshaper
import Verif.Props.Accessors
import Verif.Props.Adsr
import Verif.Props.AdsrExample
import Verif.Props.AdsrFloat
import Verif.Props.AdsrSchedule
import Verif.Props.Automation
import Verif.Props.Biquad
import Verif.Props.Biquad2
import Verif.Props.Biquad3
import Verif.Props.Buffers
import Verif.Props.Buffers2
import Verif.Props.Chain
import Verif.Props.Clicks
import Verif.Props.Client
import Verif.Props.Compressor
import Verif.Props.ConvertFloat
import Verif.Props.Convolution
import Verif.Props.Dynamics
import Verif.Props.Effects
import Verif.Props.Engine
import Verif.Props.Engine2
import Verif.Props.Envelope
import Verif.Props.EnvelopeDelivery
import Verif.Props.Events
import Verif.Props.FadeFloat
import Verif.Props.FileExamples
import Verif.Props.Files
import Verif.Props.Float
import Verif.Props.Follower
import Verif.Props.FollowerFloat
import Verif.Props.Gain
import Verif.Props.GainFloat
import Verif.Props.Graph
import Verif.Props.Ids
import Verif.Props.Level
import Verif.Props.LiveHost
import Verif.Props.MeterExample
import Verif.Props.MeterNode
import Verif.Props.MeterSignal
import Verif.Props.Metronome
import Verif.Props.MetronomeExample
import Verif.Props.MixedNodes
import Verif.Props.Mixer
import Verif.Props.MixerFloat
import Verif.Props.Network
import Verif.Props.Notifiers
import Verif.Props.OfflineExample
import Verif.Props.Oscillator
import Verif.Props.OscillatorExample
import Verif.Props.OscillatorFloat
import Verif.Props.OscillatorSession
import Verif.Props.Pan
import Verif.Props.PanFloat
import Verif.Props.PanSweep
import Verif.Props.Parameter
import Verif.Props.Parameter2
import Verif.Props.ParameterFloat
import Verif.Props.ParameterFloat2
import Verif.Props.PeriodicFloat
import Verif.Props.Progress
import Verif.Props.RecordExample
import Verif.Props.Recorder
import Verif.Props.RecorderNode
import Verif.Props.Render
import Verif.Props.Rewiring
import Verif.Props.RowExamples
import Verif.Props.RowSessions
import Verif.Props.SampleFloat
import Verif.Props.SampleRate
import Verif.Props.Sampler
import Verif.Props.SamplerLoop
import Verif.Props.SamplerNode
import Verif.Props.SamplerVoice
import Verif.Props.ShapeFloat
import Verif.Props.ShaperFloat
import Verif.Props.Timestamp
import Verif.Props.TopologicalSort
import Verif.Props.Waveshaper
import Verif.Props.Waveshaper2
import Verif.Spec.Accessors
import Verif.Spec.Adsr
import Verif.Spec.AdsrFloat
import Verif.Spec.AdsrSchedule
import Verif.Spec.Automation
import Verif.Spec.Biquad
import Verif.Spec.Chain
import Verif.Spec.Clicks
import Verif.Spec.Client
import Verif.Spec.Compressor
import Verif.Spec.ConvertFloat
import Verif.Spec.Convolution
import Verif.Spec.Effects
import Verif.Spec.Engine
import Verif.Spec.Envelope
import Verif.Spec.Events
import Verif.Spec.FadeFloat
import Verif.Spec.FileExamples
import Verif.Spec.Files
import Verif.Spec.FollowerFloat
import Verif.Spec.Gain
import Verif.Spec.Grid
import Verif.Spec.Healthy
import Verif.Spec.LiveHost
import Verif.Spec.MeterExample
import Verif.Spec.MeterNode
import Verif.Spec.Metronome
import Verif.Spec.MetronomeExample
import Verif.Spec.MixedNodes
import Verif.Spec.Mixer
import Verif.Spec.MixerFloat
import Verif.Spec.Network
import Verif.Spec.Order
import Verif.Spec.Oscillator
import Verif.Spec.OscillatorFloat
import Verif.Spec.OscillatorSession
import Verif.Spec.PanFloat
import Verif.Spec.PanSweep
import Verif.Spec.Parameter
import Verif.Spec.ParameterFloat
import Verif.Spec.Patch
import Verif.Spec.PeriodicFloat
import Verif.Spec.Recorder
import Verif.Spec.RecorderNode
import Verif.Spec.Render
import Verif.Spec.Rewiring
import Verif.Spec.RowExamples
import Verif.Spec.SampleFloat
import Verif.Spec.Sampler
import Verif.Spec.SamplerLoop
import Verif.Spec.SamplerNode
import Verif.Spec.ShapeFloat
import Verif.Spec.Waveshaper
