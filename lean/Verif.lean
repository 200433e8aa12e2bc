import Verif.Props.Analyzer
import Verif.Props.Augment
import Verif.Props.AutoNet
import Verif.Props.AutoSlim
import Verif.Props.Autoformer
import Verif.Props.Backbones
import Verif.Props.BackendCfg
import Verif.Props.BnSearch
import Verif.Props.Build
import Verif.Props.Calibration
import Verif.Props.Candidates
import Verif.Props.ChannelFlow
import Verif.Props.ChannelGraph
import Verif.Props.ChannelNodes
import Verif.Props.ChannelOrdinary
import Verif.Props.ChannelPlain
import Verif.Props.ChannelShapes
import Verif.Props.ChannelUnit
import Verif.Props.Ckpt
import Verif.Props.CmdTools
import Verif.Props.Compressor
import Verif.Props.Connect
import Verif.Props.Container
import Verif.Props.Contrast
import Verif.Props.CountedNet
import Verif.Props.Crd
import Verif.Props.CustomTracer
import Verif.Props.Darts
import Verif.Props.DartsNet
import Verif.Props.DataFree
import Verif.Props.Dcff
import Verif.Props.Ddp
import Verif.Props.Delivery
import Verif.Props.Deploy
import Verif.Props.Derived
import Verif.Props.DiffMix
import Verif.Props.DistillAlgos
import Verif.Props.Distiller
import Verif.Props.DmcpChannel
import Verif.Props.DmcpLoss
import Verif.Props.DmcpTrain
import Verif.Props.Dsnas
import Verif.Props.DsnasArch
import Verif.Props.DynamicNorm
import Verif.Props.DynamicOps
import Verif.Props.EstimateOptions
import Verif.Props.Estimator
import Verif.Props.Evolution
import Verif.Props.Expand
import Verif.Props.FakeQuantDel
import Verif.Props.FeatureLoss
import Verif.Props.FisherInfo
import Verif.Props.FisherRun
import Verif.Props.FixSubnet
import Verif.Props.FxTrace
import Verif.Props.Gather
import Verif.Props.GptqLayer
import Verif.Props.GptqPack
import Verif.Props.GptqQuantizer
import Verif.Props.Graph
import Verif.Props.GroupFisher
import Verif.Props.Groups
import Verif.Props.Heads
import Verif.Props.Hooks
import Verif.Props.InputRec
import Verif.Props.ItePrune
import Verif.Props.Kernel
import Verif.Props.L1Norm
import Verif.Props.L1Train
import Verif.Props.LangEval
import Verif.Props.Latest
import Verif.Props.Loaders
import Verif.Props.LogitLoss
import Verif.Props.MakeDivisible
import Verif.Props.ModuleGraph
import Verif.Props.MutableModule
import Verif.Props.MutableValue
import Verif.Props.Mutator
import Verif.Props.MutatorCfg
import Verif.Props.Observers
import Verif.Props.Ofd
import Verif.Props.OnnxExport
import Verif.Props.OnnxGraph
import Verif.Props.Paths
import Verif.Props.PredRun
import Verif.Props.Predefined
import Verif.Props.Predictor
import Verif.Props.PrunedNet
import Verif.Props.QParams
import Verif.Props.QatLoop
import Verif.Props.QuantCfg
import Verif.Props.QuantModes
import Verif.Props.Recorder
import Verif.Props.RelationLoss
import Verif.Props.SampleLaw
import Verif.Props.Sampler
import Verif.Props.Sandwich
import Verif.Props.SearchOps
import Verif.Props.SearchRun
import Verif.Props.SeqChannel
import Verif.Props.SlimUnits
import Verif.Props.SparseGpt
import Verif.Props.SubModel
import Verif.Props.SyncNorm
import Verif.Props.Thresholds
import Verif.Props.Tracer
import Verif.Props.TransOps
import Verif.Props.Triton
import Verif.Props.Utils
import Verif.Props.V3Export
import Verif.Props.ValLoops
import Verif.Props.Version
import Verif.Props.WideNet
