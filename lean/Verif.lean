import Verif.Basic.Py
import Verif.Basic.Tensor
import Verif.Model.Scheduler
import Verif.Props.Schedule
import Verif.Props.Masking
import Verif.Props.Masking2
import Verif.Props.Masking3
import Verif.Props.SchedulerState
import Verif.Props.Pruners
import Verif.Props.Structures
import Verif.Props.Metrics
import Verif.Props.Blocks
import Verif.Props.Quant
import Verif.Props.QLayer
import Verif.Props.Overrides
import Verif.Props.QAT
import Verif.Props.BNFold
import Verif.Props.Thinning
import Verif.Props.Thinning2
import Verif.Props.Thinning3
import Verif.Props.Collectors
import Verif.Props.Collectors2
import Verif.Props.Collectors3
import Verif.Props.Training
import Verif.Props.Graph
import Verif.Props.Topo
import Verif.Props.Config
import Verif.Props.Checkpoint
import Verif.Props.KD
import Verif.Props.Greedy
import Verif.Props.Stats
import Verif.Props.QOps
import Verif.Props.TorchQuant
import Verif.Props.TrainLoop
import Verif.Props.TrainLoop2
import Verif.Props.EarlyExit
import Verif.Props.EarlyExit2
import Verif.Props.Thinning4
import Verif.Lemmas.RecipeDirs
import Verif.Lemmas.Pick
import Verif.Props.Thinning5
import Verif.Props.Sensitivity
import Verif.Props.Modes
import Verif.Props.DoubleCopy
import Verif.Props.KeepMask
import Verif.Props.Regularizers
import Verif.Props.PTQSearch
import Verif.Props.LSTM2
import Verif.Model.Replace
import Verif.Props.Replace
import Verif.Lemmas.RecipeDirsC
import Verif.Props.Thinning6
import Verif.Model.ThinGraph
import Verif.Props.ThinGraph
import Verif.Model.PTQFuse
import Verif.Props.PTQFuse
import Verif.Props.PTQFuse2
import Verif.Model.DropFilter
import Verif.Props.DropFilter
import Verif.Model.Remover
import Verif.Props.Remover
import Verif.Model.Trace
import Verif.Props.Trace
import Verif.Model.Perf
import Verif.Props.Perf
import Verif.Props.NonParallel
import Verif.Model.Attr
import Verif.Props.Attr
import Verif.Model.TSVD
import Verif.Props.TSVD
import Verif.Model.MaskSummary
import Verif.Props.MaskSummary
import Verif.Model.TorchConvert
import Verif.Props.TorchConvert
import Verif.Model.SharedInput
import Verif.Props.SharedInput
import Verif.Model.TorchLayer
import Verif.Props.TorchLayer
import Verif.Model.Embedding
import Verif.Props.Embedding
import Verif.Model.DynLayer
import Verif.Props.DynLayer
import Verif.Model.AMC
import Verif.Props.AMC
import Verif.Model.FMRecon
import Verif.Props.FMRecon
import Verif.Model.RandomPruner
import Verif.Props.RandomPruner
import Verif.Model.Resume
import Verif.Lemmas.Resume
import Verif.Props.Resume
import Verif.Model.FoldNet
import Verif.Props.FoldNet
import Verif.Model.ModList
import Verif.Props.ModList
import Verif.Model.PTQConfig
import Verif.Props.PTQConfig
import Verif.Model.ActSummary
import Verif.Model.QReload
import Verif.Props.ActSummary
import Verif.Props.QReload
import Verif.Model.ClassPatch
import Verif.Model.OptGroups
import Verif.Model.TorchOps
import Verif.Props.ClassPatch
import Verif.Props.OptGroups
import Verif.Props.TorchOps
import Verif.Model.SparsSummary
import Verif.Props.SparsSummary
import Verif.Props.NameMap
import Verif.Props.RankedMore
import Verif.Model.TensorClip
import Verif.Props.TensorClip
import Verif.Props.BlockSparsity
import Verif.Props.QMore
import Verif.Model.SearchInit
import Verif.Props.SearchInit
import Verif.Props.TopoRec
import Verif.Props.SensStruct
import Verif.Model.ParamNames
import Verif.Props.ParamNames
import Verif.Model.QuantStats
import Verif.Props.QuantStats
import Verif.Model.Deps
import Verif.Props.Deps
import Verif.Props.Lottery
import Verif.Props.EvalQuant
import Verif.Props.Inputs
import Verif.Props.LayerGates
import Verif.Model.Directives
import Verif.Props.Directives
import Verif.Model.CreateModel
import Verif.Props.CreateModel
import Verif.Model.Logging
import Verif.Props.Logging
import Verif.Model.PTQReport
import Verif.Props.PTQReport
import Verif.Model.Setup
import Verif.Props.Setup
import Verif.Model.Replay
import Verif.Model.Parallel
import Verif.Props.Replay
import Verif.Props.Parallel
import Verif.Model.Seq2Seq
import Verif.Model.Sampler
import Verif.Props.Seq2Seq
import Verif.Props.Sampler
import Verif.Props.Grouped
import Verif.Model.LangModel
import Verif.Props.LangModel
import Verif.Model.NCF
import Verif.Props.NCF
import Verif.Model.Beam
import Verif.Props.Beam
import Verif.Model.BeamBatch
import Verif.Props.BeamBatch
import Verif.Model.TransData
import Verif.Props.TransData
import Verif.Props.TransBatch
import Verif.Model.MultiRun
import Verif.Props.MultiRun
import Verif.Model.GroupNorm
import Verif.Props.GroupNorm
import Verif.Model.DatasetSummary
import Verif.Props.DatasetSummary
import Verif.Props.RankedNoise
