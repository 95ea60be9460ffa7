import Verif.Lemmas.CeilFl
import Verif.Lemmas.Compare
import Verif.Lemmas.Compare2
import Verif.Lemmas.Condorcet
import Verif.Lemmas.Dcg
import Verif.Lemmas.Dict
import Verif.Lemmas.Evaluate
import Verif.Lemmas.Evaluate2
import Verif.Lemmas.Float64
import Verif.Lemmas.FloatText
import Verif.Lemmas.Fuse
import Verif.Lemmas.Fuse2
import Verif.Lemmas.FuseNorm
import Verif.Lemmas.Fusion
import Verif.Lemmas.Fusion2
import Verif.Lemmas.Handles
import Verif.Lemmas.Heap
import Verif.Lemmas.Heap2
import Verif.Lemmas.Heap3
import Verif.Lemmas.Heap4
import Verif.Lemmas.IO
import Verif.Lemmas.Metrics
import Verif.Lemmas.Metrics2
import Verif.Lemmas.MetricsFl
import Verif.Lemmas.MetricsFl2
import Verif.Lemmas.MetricsSpec
import Verif.Lemmas.Norm
import Verif.Lemmas.Prange
import Verif.Lemmas.PyStr
import Verif.Lemmas.Rescore
import Verif.Lemmas.Sort
import Verif.Lemmas.Store
import Verif.Lemmas.Text
import Verif.Model.Basic
import Verif.Model.Bytes
import Verif.Model.BytesRun
import Verif.Model.CeilFl
import Verif.Model.Condorcet
import Verif.Model.Convert
import Verif.Model.Crash
import Verif.Model.Dcg
import Verif.Model.Download
import Verif.Model.DownloadConc
import Verif.Model.Evaluate
import Verif.Model.EvaluateAny
import Verif.Model.Float64
import Verif.Model.FloatText
import Verif.Model.FloatTextX
import Verif.Model.Format
import Verif.Model.Frame
import Verif.Model.Frames
import Verif.Model.Fuse
import Verif.Model.Fusion
import Verif.Model.FusionFl
import Verif.Model.Grid
import Verif.Model.Handles
import Verif.Model.Heap
import Verif.Model.Hub
import Verif.Model.IO
import Verif.Model.Json
import Verif.Model.Labels
import Verif.Model.Latex
import Verif.Model.Lists
import Verif.Model.Metrics
import Verif.Model.MetricsFl
import Verif.Model.Norm
import Verif.Model.NormFl
import Verif.Model.Optimize
import Verif.Model.OptimizeState
import Verif.Model.Plot
import Verif.Model.Prange
import Verif.Model.ProbFl
import Verif.Model.PyStr
import Verif.Model.Report
import Verif.Model.Session
import Verif.Model.Sort
import Verif.Model.Sources
import Verif.Model.Special
import Verif.Model.SpecialFuse
import Verif.Model.Stats
import Verif.Model.StatsFl
import Verif.Model.Store
import Verif.Model.Threads
import Verif.Model.Train
import Verif.Model.TrainFl
import Verif.Props.BayesFl
import Verif.Props.BigJudgements
import Verif.Props.Borda
import Verif.Props.BordaFl
import Verif.Props.BordaOrder
import Verif.Props.BordaRank
import Verif.Props.BordaRank2
import Verif.Props.ByteCodec
import Verif.Props.BytesRun
import Verif.Props.Cbor
import Verif.Props.Compare
import Verif.Props.Compare2
import Verif.Props.CompareNames
import Verif.Props.CompareSubset
import Verif.Props.Condorcet
import Verif.Props.Convert
import Verif.Props.Crash
import Verif.Props.Dataframe
import Verif.Props.Dcg
import Verif.Props.DcgFl
import Verif.Props.DeepCutoff
import Verif.Props.Download
import Verif.Props.DownloadConc
import Verif.Props.EndToEnd
import Verif.Props.Ensemble
import Verif.Props.Evaluate
import Verif.Props.Evaluate2
import Verif.Props.EvaluateAny
import Verif.Props.EvaluateArgs
import Verif.Props.EvaluateCongr
import Verif.Props.EvaluateMeta
import Verif.Props.EvaluateNan
import Verif.Props.EvaluateNorm
import Verif.Props.EvaluateStd
import Verif.Props.Files
import Verif.Props.FilesB
import Verif.Props.FilesC
import Verif.Props.FilesEval
import Verif.Props.FilesUtil
import Verif.Props.FisherFl
import Verif.Props.FloatText
import Verif.Props.FloatText2
import Verif.Props.FloatText3
import Verif.Props.FloatText4
import Verif.Props.Folds
import Verif.Props.Format
import Verif.Props.Frame
import Verif.Props.Frames
import Verif.Props.Fuse
import Verif.Props.FuseBuilt
import Verif.Props.FuseContent
import Verif.Props.FuseEnd
import Verif.Props.FuseHash
import Verif.Props.FuseParams
import Verif.Props.FuseRenaming
import Verif.Props.Fusion
import Verif.Props.FusionBayes
import Verif.Props.FusionBorda
import Verif.Props.FusionFl
import Verif.Props.FusionMono
import Verif.Props.FusionRank
import Verif.Props.FusionRel
import Verif.Props.FusionSym
import Verif.Props.FusionWeights
import Verif.Props.Grid
import Verif.Props.Grid2
import Verif.Props.Grid3
import Verif.Props.Handles
import Verif.Props.HashFree
import Verif.Props.Heap
import Verif.Props.Hub
import Verif.Props.Json
import Verif.Props.JsonExamples
import Verif.Props.JsonFiles
import Verif.Props.JsonReport
import Verif.Props.Labels
import Verif.Props.Labels2
import Verif.Props.LargerSpace
import Verif.Props.Latex
import Verif.Props.Lists
import Verif.Props.MetricOrder
import Verif.Props.MetricRelations
import Verif.Props.MetricString
import Verif.Props.Metrics
import Verif.Props.Metrics2
import Verif.Props.MetricsFl
import Verif.Props.MetricsFl2
import Verif.Props.Norm
import Verif.Props.NormFl
import Verif.Props.NormTwice
import Verif.Props.Optimize
import Verif.Props.Optimize2
import Verif.Props.OptimizeNames
import Verif.Props.OptimizeScale
import Verif.Props.OptimizeSearch
import Verif.Props.OptimizeState
import Verif.Props.OptimizeTotal
import Verif.Props.OptimizeTotal2
import Verif.Props.OwnScores
import Verif.Props.Plot
import Verif.Props.ProbFl
import Verif.Props.QueryNames
import Verif.Props.QueryNamesCompare
import Verif.Props.QueryNamesFuse
import Verif.Props.QueryNamesTune
import Verif.Props.Renaming
import Verif.Props.Repeated
import Verif.Props.Report
import Verif.Props.Report2
import Verif.Props.Report3
import Verif.Props.Retrieval
import Verif.Props.SameCandidates
import Verif.Props.SameCandidates2
import Verif.Props.Scale
import Verif.Props.Session
import Verif.Props.SilentRun
import Verif.Props.Sources
import Verif.Props.Special
import Verif.Props.SpecialFuse
import Verif.Props.SpecialNorm
import Verif.Props.Stages
import Verif.Props.Stats
import Verif.Props.Store
import Verif.Props.Threads
import Verif.Props.Threshold
import Verif.Props.Train
import Verif.Props.TrainFl
import Verif.Props.TrecFloats
import Verif.Props.Tuned
import Verif.Props.TunedSingle
import Verif.Props.Unanimity
import Verif.Props.Utf8
import Verif.Props.WmnzWeights
import Verif.Props.ZeroWeight
import Verif.Spec.Fusion
import Verif.Spec.Handles
import Verif.Spec.Heap
import Verif.Spec.Metrics
import Verif.Spec.Store
