import Verif.Py
import Verif.Sparse
import Verif.SparseLemmas
import Verif.BaseGraph
import Verif.Graph
import Verif.GraphReads
import Verif.GraphApi
import Verif.GraphLemmas
import Verif.ListSpec
import Verif.GraphSpec
import Verif.GraphAbs
import Verif.GraphHelpers
import Verif.MatAlg
import Verif.GraphMat
import Verif.GraphMat2
import Verif.MsgLemmas
import Verif.Props.GraphEdges
import Verif.Props.GraphEdges2
import Verif.Props.GraphMatrices
import Verif.Props.GraphMessages
import Verif.Props.GraphRename
import Verif.Ordered
import Verif.DiGraph
import Verif.BiGraph
import Verif.OrderedReads
import Verif.OrderedSpec
import Verif.OrderedLemmas
import Verif.DiGraphLemmas
import Verif.OrderedMat
import Verif.OrderedFold
import Verif.OrderedRaw
import Verif.Props.DiGraphEdges
import Verif.Props.DiGraphMatrices
import Verif.BiGraphLemmas
import Verif.BiMat
import Verif.Props.BiGraphEdges
import Verif.Props.BiGraphMatrices
import Verif.PyOn
import Verif.Hypergraph
import Verif.HyperApi
import Verif.HyperReads
import Verif.HyperLemmas
import Verif.HyperInv
import Verif.HyperSpec
import Verif.HyperAbs
import Verif.HyperSub
import Verif.Props.HyperEdges
import Verif.Props.HyperSubgraph
import Verif.HyperListSpec
import Verif.HyperMat
import Verif.HyperMat2
import Verif.HyperMsg
import Verif.Props.HyperMatrices
import Verif.Props.HyperMessages
import Verif.Convert
import Verif.ConvertSpec
import Verif.ConvertLemmas
import Verif.ConvertHyper
import Verif.ConvertBi
import Verif.Props.ConvertGraphs
import Verif.Props.ConvertHypers
import Verif.Rand
import Verif.Utils
import Verif.UtilsSpec
import Verif.UtilsLemmas
import Verif.UtilsSplit
import Verif.UtilsUI
import Verif.UtilsMath
import Verif.Props.UtilsStructure
import Verif.Props.UtilsSplit
import Verif.Props.UtilsData
import Verif.Metrics
import Verif.MetricsSpec
import Verif.MetricsLemmas
import Verif.MetricsNdcg
import Verif.MetricsAp
import Verif.Props.MetricsRank
import Verif.Props.MetricsAp
import Verif.Props.Smoothing
import Verif.Evaluator
import Verif.Props.Classification
import Verif.EvaluatorSpec
import Verif.EvaluatorLemmas
import Verif.EvaluatorRows
import Verif.Props.Evaluator
import Verif.Random
import Verif.RandomSpec
import Verif.RandomLemmas
import Verif.RandomLoops
import Verif.RandomFeature
import Verif.Props.Random
import Verif.Props.RandomHyper
import Verif.Props.RandomFeature
import Verif.Download
import Verif.Data
import Verif.Props.Download
import Verif.Props.Data
import Verif.Props.Catalogue
import Verif.Props.OrderFree
import Verif.Datapipe
import Verif.Experiment
import Verif.Props.Datapipe
import Verif.Props.Loader
import Verif.Props.Experiment
import Verif.Nn
import Verif.NnLoss
import Verif.Props.NnGraph
import Verif.Props.NnHyper
import Verif.Props.HyperRename
import Verif.Props.NnLoss
import Verif.Models
import Verif.Props.ModelParts
import Verif.Props.Models
import Verif.Props.HyperRenameNn
import Verif.Props.GraphRenameNn
import Verif.Props.TwoUniform
import Verif.Props.Recommend
import Verif.Vis
import Verif.Props.Vis
import Verif.Heap
import Verif.HeapLemmas
import Verif.Keeps
import Verif.Props.Heap
import Verif.Device
import Verif.DeviceLemmas
import Verif.Props.Device
import Verif.Feature
import Verif.Props.Feature
import Verif.Bgnn
import Verif.Props.Bgnn
import Verif.BgnnTrain
import Verif.Props.BgnnTrain
import Verif.Props.BuildEval
import Verif.Seed
import Verif.Props.Seed
import Verif.StdLog
import Verif.Props.StdLog
import Verif.Study
import Verif.Props.Study
import Verif.Task
import Verif.Props.Task
import Verif.Props.RecTask
import Verif.Props.Shapes
import Verif.Props.Layout
import Verif.Props.ModelForm
import Verif.Props.Styles
import Verif.Props.ConvertWeights
import Verif.Props.Drops
import Verif.Grows
import Verif.Blind
import Verif.Scoped
import Verif.Live
import Verif.LiveSpec
import Verif.LiveLemmas
import Verif.LiveClasses
import Verif.Props.Live
import Verif.Unweighted
import Verif.SharedWeights
import Verif.SharedWeightsSpec
import Verif.SharedWeightsLemmas
import Verif.Props.SharedWeights
import Verif.ArgLists
import Verif.ArgListsSpec
import Verif.ArgListsLemmas
import Verif.ArgCaches
import Verif.Props.ArgLists
import Verif.Props.Contract
import Verif.Props.Range
import Verif.Props.MetricsOrder
import Verif.Props.MetricsShuffle
import Verif.Props.ScaledWeights
import Verif.Props.Linear
import Verif.Props.MetricsUp
import Verif.DirHyper
import Verif.DirHyperLemmas
import Verif.DirHyperSpec
import Verif.DirHyperStore
import Verif.Props.DirHyper
import Verif.Props.Accepts
import Verif.Props.Kernel
import Verif.Props.Local
import Verif.Props.Edits
import Verif.Props.EditsHyper
import Verif.Props.Adjoint
import Verif.Props.Conserve
import Verif.Props.Energy
import Verif.TaskDevice
import Verif.Props.TaskData
import Verif.Signatures
import Verif.Props.Signatures
import Verif.Props.OrderedRename
import Verif.Props.SideBySide
import Verif.Props.SideBySideHyper
import Verif.Props.RandomLaw
import Verif.Props.RandomUniform
import Verif.Props.SplitUniform
import Verif.Props.SplitUniformUI
import Verif.Props.SampleUniform
import Verif.Props.DropLaw
import Verif.Props.Attention
import Verif.Props.DropTwice
import Verif.Props.LightGcnDrop
import Verif.Props.DropDeep
import Verif.Props.EditsOrdered
import Verif.Props.EditsRemove
import Verif.Props.DropSpread
import Verif.Props.DropSpread2
import Verif.Props.DropRows
import Verif.Props.DropMean
