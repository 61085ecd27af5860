import Verif.Props.Walk
import Verif.Props.NodeState
import Verif.Props.GradBuf
import Verif.Props.Ids
import Verif.Props.GraphEdit
import Verif.Props.Copy
import Verif.Props.Serialize
import Verif.Props.UseParams
import Verif.Props.FinishUpdate
import Verif.Props.Schedules
import Verif.Props.Plateau
import Verif.Props.Optimizer
import Verif.Props.Averages
import Verif.Props.Flatten
import Verif.Props.Pad
import Verif.Props.Padded
import Verif.Props.Packing
import Verif.Props.Ragged
import Verif.Props.PaddedIndex
import Verif.Props.Batching
import Verif.Props.WithLayers
import Verif.Props.Pooling
import Verif.Props.PoolMax
import Verif.Props.PoolEnds
import Verif.Props.Seq2col
import Verif.Props.Maxout
import Verif.Props.Gather
import Verif.Props.Activations
import Verif.Props.ClippedLinear
import Verif.Props.Softmax
import Verif.Props.Categorical
import Verif.Props.Crossentropy
import Verif.Props.CrossentropyGrad
import Verif.Props.SequenceLoss
import Verif.Props.Distance
import Verif.Props.Chain
import Verif.Props.Linear
import Verif.Props.AddLayer
import Verif.Props.Concatenate
import Verif.Props.ConcatenateSeqs
import Verif.Props.Combinators
import Verif.Props.Tuples
import Verif.Props.WithGetitem
import Verif.Props.AddAliasing
import Verif.Props.Dense
import Verif.Props.Network
import Verif.Props.Bidirectional
import Verif.Props.LayerNorm
import Verif.Props.Dropout
import Verif.Props.Hash
import Verif.Props.Embed
import Verif.Props.Uniqued
import Verif.Model.Attention
import Verif.Spec.Attention
import Verif.Lemmas.Attention
import Verif.Props.Attention
import Verif.Model.SoftmaxLayer
import Verif.Spec.Training
import Verif.Props.SoftmaxLayer
import Verif.Props.Training
import Verif.Model.Recursive
import Verif.Spec.Recursive
import Verif.Props.Recursive
import Verif.Model.Context
import Verif.Spec.Context
import Verif.Props.Context
import Verif.Model.Resize
import Verif.Props.Resize
import Verif.Props.MaxoutLayer
import Verif.Props.PoolLayers
import Verif.Props.WindowLayer
import Verif.Props.Sgd
import Verif.Props.Cauchy
import Verif.Props.Initialize
import Verif.Spec.Rows
import Verif.Model.SeqLayers
import Verif.Lemmas.Rows
import Verif.Lemmas.Places
import Verif.Lemmas.BatchPlaces
import Verif.Props.SeqLayers
import Verif.Props.SeqLayersPadded
import Verif.Spec.SparseLinear
import Verif.Model.SparseLinear
import Verif.Lemmas.SparseLinear
import Verif.Props.SparseLinear
import Verif.Spec.Lstm
import Verif.Model.Lstm
import Verif.Model.LstmLayer
import Verif.Lemmas.LstmStep
import Verif.Lemmas.LstmDirection
import Verif.Lemmas.LstmStack
import Verif.Lemmas.LstmLayer
import Verif.Props.Lstm
import Verif.Spec.LstmBack
import Verif.Model.LstmBack
import Verif.Lemmas.LstmBackStep
import Verif.Lemmas.LstmAdjoint
import Verif.Lemmas.LstmBackRun
import Verif.Lemmas.LstmBackStack
import Verif.Lemmas.LstmBackProps
import Verif.Props.LstmBack
import Verif.Spec.LstmBase
import Verif.Model.LstmBase
import Verif.Lemmas.LstmBase
import Verif.Lemmas.LstmBaseBack
import Verif.Props.LstmBase
import Verif.Model.Getitem
import Verif.Spec.Getitem
import Verif.Lemmas.Getitem
import Verif.Props.Getitem
import Verif.Model.RemapIds
import Verif.Props.RemapIds
import Verif.Model.TreeWide
import Verif.Lemmas.WrapTree
import Verif.Props.TreeWide
import Verif.Model.ParamProxy
import Verif.Props.ParamProxy
import Verif.Model.TextLayers
import Verif.Spec.TextLayers
import Verif.Props.TextLayers
import Verif.Props.Tagger
import Verif.Spec.Adam
import Verif.Lemmas.Adam
import Verif.Props.Adam
import Verif.Props.Progress
import Verif.Model.PositionEncode
import Verif.Spec.PositionEncode
import Verif.Lemmas.PositionEncode
import Verif.Props.PositionEncode
import Verif.Model.TorchShim
import Verif.Spec.TorchShim
import Verif.Props.TorchShim
import Verif.Model.Wrapped
import Verif.Props.Wrapped
import Verif.Model.Gpu
import Verif.Spec.Gpu
import Verif.Lemmas.Gpu
import Verif.Model.GpuKernels
import Verif.Lemmas.GpuKernels
import Verif.Props.GpuKernels
import Verif.Model.GpuElementwise
import Verif.Props.GpuElementwise
import Verif.Props.GpuHash
import Verif.Model.TorchWrapper
import Verif.Spec.TorchWrapper
import Verif.Props.TorchWrapper
import Verif.Model.DebugWrappers
import Verif.Spec.DebugWrappers
import Verif.Props.DebugWrappers
import Verif.Model.Containers
import Verif.Spec.Containers
import Verif.Props.Containers
import Verif.Model.TensorFlow
import Verif.Spec.TensorFlow
import Verif.Props.TensorFlow
import Verif.Model.Initializers
import Verif.Spec.Initializers
import Verif.Props.Initializers
import Verif.Props.InitVariance
import Verif.Model.Threads
import Verif.Spec.Threads
import Verif.Lemmas.Threads
import Verif.Props.Threads
import Verif.Model.Backends
import Verif.Props.Backends
import Verif.Model.Factories
import Verif.Spec.Factories
import Verif.Lemmas.Factories
import Verif.Props.Factories
import Verif.Spec.Radam
import Verif.Props.Radam
import Verif.Model.TextInit
import Verif.Spec.TextShapes
import Verif.Lemmas.TextShapes
import Verif.Lemmas.TextPlain
import Verif.Lemmas.TextWrap
import Verif.Lemmas.TextLeaf
import Verif.Lemmas.TextComb
import Verif.Lemmas.TextGood
import Verif.Lemmas.TextArr
import Verif.Props.TextInit
import Verif.Model.WideInit
import Verif.Spec.WideModels
import Verif.Lemmas.WideModels
import Verif.Props.WideInit
import Verif.Model.Validate
import Verif.Spec.Validate
import Verif.Props.Validate
import Verif.Model.Plugin
import Verif.Spec.Plugin
import Verif.Props.Plugin
import Verif.Model.Devices
import Verif.Props.Devices
import Verif.Props.Descent
import Verif.Props.SoftmaxDescent
import Verif.Props.Splitting
import Verif.Props.CopyTraining
import Verif.Props.WithInit
import Verif.Props.Instances.Schedules
import Verif.Props.Instances.Layers
import Verif.Props.Instances.Dense
import Verif.Props.Instances.Training
import Verif.Spec.Documents
import Verif.Props.Documents
import Verif.Spec.DocTraining
import Verif.Props.DocTraining
import Verif.Model.Session
import Verif.Spec.Session
import Verif.Props.Session
import Verif.Model.ArrMem
import Verif.Model.ArrMemLayers
import Verif.Spec.ArrMem
import Verif.Lemmas.ArrMem
import Verif.Props.ArrMem
import Verif.Props.ArrMemLayers
import Verif.Props.ArrMemConcat
import Verif.Props.ArrMemResidual
import Verif.Props.ArrMemTuplify
import Verif.Props.ArrMemWrong
import Verif.Props.Instances.Memory
import Verif.Model.MemSession
import Verif.Spec.MemSession
import Verif.Props.MemSession
import Verif.Props.MemSessionWrong
import Verif.Props.Instances.MemSession
import Verif.Spec.CanLoad
import Verif.Props.CanLoad
import Verif.Model.MemLoop
import Verif.Props.MemLoop
import Verif.Props.Instances.MemLoop
import Verif.Model.ArrMemSeq
import Verif.Props.ArrMemSeq
import Verif.Props.ArrMemPadded
import Verif.Model.Disk
import Verif.Spec.Disk
import Verif.Lemmas.Disk
import Verif.Lemmas.DiskKeys
import Verif.Props.Disk
import Verif.Props.DiskBytes
import Verif.Props.DiskWrong
import Verif.Lemmas.TrainFrame
import Verif.Model.Checkpoint
import Verif.Lemmas.Checkpoint
import Verif.Props.Checkpoint
import Verif.Props.CheckpointWrong
import Verif.Model.Float
import Verif.Spec.Float
import Verif.Lemmas.Float
import Verif.Lemmas.FloatSum
import Verif.Props.Float
import Verif.Props.FloatWrong
import Verif.Props.TextInitArgs
import Verif.Props.TextInitWidth
import Verif.Spec.FloatAcc
import Verif.Lemmas.FloatAcc
import Verif.Lemmas.SoftmaxAcc
import Verif.Props.FloatAcc
import Verif.Props.Instances.Float32
import Verif.Props.DiskAbsent
import Verif.Model.Random
import Verif.Spec.Random
import Verif.Props.Random
import Verif.Props.RandomFresh
import Verif.Model.FlattenInit
import Verif.Props.FlattenInit
import Verif.Model.FloatAdam
import Verif.Spec.FloatAdam
import Verif.Props.FloatAdam
import Verif.Model.Concurrent
import Verif.Spec.Concurrent
import Verif.Props.Concurrent
import Verif.Props.ConcurrentGrads
import Verif.Props.ConcurrentLayers
import Verif.Spec.MemSafe
import Verif.Lemmas.MemSafe
import Verif.Lemmas.MemSafeLayers
import Verif.Lemmas.MemSafeLeaves
import Verif.Props.MemSafe
import Verif.Props.Instances.Witnesses
import Verif.Props.Instances.Witnesses2
import Verif.Props.Instances.Witnesses3
import Verif.Model.Gemm
import Verif.Spec.Gemm
import Verif.Lemmas.Gemm
import Verif.Props.Gemm
import Verif.Model.FloatGemm
import Verif.Spec.FloatGemm
import Verif.Lemmas.FloatGemm
import Verif.Props.FloatGemm
import Verif.Model.FloatNet
import Verif.Spec.FloatNet
import Verif.Lemmas.FloatNet
import Verif.Props.FloatNet
import Verif.Model.Frameworks
import Verif.Spec.Frameworks
import Verif.Props.Frameworks
import Verif.Model.FloatMaxout
import Verif.Spec.FloatMaxout
import Verif.Lemmas.FloatMaxout
import Verif.Props.FloatMaxout
import Verif.Props.InitExamples
import Verif.Model.FloatGrad
import Verif.Spec.FloatGrad
import Verif.Lemmas.FloatGrad
import Verif.Props.FloatGrad
import Verif.Model.FloatTrain
import Verif.Spec.FloatTrain
import Verif.Props.FloatTrain
import Verif.Model.FloatSgd
import Verif.Spec.FloatSgd
import Verif.Props.FloatSgd
import Verif.Model.ArrConv
import Verif.Spec.ArrConv
import Verif.Props.ArrConv
import Verif.Model.ArrShape
import Verif.Spec.ArrShape
import Verif.Props.ArrShape
import Verif.Props.ArrConvDisk
import Verif.Props.Gaps
import Verif.Props.GapErrors
import Verif.Model.SmallOps
import Verif.Props.SmallOps
import Verif.Model.AdamViews
import Verif.Props.AdamViews
import Verif.Model.ActLayout
import Verif.Props.ActLayout
