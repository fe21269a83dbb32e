import Verif.Base.Loop
import Verif.Model.Tensor
import Verif.Proof.Tensor
import Verif.Proof.TensorOps
import Verif.Props.Tensor
import Verif.Base.Bytes
import Verif.Model.Compress
import Verif.Model.Stream
import Verif.Proof.Compress
import Verif.Proof.Stream
import Verif.Proof.CStream
import Verif.Props.Stream
import Verif.Model.Stats
import Verif.Props.Stats
import Verif.Model.Ownership
import Verif.Props.Ownership
import Verif.Spec.Config
import Verif.Base.Regex
import Verif.Model.Config
import Verif.Proof.Config
import Verif.Proof.Factory
import Verif.Props.Config
import Verif.Base.Outcome
import Verif.Base.Kernel
import Verif.Model.TensorMath
import Verif.Proof.Gemm
import Verif.Proof.TensorMath
import Verif.Props.TensorMath
import Verif.Model.Convolution
import Verif.Proof.Adjoint
import Verif.Proof.Convolution
import Verif.Props.Convolution
import Verif.Base.Nest
import Verif.Model.Pooling
import Verif.Proof.Pooling
import Verif.Props.Pooling
import Verif.Model.Layers
import Verif.Proof.Layers
import Verif.Props.Layers
import Verif.Model.NetGraph
import Verif.Proof.Dfs
import Verif.Proof.NetGraph
import Verif.Proof.Params
import Verif.Props.NetGraph
import Verif.Model.Trainer
import Verif.Model.Schedule
import Verif.Proof.Trainer
import Verif.Props.Trainer
import Verif.Base.Writes
import Verif.Model.Dataset
import Verif.Proof.Dataset
import Verif.Props.Dataset
import Verif.Model.Sampling
import Verif.Proof.Sampling
import Verif.Props.Sampling
import Verif.Model.PatchDataset
import Verif.Proof.PatchDataset
import Verif.Props.PatchDataset
import Verif.Model.StatLayers
import Verif.Model.Segmentation
import Verif.Model.Colorize
import Verif.Model.GradientTester
import Verif.Model.Kitti
import Verif.Model.Activations
import Verif.Model.Lrn
import Verif.Proof.StatLayers
import Verif.Proof.Segmentation
import Verif.Proof.Colorize
import Verif.Proof.GradientTester
import Verif.Proof.Activations
import Verif.Proof.Lrn
import Verif.Props.StatLayers
import Verif.Props.Segmentation
import Verif.Props.Colorize
import Verif.Props.GradientTester
import Verif.Props.Kitti
import Verif.Props.Activations
import Verif.Props.Lrn
import Verif.Base.Parallel
import Verif.Base.ParallelRules
import Verif.Model.Parallel
import Verif.Proof.Parallel
import Verif.Props.Parallel
import Verif.Spec.NetConfig
import Verif.Model.NetConfig
import Verif.Proof.NetConfig
import Verif.Props.NetConfig
import Verif.Props.NetLayers
import Verif.Spec.Device
import Verif.Model.Device
import Verif.Proof.Device
import Verif.Props.Device
import Verif.Model.Gradient
import Verif.Spec.Gradient
import Verif.Proof.Gradient
import Verif.Props.Gradient
import Verif.Model.GradientLayers
import Verif.Proof.GradientLayers
import Verif.Props.GradientLayers
import Verif.Props.GradientCases
import Verif.Props.GradientNorm
import Verif.Props.GradientNet
import Verif.Model.HMax
import Verif.Proof.HMax
import Verif.Props.HMax
import Verif.Base.Round
import Verif.Model.Image
import Verif.Proof.Image
import Verif.Props.Image
import Verif.Model.ListStream
import Verif.Proof.ListStream
import Verif.Props.ListStream
import Verif.Spec.DatasetConfig
import Verif.Model.DatasetConfig
import Verif.Proof.DatasetConfig
import Verif.Props.DatasetConfig
import Verif.Model.PatchLoad
import Verif.Proof.PatchLoad
import Verif.Props.PatchLoad
import Verif.Model.TrainSettings
import Verif.Props.TrainSettings
import Verif.Model.Session
import Verif.Proof.Session
import Verif.Proof.SessionSource
import Verif.Proof.SessionRows
import Verif.Props.Session
import Verif.Model.Hybrid
import Verif.Proof.Hybrid
import Verif.Props.Hybrid
import Verif.Spec.Tool
import Verif.Model.Tool
import Verif.Proof.Tool
import Verif.Props.Tool
import Verif.Model.Classify
import Verif.Proof.Classify
import Verif.Props.Classify
import Verif.Model.StreamTools
import Verif.Proof.StreamTools
import Verif.Props.StreamTools
import Verif.Model.CsvFiles
import Verif.Proof.CsvFiles
import Verif.Props.CsvFiles
import Verif.Model.ClassStats
import Verif.Proof.ClassStats
import Verif.Props.ClassStats
import Verif.Model.TensorTool
import Verif.Proof.TensorTool
import Verif.Props.TensorTool
import Verif.Model.DeviceKernels
import Verif.Proof.DeviceKernels
import Verif.Proof.DevicePooling
import Verif.Props.DeviceKernels
import Verif.Model.DeviceNet
import Verif.Spec.DeviceNet
import Verif.Proof.DeviceNet
import Verif.Props.DeviceNet
import Verif.Model.LayerParams
import Verif.Spec.LayerParams
import Verif.Proof.LayerParams
import Verif.Props.LayerParams
import Verif.Props.NetLines
import Verif.Props.NetManual
import Verif.Model.NetEval
import Verif.Proof.NetEval
import Verif.Proof.NetChain
import Verif.Props.NetEval
import Verif.Model.NetTrain
import Verif.Spec.NetTrain
import Verif.Proof.NetTrain
import Verif.Props.NetTrain
import Verif.Props.NetTrainChain
import Verif.Spec.LossSampling
import Verif.Proof.LossSampling
import Verif.Props.LossSampling
import Verif.Model.WeightInit
import Verif.Spec.WeightInit
import Verif.Proof.WeightInit
import Verif.Props.WeightInit
import Verif.Model.Rates
import Verif.Spec.Rates
import Verif.Proof.Rates
import Verif.Props.Rates
import Verif.Spec.TestSet
import Verif.Proof.TestSet
import Verif.Props.TestSet
import Verif.Model.Progress
import Verif.Spec.Progress
import Verif.Proof.Progress
import Verif.Props.Progress
import Verif.Model.NetBatch
import Verif.Spec.NetBatch
import Verif.Proof.NetBatch
import Verif.Props.NetBatch
import Verif.Spec.NetSplit
import Verif.Model.NetSplit
import Verif.Proof.NetSplit
import Verif.Proof.TrainerSplit
import Verif.Proof.SplitData
import Verif.Props.NetSplit
import Verif.Base.Flt
import Verif.Proof.Counting
import Verif.Props.Counting
import Verif.Proof.Rounding
import Verif.Proof.RoundingDown
import Verif.Props.Rounding
import Verif.Model.GraphFile
import Verif.Spec.Dot
import Verif.Proof.GraphFile
import Verif.Props.GraphFile
import Verif.Model.MatrixReport
import Verif.Spec.MatrixReport
import Verif.Proof.MatrixReport
import Verif.Props.MatrixReport
import Verif.Model.Startup
import Verif.Props.Startup
import Verif.Props.RoundingNet
import Verif.Props.RoundingSigmoid
import Verif.Model.InputTensors
import Verif.Props.InputTensors
import Verif.Model.KittiFiles
import Verif.Spec.KittiFiles
import Verif.Props.KittiFiles
import Verif.Model.ConsoleSink
import Verif.Spec.ConsoleReport
import Verif.Props.ConsoleSink
import Verif.Model.HMaxStats
import Verif.Props.HMaxStats
import Verif.Model.Benchmark
import Verif.Props.Benchmark
import Verif.Model.Viewer
import Verif.Props.Viewer
import Verif.Model.SettingsText
import Verif.Props.SettingsText
import Verif.Model.StepRounding
import Verif.Proof.StepRounding
import Verif.Props.StepRounding
import Verif.Model.StepChecked
import Verif.Props.StepChecked
import Verif.Model.LossLine
import Verif.Props.LossLine
import Verif.Props.StepIteration
import Verif.Model.QuickRounding
import Verif.Props.QuickRounding
import Verif.Props.QuickExact
