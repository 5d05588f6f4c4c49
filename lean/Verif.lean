import Verif.Props.CrossValidation
import Verif.Props.ViewHistory
import Verif.Props.WeightedDataSet
import Verif.Props.DirectStorage
import Verif.Props.DataStream
import Verif.Props.Learner
import Verif.Props.FANN
import Verif.Props.LibSVM
import Verif.Props.NetFile
import Verif.Props.Activation
import Verif.Props.Gradient
import Verif.Props.ConvBackprop
import Verif.Props.Subsampling
import Verif.Props.LRN
import Verif.Props.NetBatch
import Verif.Props.Layers
import Verif.Props.AlphaBeta
import Verif.Props.Compression
import Verif.Props.MBSGDReuse
import Verif.Props.Interrupt
import Verif.Props.CMAES
import Verif.Props.Random
import Verif.Props.Evaluation
import Verif.Props.Preprocessing
import Verif.Props.Filter
import Verif.Props.Patches
import Verif.Props.KMeans
import Verif.Props.Whitening
import Verif.Props.Ensemble
import Verif.Props.Packing
import Verif.Props.Unsupervised
import Verif.Props.AutoEncoder
import Verif.Props.Logger
import Verif.Props.ImageLoader
import Verif.Props.SigmaPi
import Verif.Props.SigmaPiGradient
import Verif.Props.SigmaPiConstraints
import Verif.Props.SigmaPiInvariance
import Verif.Props.AlphaBetaTracking
import Verif.Props.Determined
import Verif.Props.Loaded
import Verif.Props.LoadedFails
import Verif.Props.Alglib
import Verif.Props.AlglibRuns
import Verif.Props.AlglibNet
import Verif.Props.AlglibFails
import Verif.Props.DeterminedGradient
import Verif.Props.AlglibCallbacks
import Verif.Props.BatchGradient
import Verif.Props.Optimizable
import Verif.Props.OptimizableNet
import Verif.Props.Order
import Verif.Props.OrderMBSGD
import Verif.Props.Train
import Verif.Props.MLNN
import Verif.Props.LayerParameters
import Verif.Props.Descent
import Verif.Props.Draw
import Verif.Props.Boltzmann
import Verif.Props.Gibbs
import Verif.Props.Contrastive
import Verif.Props.DropoutMean
import Verif.Props.Convergence
import Verif.Props.LinearTraining
import Verif.Props.MiniBatch
import Verif.Props.LinearMiniBatch
import Verif.Props.Momentum
import Verif.Model.Distorter
import Verif.Props.Distorter
import Verif.Props.Symmetry
import Verif.Props.SymmetryTraining
import Verif.Model.PoleBalancing
import Verif.Props.PoleBalancing
import Verif.Model.Smoothing
import Verif.Props.Smoothing
import Verif.Model.TwoSpirals
import Verif.Props.TwoSpirals
import Verif.Model.BCIDataSet
import Verif.Props.BCIDataSet
import Verif.Props.BCIEvaluate
import Verif.Props.Boosting
import Verif.Props.Bagging
import Verif.Model.Parallel
import Verif.Model.ParallelLayers
import Verif.Props.Parallel
import Verif.Props.ParallelLayers
import Verif.Props.Equivariance
import Verif.Model.NeuroEvolution
import Verif.Props.NeuroEvolution
import Verif.Model.Octopus
import Verif.Model.OctopusAgent
import Verif.Props.Octopus
import Verif.Props.OctopusAgent
import Verif.Model.CutFile
import Verif.Props.CutFile
import Verif.Model.Float
import Verif.Props.Float
import Verif.Props.CutData
import Verif.Props.CutLibSVM
import Verif.Model.SparseCost
import Verif.Props.SparseCost
import Verif.Model.Pretrain
import Verif.Props.Pretrain
import Verif.Model.FilterNet
import Verif.Props.FilterNet
import Verif.Model.TrainingData
import Verif.Props.TrainingData
import Verif.Model.PythonObjects
import Verif.Props.PythonObjects
import Verif.Model.PythonArrays
import Verif.Props.PythonArrays
import Verif.Model.SigmaPiNet
import Verif.Props.SigmaPiNet
import Verif.Model.Release
import Verif.Props.Release
import Verif.Model.Thrown
import Verif.Props.Thrown
import Verif.Props.ThrownAlglib
import Verif.Props.ThrownES
import Verif.Model.Criteria
import Verif.Props.Criteria
import Verif.Model.BenchStats
import Verif.Props.BenchStats
import Verif.Model.Formatter
import Verif.Props.Formatter
import Verif.Props.Robust
import Verif.Props.LoadedClose
import Verif.Model.FiniteDifferences
import Verif.Props.FiniteDifferences
import Verif.Props.GradientChecks
import Verif.Model.Viewers
import Verif.Props.Viewers
import Verif.Props.FilterViewers
import Verif.Props.Ridge
import Verif.Props.Expressive
import Verif.Props.Components
import Verif.Props.Penalties
import Verif.Props.Sampling
import Verif.Model.SpiralsViewer
import Verif.Props.SpiralsViewer
import Verif.Props.Calibration
import Verif.Props.Untouched
import Verif.Props.Frozen
import Verif.Model.PythonMemory
import Verif.Props.PythonMemory
import Verif.Props.Absorb
import Verif.Props.SignFlip
import Verif.Props.SignFlipTraining
import Verif.Model.Observers
import Verif.Props.Observers
import Verif.Props.BCICache
import Verif.Props.Relabel
import Verif.Props.RelabelTraining
import Verif.Model.PoleWindow
import Verif.Props.PoleWindow
import Verif.Model.Stopwatch
import Verif.Props.Stopwatch
import Verif.Model.Scripts
import Verif.Props.Scripts
import Verif.Props.SoftmaxShift
import Verif.Props.Rescaling
import Verif.Model.StreamObjects
import Verif.Props.StreamObjects
import Verif.Props.InputRotation
import Verif.Props.Gains
import Verif.Model.SeededNet
import Verif.Props.SeededNet
import Verif.Props.Separable
import Verif.Props.Copies
import Verif.Model.PoleFloat
import Verif.Props.PoleFloat
import Verif.Props.PoleExact
import Verif.Model.EvalFloat
import Verif.Props.EvalFloat
import Verif.Props.EvalExact
import Verif.Model.SgdFloat
import Verif.Props.SgdFloat
import Verif.Audit
