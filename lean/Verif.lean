import Verif.Lemmas.Base
import Verif.Lemmas.Best
import Verif.Lemmas.Binary
import Verif.Lemmas.CMTF
import Verif.Lemmas.CMTFMoved
import Verif.Lemmas.CMTFUpdate
import Verif.Lemmas.CP
import Verif.Lemmas.Counter
import Verif.Lemmas.CoupledDescent
import Verif.Lemmas.CoupledRankOne
import Verif.Lemmas.Decomposer
import Verif.Lemmas.Descent
import Verif.Lemmas.Evolving
import Verif.Lemmas.Explained
import Verif.Lemmas.Flatten
import Verif.Lemmas.H5
import Verif.Lemmas.Heap
import Verif.Lemmas.HeapFit
import Verif.Lemmas.Kruskal
import Verif.Lemmas.Logger
import Verif.Lemmas.MatrixFits
import Verif.Lemmas.Metrics
import Verif.Lemmas.Names
import Verif.Lemmas.NonNegLimits
import Verif.Lemmas.Normalize
import Verif.Lemmas.P2Descent
import Verif.Lemmas.P2Unique
import Verif.Lemmas.Parafac2
import Verif.Lemmas.Parafac2Init
import Verif.Lemmas.Parafac2Inner
import Verif.Lemmas.Parafac2Prepare
import Verif.Lemmas.Refine
import Verif.Lemmas.RelRounding
import Verif.Lemmas.Rounding
import Verif.Lemmas.RowOrder
import Verif.Lemmas.Solvers
import Verif.Lemmas.Symmetry
import Verif.Lemmas.Uniqueness
import Verif.LinAlg.Contraction
import Verif.LinAlg.Exists
import Verif.LinAlg.KyFan
import Verif.LinAlg.LeastSquares
import Verif.LinAlg.Pca
import Verif.LinAlg.Spectral
import Verif.LinAlg.SubspaceIteration
import Verif.Model.Base
import Verif.Model.CMTF
import Verif.Model.CMTFScores
import Verif.Model.CP
import Verif.Model.CPFit
import Verif.Model.Container
import Verif.Model.Convert
import Verif.Model.CoreP2
import Verif.Model.Decomposer
import Verif.Model.Evolving
import Verif.Model.Experiment
import Verif.Model.H5
import Verif.Model.Heap
import Verif.Model.HeapFit
import Verif.Model.Kruskal
import Verif.Model.Log
import Verif.Model.Logger
import Verif.Model.Metrics
import Verif.Model.Parafac2
import Verif.Model.Parafac2Fit
import Verif.Model.Printing
import Verif.Model.Rounded
import Verif.Model.RoundedFits
import Verif.Model.RoundedKruskal
import Verif.Model.RoundedMetrics
import Verif.Model.Scores
import Verif.Model.Serialize
import Verif.Model.Signs
import Verif.Model.Solvers
import Verif.ND.Basic
import Verif.ND.Ops
import Verif.Props.Base
import Verif.Props.Best
import Verif.Props.BestRidge
import Verif.Props.CMTF
import Verif.Props.CMTFAlone
import Verif.Props.CMTFFails
import Verif.Props.CMTFFit
import Verif.Props.CMTFFitMore
import Verif.Props.CMTFMoved
import Verif.Props.CMTFNorm
import Verif.Props.CP
import Verif.Props.CPConstrained
import Verif.Props.CPFit
import Verif.Props.CPInit
import Verif.Props.CheckpointFree
import Verif.Props.Checkpoints
import Verif.Props.Compression
import Verif.Props.CompressionCMTF
import Verif.Props.CompressionP2
import Verif.Props.Container
import Verif.Props.Continue
import Verif.Props.ContinueCMTF
import Verif.Props.ContinueP2
import Verif.Props.ContinueP2Orth
import Verif.Props.Continuity
import Verif.Props.ContinuityTol
import Verif.Props.Convert
import Verif.Props.CoreConsistency
import Verif.Props.CoreInvariance
import Verif.Props.CoreP2
import Verif.Props.CoupledBound
import Verif.Props.CoupledOrder
import Verif.Props.CoupledRankOne
import Verif.Props.CoupledSizes
import Verif.Props.CoupledStationary
import Verif.Props.CoupledVariance
import Verif.Props.CpStart
import Verif.Props.Decomposer
import Verif.Props.Degenerate
import Verif.Props.Evolving
import Verif.Props.Exact
import Verif.Props.Experiment
import Verif.Props.Explained
import Verif.Props.ExplainedRidge
import Verif.Props.ExplainedRidgeP2
import Verif.Props.FactorSizes
import Verif.Props.Fms
import Verif.Props.FmsContinuity
import Verif.Props.FmsDistance
import Verif.Props.FmsEvolving
import Verif.Props.FmsP2
import Verif.Props.FmsSizes
import Verif.Props.HLog
import Verif.Props.HeapFit
import Verif.Props.HeapShare
import Verif.Props.IterationBound
import Verif.Props.IterationBoundP2
import Verif.Props.KeptSymmetry
import Verif.Props.Kruskal
import Verif.Props.Layout
import Verif.Props.Library
import Verif.Props.Loggers
import Verif.Props.MatrixFits
import Verif.Props.ModeOrder
import Verif.Props.ModelLength
import Verif.Props.ModelLengthP2
import Verif.Props.MoreComponents
import Verif.Props.Noise
import Verif.Props.NoiseCoupled
import Verif.Props.NonNegLimits
import Verif.Props.OneComponentCore
import Verif.Props.OneComponentCoreP2
import Verif.Props.OneComponentNonNeg
import Verif.Props.OneComponentNonNegP2
import Verif.Props.P2Bound
import Verif.Props.P2Frame
import Verif.Props.P2RankOne
import Verif.Props.P2Start
import Verif.Props.P2Stationary
import Verif.Props.P2UniqueScore
import Verif.Props.P2Uniqueness
import Verif.Props.P2Units
import Verif.Props.Parafac2
import Verif.Props.Parafac2Fit
import Verif.Props.Parafac2Init
import Verif.Props.Parafac2Iter
import Verif.Props.Pca
import Verif.Props.Printing
import Verif.Props.RankOne
import Verif.Props.Refit
import Verif.Props.Rejected
import Verif.Props.Relations
import Verif.Props.RelationsMore
import Verif.Props.Reload
import Verif.Props.Reproducible
import Verif.Props.Resume
import Verif.Props.RidgeLimits
import Verif.Props.Rotation
import Verif.Props.Rounding
import Verif.Props.RoundingDouble
import Verif.Props.RoundingFits
import Verif.Props.RoundingFms
import Verif.Props.RoundingFmsDouble
import Verif.Props.RoundingNormalize
import Verif.Props.RowOrder
import Verif.Props.Scores
import Verif.Props.Serialize
import Verif.Props.Signs
import Verif.Props.SliceOrder
import Verif.Props.Solvers
import Verif.Props.SolversMore
import Verif.Props.StartScale
import Verif.Props.Stationary
import Verif.Props.Stopping
import Verif.Props.StoppingMore
import Verif.Props.Symmetry
import Verif.Props.Tolerances
import Verif.Props.Uniqueness
import Verif.Props.UniquenessCoupled
import Verif.Py.Err
import Verif.Py.Float
import Verif.Py.Names
import Verif.Spec.Best
import Verif.Spec.CMTF
import Verif.Spec.CP
import Verif.Spec.Checkpoint
import Verif.Spec.CoupledDescent
import Verif.Spec.CoupledRankOne
import Verif.Spec.Ext
import Verif.Spec.Fms
import Verif.Spec.Layout
import Verif.Spec.Logger
import Verif.Spec.NonNegLimits
import Verif.Spec.Norms
import Verif.Spec.P2Descent
import Verif.Spec.P2Unique
import Verif.Spec.Parafac2
import Verif.Spec.Resid
import Verif.Spec.RidgeLimits
import Verif.Spec.Rounding
import Verif.Spec.Scores
import Verif.Spec.Signs
import Verif.Spec.Sums
import Verif.Spec.Symmetry
import Verif.Spec.Tensor
import Verif.Spec.Uniqueness
