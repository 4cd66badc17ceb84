import Verif.Props.Axis
import Verif.Props.AxisCollection
import Verif.Props.Histogram
import Verif.Props.HistogramStats
import Verif.Props.Marginal
import Verif.Props.Slice
import Verif.Props.Lattice
import Verif.Props.Parameters
import Verif.Props.Matrix
import Verif.Props.Event
import Verif.Props.Systematic
import Verif.Props.SystematicApply
import Verif.Props.Shape
import Verif.Props.SysParams
import Verif.Props.Convolution
import Verif.Props.Constraint
import Verif.Props.ConstraintManager
import Verif.Props.ShapeInterp
import Verif.Props.Cut
import Verif.Props.DataSet
import Verif.Props.Sampling
import Verif.Props.Packing
import Verif.Props.DataFile
import Verif.Props.EventSystematic
import Verif.Props.Filling
import Verif.Props.Counting
import Verif.Props.LazyDataSet
import Verif.Props.Combinations
import Verif.Props.SystematicManager
import Verif.Props.Shrinker
import Verif.Props.PdfManager
import Verif.Props.BarlowBeeston
import Verif.Props.Likelihood
import Verif.Props.StatisticSum
import Verif.Props.EventDist
import Verif.Props.SpectralFit
import Verif.Props.AutoCorrelation
import Verif.Props.MCMCSamples
import Verif.Props.FitResult
import Verif.Props.MCMC
import Verif.Props.HistTools
import Verif.Props.LeapFrog
import Verif.Props.Minuit
import Verif.Props.GridSearch
import Verif.Props.BayesInterval
import Verif.Props.BinnedEDGenerator
import Verif.Props.Reflect
import Verif.Props.Gaussian
import Verif.Props.GaussianPdf
import Verif.Props.Kernels
import Verif.Props.DistTools
import Verif.Props.Config
import Verif.Props.HistIO
import Verif.Props.Generator
import Verif.Props.SigmoidBoundary
import Verif.Props.RootIO
import Verif.Props.FitQuality
import Verif.Props.EventConvolution
import Verif.Props.LikelihoodSys
import Verif.Props.SystematicUse
import Verif.Props.LikelihoodSet
import Verif.Props.FitRegion
import Verif.Props.FitRegionSys
import Verif.Props.Ownership
import Verif.Props.BarlowBeestonFit
import Verif.Props.FailedEval
import Verif.Props.Refused
import Verif.Props.AddMany
import Verif.Props.Invariance
import Verif.Props.EventView
import Verif.Props.Configured
import Verif.Props.ScaleFunction
import Verif.Props.Poisson
import Verif.Props.Reports
import Verif.Props.ChiSquare
import Verif.Props.ConstrainedFit
import Verif.Props.Rounded
import Verif.Props.SystematicQueries
import Verif.Props.RoundedError
import Verif.Props.Unset
import Verif.Props.FitData
import Verif.Props.RoundedAxis
import Verif.Props.DistributionOps
import Verif.Props.AnyOrder
import Verif.Props.SliceSum
import Verif.Props.FitDataAny
import Verif.Props.LikelihoodAnyOrder
import Verif.Props.RoundedArith
import Verif.Props.Setters
import Verif.Props.ReflectInside
import Verif.Props.ReflectReverse
import Verif.Props.Stationary
import Verif.Props.StationaryHmc
import Verif.Props.StationaryPosterior
import Verif.Props.Nested
import Verif.Props.DrawLaw
import Verif.Props.ToyLaw
import Verif.Props.Converge
import Verif.Props.ConvergeHist
import Verif.Props.StoreProjections
import Verif.Props.ConvergeMarginal
import Verif.Props.JointFit
import Verif.Props.Consistency
import Verif.Props.SysStatistics
import Verif.Props.OptimiserRuns
import Verif.Props.ObjectFits
import Verif.Props.HamiltonianRuns
import Verif.Props.ConstraintSign
import Verif.Props.Asymptotic
import Verif.Props.Closure
import Verif.Props.Coverage
import Verif.Props.ChainBest
import Verif.Props.HeldChain
import Verif.Props.HeldBest
import Verif.Props.SysCoverage
import Verif.Props.JointCoverage
import Verif.Props.SampleLaw
import Verif.Props.RoundedExact
import Verif.Props.SmearAgree
import Verif.Props.MoveAgree
import Verif.Props.MoveInside
