import Verif.Props.Tree
import Verif.Props.Mv
import Verif.Props.Loader
import Verif.Props.Calibrate
import Verif.Props.LowRankDrivers
import Verif.Props.Register
import Verif.Props.EvalUtils
import Verif.Props.Api
import Verif.Props.Loss
import Verif.Props.Ggn
import Verif.Props.Posterior
import Verif.Props.Cov
import Verif.Props.Lanczos
import Verif.Props.Calibration
import Verif.Props.Accuracy
import Verif.Props.Scores
import Verif.Props.Predictives
import Verif.Props.Likelihood
import Verif.Props.Pushforward
import Verif.Props.PushforwardNonlin
import Verif.Props.NonlinSpecial
import Verif.Props.GpKernel
import Verif.Props.Unravel
import Verif.Props.Laplace
import Verif.Props.Lobpcg
import Verif.Props.LowRank
import Verif.Props.WeightSamples
import Verif.Props.ApiPredictive
import Verif.Props.ApiCalibration
import Verif.Props.ApiEvaluation
import Verif.Props.Workflow
import Verif.Props.TreeStats
import Verif.Props.EvalDataset
import Verif.Props.Broadcast
import Verif.Props.ToDenseTree
import Verif.Props.CalibrateErrors
import Verif.Props.LaplaceOptions
import Verif.Props.LaplaceLoss
import Verif.Props.LaplaceKwargs
import Verif.Props.BroadcastEvidence
import Verif.Props.CalibrationArgs
import Verif.Props.MeanFieldIff
import Verif.Props.LaplaceScaling
import Verif.Props.Exact
import Verif.Props.LoaderAxis
import Verif.Props.Invariance
import Verif.Props.InvarianceEvidence
import Verif.Props.TreeAxis
import Verif.Props.WorkflowSampled
import Verif.Props.LanczosPosterior
import Verif.Props.LanczosPredictive
import Verif.Props.DocumentedErrors
import Verif.Props.SampleEstimates
import Verif.Props.WorkflowLowRank
import Verif.Spec.Relabel
import Verif.Props.Relabel
import Verif.Props.LogitShift
import Verif.Spec.Order
import Verif.Props.DataOrder
import Verif.Spec.Unused
import Verif.Props.Unused
import Verif.Props.UnusedParams
import Verif.Props.UnusedWorkflow
import Verif.Props.Subsampling
import Verif.Props.DiagonalVsFull
import Verif.Spec.ExpectedScore
import Verif.Spec.Units
import Verif.Props.ProperScores
import Verif.Props.Units
import Verif.Spec.FunctionSpace
import Verif.Props.FunctionSpace
import Verif.Props.SampleConvergence
import Verif.Spec.PriorLimits
import Verif.Props.PriorLimits
import Verif.Spec.SearchQuality
import Verif.Props.SearchQuality
import Verif.Model.MetricsArr
import Verif.Spec.MetricsArr
import Verif.Props.MetricsArr
import Verif.Spec.PredictivesArr
import Verif.Props.PredictivesArr
import Verif.Props.LowRankError
import Verif.Props.CalibrationBins
import Verif.Props.SubsampledUncertainty
import Verif.Props.DataInfluence
import Verif.Props.Stability
import Verif.Props.AccuracyAxes
import Verif.Props.Coordinates
import Verif.Props.CoordinatesWorkflow
import Verif.Props.TriangularSolve
import Verif.Props.TreeAxes
import Verif.Props.TreeAxesSingle
