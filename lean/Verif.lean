import Verif.Autotuner.InterruptLemmas
import Verif.Autotuner.InterruptModel
import Verif.Autotuner.InterruptSpec
import Verif.Autotuner.Lemmas
import Verif.Autotuner.LogModel
import Verif.Autotuner.LogProps
import Verif.Autotuner.Model
import Verif.Autotuner.Props
import Verif.Autotuner.PropsCrash
import Verif.Autotuner.PropsInterrupt
import Verif.Autotuner.PropsLog
import Verif.Autotuner.PropsRace
import Verif.Autotuner.PropsReload
import Verif.Autotuner.PropsRestart
import Verif.Autotuner.PropsSolverClass
import Verif.Autotuner.RaceModel
import Verif.Autotuner.ReloadModel
import Verif.Autotuner.SolverClassModel
import Verif.Autotuner.Spec
import Verif.Base
import Verif.EndToEnd.Contraction
import Verif.EndToEnd.CrashModel
import Verif.EndToEnd.CrashRun
import Verif.EndToEnd.CrashSpec
import Verif.EndToEnd.Cycles
import Verif.EndToEnd.Descent
import Verif.EndToEnd.DotCase
import Verif.EndToEnd.DotModel
import Verif.EndToEnd.DotRun
import Verif.EndToEnd.DriftRun
import Verif.EndToEnd.DriftSpec
import Verif.EndToEnd.FlakyRun
import Verif.EndToEnd.FlakySpec
import Verif.EndToEnd.HierarchyLearning
import Verif.EndToEnd.HierarchyLemmas
import Verif.EndToEnd.HierarchyModel
import Verif.EndToEnd.HierarchyRun
import Verif.EndToEnd.HierarchySpec
import Verif.EndToEnd.InsideModel
import Verif.EndToEnd.InsideRun
import Verif.EndToEnd.Kalman
import Verif.EndToEnd.KinkSpec
import Verif.EndToEnd.LeadModel
import Verif.EndToEnd.LeadRun
import Verif.EndToEnd.Learning
import Verif.EndToEnd.LearningRun
import Verif.EndToEnd.Lemmas
import Verif.EndToEnd.LimitsRun
import Verif.EndToEnd.LimitsSliceRun
import Verif.EndToEnd.LimitsSpec
import Verif.EndToEnd.LocalRun
import Verif.EndToEnd.LocalSliceRun
import Verif.EndToEnd.LocalSpec
import Verif.EndToEnd.Model
import Verif.EndToEnd.NoiseModel
import Verif.EndToEnd.NoiseRun
import Verif.EndToEnd.NoiseSpec
import Verif.EndToEnd.OperatorModel
import Verif.EndToEnd.OperatorRun
import Verif.EndToEnd.OperatorSpec
import Verif.EndToEnd.Phases
import Verif.EndToEnd.Props
import Verif.EndToEnd.PropsAnyGradient
import Verif.EndToEnd.PropsAtLimit
import Verif.EndToEnd.PropsCrosstalk
import Verif.EndToEnd.PropsDot
import Verif.EndToEnd.PropsDrift
import Verif.EndToEnd.PropsDriftFast
import Verif.EndToEnd.PropsDriftSource
import Verif.EndToEnd.PropsFlaky
import Verif.EndToEnd.PropsFlakyKalman
import Verif.EndToEnd.PropsHierarchy
import Verif.EndToEnd.PropsHistory
import Verif.EndToEnd.PropsInside
import Verif.EndToEnd.PropsInterrupted
import Verif.EndToEnd.PropsKalman
import Verif.EndToEnd.PropsKink
import Verif.EndToEnd.PropsLead
import Verif.EndToEnd.PropsLearning
import Verif.EndToEnd.PropsLimit
import Verif.EndToEnd.PropsLimitedKnown
import Verif.EndToEnd.PropsLimitedSource
import Verif.EndToEnd.PropsLimitedTold
import Verif.EndToEnd.PropsLocal
import Verif.EndToEnd.PropsLocalSlice
import Verif.EndToEnd.PropsNoise
import Verif.EndToEnd.PropsOperator
import Verif.EndToEnd.PropsRequest
import Verif.EndToEnd.PropsRetry
import Verif.EndToEnd.PropsRobust
import Verif.EndToEnd.PropsRoughKalman
import Verif.EndToEnd.PropsRows
import Verif.EndToEnd.PropsScanned
import Verif.EndToEnd.PropsScannedFD
import Verif.EndToEnd.PropsScratch
import Verif.EndToEnd.PropsSensed
import Verif.EndToEnd.PropsSign
import Verif.EndToEnd.PropsSlice
import Verif.EndToEnd.PropsSlopes
import Verif.EndToEnd.PropsSource
import Verif.EndToEnd.PropsStopped
import Verif.EndToEnd.PropsStoppedSteps
import Verif.EndToEnd.PropsSymmetric
import Verif.EndToEnd.PropsToldAtLimit
import Verif.EndToEnd.PropsToldKnown
import Verif.EndToEnd.PropsTorn
import Verif.EndToEnd.RetryLemmas
import Verif.EndToEnd.RetryModel
import Verif.EndToEnd.RetrySpec
import Verif.EndToEnd.RobustSpec
import Verif.EndToEnd.RoughKalman
import Verif.EndToEnd.RowsSpec
import Verif.EndToEnd.ScannedSpec
import Verif.EndToEnd.SensedDot
import Verif.EndToEnd.SensedModel
import Verif.EndToEnd.SensedRun
import Verif.EndToEnd.SensedSpec
import Verif.EndToEnd.SignRun
import Verif.EndToEnd.SliceRun
import Verif.EndToEnd.SourceModel
import Verif.EndToEnd.SourceRun
import Verif.EndToEnd.SourceSpec
import Verif.EndToEnd.Steps
import Verif.EndToEnd.StoppedAgain
import Verif.EndToEnd.StoppedRel
import Verif.EndToEnd.StoppedRun
import Verif.EndToEnd.StoppedSame
import Verif.EndToEnd.StoppedSpec
import Verif.EndToEnd.StoppedSteps
import Verif.EndToEnd.StoppedTwice
import Verif.EndToEnd.Symmetric
import Verif.EndToEnd.ToldRun
import Verif.EndToEnd.ToldSpec
import Verif.EndToEnd.TornRun
import Verif.Evaluator.Dot2DModel
import Verif.Evaluator.Dot2DProps
import Verif.Evaluator.FitCurves
import Verif.Evaluator.FitDetermined
import Verif.Evaluator.FitDeterminedProps
import Verif.Evaluator.FitExactLead
import Verif.Evaluator.FitExactLemmas
import Verif.Evaluator.FitExactProps
import Verif.Evaluator.FitExactSpec
import Verif.Evaluator.FitFunctions
import Verif.Evaluator.FitLemmas
import Verif.Evaluator.FitModel
import Verif.Evaluator.FitPieces
import Verif.Evaluator.FitProps
import Verif.Evaluator.FitSpec
import Verif.Evaluator.FitTransition
import Verif.Evaluator.Lemmas
import Verif.Evaluator.LocateProps
import Verif.Evaluator.LocateSpec
import Verif.Evaluator.Model
import Verif.Evaluator.PassThruModel
import Verif.Evaluator.PassThruProps
import Verif.Evaluator.PassThruSpec
import Verif.Evaluator.Props
import Verif.Evaluator.PropsStored
import Verif.Evaluator.PropsWindow
import Verif.Evaluator.QqdEvalModel
import Verif.Evaluator.QqdEvalProps
import Verif.Evaluator.QqdModel
import Verif.Evaluator.QqdProps
import Verif.Evaluator.Reload
import Verif.Evaluator.ReloadArgs
import Verif.Evaluator.Sd1dModel
import Verif.Evaluator.Sd1dProps
import Verif.Evaluator.ShareModel
import Verif.Evaluator.ShareOwnProps
import Verif.Evaluator.ShareProps
import Verif.Evaluator.Spec
import Verif.Gradient.FD
import Verif.Gradient.FDLemmas
import Verif.Gradient.FDNan
import Verif.Gradient.FDOther
import Verif.Gradient.FDProps
import Verif.Gradient.FDSpec
import Verif.Gradient.FDSym
import Verif.Gradient.FDSymRun
import Verif.Gradient.JacobianModel
import Verif.Gradient.JacobianProps
import Verif.Gradient.PropsCovIff
import Verif.Gradient.Util
import Verif.Gradient.UtilLemmas
import Verif.Gradient.UtilProps
import Verif.Gui.ButtonModel
import Verif.Gui.ButtonProps
import Verif.Gui.FollowModel
import Verif.Gui.FollowProps
import Verif.Gui.LogWindowModel
import Verif.Gui.LogWindowProps
import Verif.Gui.Model
import Verif.Gui.PictureModel
import Verif.Gui.PictureProps
import Verif.Gui.PlotLemmas
import Verif.Gui.PlotModel
import Verif.Gui.PlotProps
import Verif.Gui.PlotSpec
import Verif.Gui.Props
import Verif.Gui.PropsClose
import Verif.Gui.PropsRestart
import Verif.Gui.RawModel
import Verif.Gui.RawProps
import Verif.Gui.ReloadModel
import Verif.Gui.ReloadProps
import Verif.Gui.ReloadRows
import Verif.Gui.Spec
import Verif.Gui.TuneDevice
import Verif.Gui.TuneDot
import Verif.Gui.TuneModel
import Verif.Gui.TuneProps
import Verif.History.ClashModel
import Verif.History.CovarianceModel
import Verif.History.Covariances
import Verif.History.DiskModel
import Verif.History.DiskProps
import Verif.History.EvalModel
import Verif.History.EvalProps
import Verif.History.FigureModel
import Verif.History.FigureProps
import Verif.History.GapModel
import Verif.History.GapProps
import Verif.History.Gradients
import Verif.History.GradientsRefuted
import Verif.History.Lemmas
import Verif.History.Model
import Verif.History.ParallelModel
import Verif.History.ParallelProps
import Verif.History.Props
import Verif.History.PropsClash
import Verif.History.PropsRepeated
import Verif.History.ReadModel
import Verif.History.ReadProps
import Verif.History.Spec
import Verif.History.TuningPlotModel
import Verif.History.TuningPlotProps
import Verif.History.VarianceModel
import Verif.History.Variances
import Verif.Kalman.Estimator
import Verif.Kalman.EstimatorHistory
import Verif.Kalman.EstimatorLemmas
import Verif.Kalman.EstimatorProps
import Verif.Kalman.EstimatorSpec
import Verif.Kalman.EstimatorTuned
import Verif.Kalman.FadingSpec
import Verif.Kalman.Lemmas
import Verif.Kalman.Model
import Verif.Kalman.NanModel
import Verif.Kalman.NanProps
import Verif.Kalman.Props
import Verif.Kalman.PropsConvergence
import Verif.Kalman.PropsFading
import Verif.Kalman.PropsFill
import Verif.Kalman.PropsIgnored
import Verif.Kalman.PropsMemory
import Verif.Kalman.PropsPosition
import Verif.Kalman.PropsRequests
import Verif.Kalman.PropsSelfInit
import Verif.Kalman.PropsSuggest
import Verif.Kalman.PropsTunedBound
import Verif.Kalman.PropsTunedIff
import Verif.Kalman.RequestSpec
import Verif.Kalman.Spec
import Verif.Kalman.Suggest
import Verif.Kalman.SuggestSpec
import Verif.Matlab.CallModel
import Verif.Matlab.CallProps
import Verif.Matlab.EngineModel
import Verif.Matlab.EngineProps
import Verif.Matlab.IndexModel
import Verif.Matlab.IndexProps
import Verif.Matlab.IndexSpec
import Verif.Matlab.NestedModel
import Verif.Matlab.NestedProps
import Verif.Matlab.NestedSpec
import Verif.Matlab.PathModel
import Verif.Matlab.PathProps
import Verif.Matlab.ScanAskedProps
import Verif.Matlab.ScanModel
import Verif.Matlab.ScanNeeds
import Verif.Matlab.ScanProps
import Verif.Matlab.ScanSpec
import Verif.Matlab.SetupModel
import Verif.Matlab.SetupProps
import Verif.Matlab.TransferModel
import Verif.Matlab.TransferProps
import Verif.Matlab.TransferSpec
import Verif.Matlab.ViewModel
import Verif.Matlab.ViewProps
import Verif.Matlab.ViewSpec
import Verif.Matlab.VoltModel
import Verif.Matlab.VoltNan
import Verif.Matlab.VoltProps
import Verif.Matlab.VoltSpec
import Verif.Naming.Model
import Verif.Naming.Props
import Verif.NelderMead.Lemmas
import Verif.NelderMead.Model
import Verif.NelderMead.Props
import Verif.NelderMead.PropsMoves
import Verif.NelderMead.PropsWorst
import Verif.Newton.ConstructProps
import Verif.Newton.Exists
import Verif.Newton.Lemmas
import Verif.Newton.Model
import Verif.Newton.Props
import Verif.Newton.PropsNew
import Verif.Newton.PropsProtocol
import Verif.Newton.PropsStep
import Verif.Newton.Spec
import Verif.Newton.StateModel
import Verif.Newton.StateProps
import Verif.Package.ImportLemmas
import Verif.Package.ImportModel
import Verif.Package.ImportSpec
import Verif.Package.InstallModel
import Verif.Package.MatlabInstallModel
import Verif.Package.MatlabInstallProps
import Verif.Package.PropsImport
import Verif.Package.PropsInstall
import Verif.Package.ReleaseModel
import Verif.Package.ReleaseProps
import Verif.Package.ReleaseSpec
import Verif.Package.VersionModel
import Verif.Package.VersionProps
import Verif.Ready.Model
import Verif.Ready.Props
import Verif.Ready.PropsQuery
import Verif.Ready.PropsStep
import Verif.Ready.Spec
import Verif.SensingDot.ConstructModel
import Verif.SensingDot.DotHierarchyModel
import Verif.SensingDot.Lemmas
import Verif.SensingDot.Model
import Verif.SensingDot.Props
import Verif.SensingDot.PropsConstruct
import Verif.SensingDot.PropsDotHierarchy
import Verif.SensingDot.PropsRecord
import Verif.SensingDot.PropsRetry
import Verif.SensingDot.PropsRun
import Verif.SensingDot.Reload
import Verif.Series
import Verif.Signal.Model
import Verif.Signal.Props
import Verif.Signal.PropsGeneral
import Verif.Signal.Spec
import Verif.Signal.TransitionProps
import Verif.Signal.TransitionSpec
import Verif.Storage.ClassModel
import Verif.Storage.ClassProps
import Verif.Storage.FileLemmas
import Verif.Storage.Handoff
import Verif.Storage.KeyModel
import Verif.Storage.KeyProps
import Verif.Storage.LeafModel
import Verif.Storage.LeafProps
import Verif.Storage.LeafSpec
import Verif.Storage.MeasurementModel
import Verif.Storage.MeasurementProps
import Verif.Storage.Model
import Verif.Storage.Props
import Verif.Storage.PropsCycles
import Verif.Storage.PropsHandoff
import Verif.Storage.PropsInstanceCycles
import Verif.Storage.ReadLemmas
import Verif.Storage.Spec
import Verif.Storage.WriteLemmas
import Verif.Target.Model
import Verif.Target.Props
import Verif.Target.PropsTable
import Verif.Target.SharedModel
import Verif.Target.SharedProps
import Verif.Target.SharedSpec
import Verif.TestExperiment.CallerProps
import Verif.TestExperiment.Model
import Verif.TestExperiment.Props
import Verif.TestExperiment.PropsSharing
import Verif.TestExperiment.ScanSimModel
import Verif.TestExperiment.ScanSimProps
import Verif.TestExperiment.SharingModel
import Verif.Times.ClockModel
import Verif.Times.ClockProps
import Verif.Times.ClockSpec
import Verif.Times.Model
import Verif.Times.Props
import Verif.Times.ScanNameModel
import Verif.Times.ScanNameProps
import Verif.Times.Spec
import Verif.Tuner.InPlaceModel
import Verif.Tuner.Lemmas
import Verif.Tuner.Model
import Verif.Tuner.Props
import Verif.Tuner.PropsConstruct
import Verif.Tuner.PropsInPlace
import Verif.Tuner.PropsNan
import Verif.Tuner.PropsRaise
import Verif.Tuner.PropsStep
import Verif.Tuner.PropsStuck
import Verif.Tuner.RecordModel
import Verif.Tuner.RecordProps
import Verif.Tuner.RecordSpec
import Verif.Tuner.Reload
import Verif.Writer.Lemmas
import Verif.Writer.Model
import Verif.Writer.ProcessLemmas
import Verif.Writer.ProcessModel
import Verif.Writer.ProcessProps
import Verif.Writer.Props
import Verif.Writer.PropsJoin
import Verif.Writer.Spec
