import Verif.Lemmas.MonitoredRuns
import Verif.Lemmas.Rounding
import Verif.Lemmas.SteppersOver
import Verif.Lemmas.Taylor
import Verif.Lemmas.Views
import Verif.Model.MainLoop
import Verif.Model.MonitoredRuns
import Verif.Model.Rounding
import Verif.Model.UpdateOver
import Verif.Model.Views
import Verif.Model.UpdateRuns
import Verif.Props.AdamsBashforth
import Verif.Props.Aliases
import Verif.Props.Attributes
import Verif.Props.Backend
import Verif.Props.Basic
import Verif.Props.Budgets
import Verif.Props.ClassRunsComplete
import Verif.Props.ColumnRuns
import Verif.Props.Columns
import Verif.Props.Combine
import Verif.Props.CombineDims
import Verif.Props.Commutes
import Verif.Props.ComponentOrder
import Verif.Props.ComponentOrderClasses
import Verif.Props.ComponentOrderRuns
import Verif.Props.ComponentTendencies
import Verif.Props.Components
import Verif.Props.Composite
import Verif.Props.CompositeConstruct
import Verif.Props.CompositeTypes
import Verif.Props.Condensible
import Verif.Props.Conservation
import Verif.Props.Constants
import Verif.Props.ConstantsText
import Verif.Props.ContinuedRuns
import Verif.Props.Convergence
import Verif.Props.CoordsMoved
import Verif.Props.DecayAccuracy
import Verif.Props.DimsKept
import Verif.Props.DuckType
import Verif.Props.Exceptions
import Verif.Props.Forcing
import Verif.Props.Heap
import Verif.Props.InputArrays
import Verif.Props.Keywords
import Verif.Props.Layout
import Verif.Props.Leapfrog
import Verif.Props.LeapfrogConvergence
import Verif.Props.LeapfrogHalf
import Verif.Props.Lifecycle
import Verif.Props.MainLoop
import Verif.Props.MonitoredRuns
import Verif.Props.Monitors
import Verif.Props.Nested
import Verif.Props.NestedComposite
import Verif.Props.NetCDFExamples
import Verif.Props.NetCDFLengths
import Verif.Props.OutputFaults
import Verif.Props.PointRuns
import Verif.Props.PropRefs
import Verif.Props.RelaxationAccuracy
import Verif.Props.RelaxationLimits
import Verif.Props.RelaxationRuns
import Verif.Props.RelaxedRunsComplete
import Verif.Props.Repr
import Verif.Props.RestartExamples
import Verif.Props.RestoreArrays
import Verif.Props.Retry
import Verif.Props.RoundingErrors
import Verif.Props.RunsComplete
import Verif.Props.SSPMemory
import Verif.Props.SSPRK
import Verif.Props.Scaling
import Verif.Props.ScalingRepeat
import Verif.Props.StageConvergence
import Verif.Props.StageErrors
import Verif.Props.StateUnits
import Verif.Props.SteadyRuns
import Verif.Props.StepperDeclared
import Verif.Props.StepperInit
import Verif.Props.StepperMemory
import Verif.Props.StepperSiblings
import Verif.Props.StepperTendencies
import Verif.Props.Str
import Verif.Props.TendencyStepper
import Verif.Props.TendencyUnits
import Verif.Props.Time
import Verif.Props.TimeDifferencing
import Verif.Props.TracerComponents
import Verif.Props.TracerDifferencing
import Verif.Props.TracerFaults
import Verif.Props.TracerNames
import Verif.Props.Tracers
import Verif.Props.TracersLater
import Verif.Props.UnitBlind
import Verif.Props.UnitStrings
import Verif.Props.Units
import Verif.Props.Unstepped
import Verif.Props.UpdateConvergence
import Verif.Props.UpdateFrequency
import Verif.Props.UpdateRestart
import Verif.Props.UpdateRuns
import Verif.Props.Util
import Verif.Props.Views
import Verif.Props.WildcardMatches
import Verif.Props.WriteFaults
import Verif.Props.WriteTimes
import Verif.Spec.ComponentOrder
import Verif.Spec.ContinuedRuns
import Verif.Spec.Convergence
import Verif.Spec.Exceptions
import Verif.Spec.LeapfrogConvergence
import Verif.Spec.MainLoop
import Verif.Spec.MonitoredRuns
import Verif.Spec.OutputFaults
import Verif.Spec.PointRuns
import Verif.Spec.RelaxationRuns
import Verif.Spec.Rounding
import Verif.Spec.RoundingErrors
import Verif.Spec.RunsComplete
import Verif.Spec.StageConvergence
import Verif.Spec.StageErrors
import Verif.Spec.TracerFaults
import Verif.Spec.UpdateRuns
import Verif.Spec.WriteFaults
import Verif.Spec.WriteTimes
import Verif.Spec.Views
import Verif.Props.LeapfrogErrors
import Verif.Spec.LeapfrogErrors
import Verif.Spec.DifferenceFaults
import Verif.Props.DifferenceFaults
import Verif.Props.Ensemble
import Verif.Spec.Ensemble
import Verif.Spec.EnsembleClasses
import Verif.Props.EnsembleClasses
import Verif.Props.Confined
import Verif.Spec.Alike
import Verif.Props.Alike
import Verif.Model.Elements
import Verif.Spec.Confined
import Verif.Props.Shifted
import Verif.Spec.Shifted
import Verif.Model.WrappersOver
import Verif.Props.AlikeWrappers
import Verif.Props.WrappedRuns
import Verif.Props.Raised
import Verif.Spec.Raised
import Verif.Props.Passive
import Verif.Spec.Passive
import Verif.Props.UpdateLeapfrog
import Verif.Props.UpdateStages
import Verif.Props.UpdateEach
import Verif.Props.TimeStages
import Verif.Props.UpdateEachStages
import Verif.Props.UpdateDelay
import Verif.Props.UpdateDelayLeapfrog
