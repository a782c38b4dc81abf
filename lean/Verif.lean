import Verif.Basic.Exec
import Verif.Basic.Ext
import Verif.Basic.Eigen
import Verif.Model.Types
import Verif.Model.ProblemBuilder
import Verif.Model.Sparse
import Verif.Model.LOptimizer
import Verif.Model.LMPC
import Verif.Spec.Csc
import Verif.Spec.LinConfig
import Verif.Proofs.Builder
import Verif.Proofs.Builder2
import Verif.Proofs.BuilderGet
import Verif.Proofs.Sparse
import Verif.Proofs.Setters
import Verif.Proofs.Setters2
import Verif.Proofs.LinRun
import Verif.Proofs.LinInv
import Verif.Proofs.LinStep
import Verif.Proofs.LinHist
import Verif.Proofs.LinFrame
import Verif.Spec.Qp
import Verif.Spec.Cost
import Verif.Proofs.QpRows
import Verif.Proofs.QpGroups
import Verif.Proofs.QpCost
import Verif.Proofs.LinAccept
import Verif.Proofs.QpDet
import Verif.Spec.Plan
import Verif.Proofs.QpPlan
import Verif.Props.Sample
import Verif.Proofs.LinSnoc
import Verif.Proofs.QpBounds
import Verif.Props.LinearQp
import Verif.Props.LinearBounds
import Verif.Props.LinearConfig
import Verif.Props.LinearSlices
import Verif.Spec.History
import Verif.Proofs.LinRec
import Verif.Props.LinearRun
import Verif.Model.Profiler
import Verif.Spec.Stats
import Verif.Proofs.Stats
import Verif.Props.Statistics
import Verif.Model.Logger
import Verif.Spec.Log
import Verif.Props.Logging
import Verif.Model.Dim
import Verif.Props.DimArith
import Verif.Model.Integrator
import Verif.Props.Integration
import Verif.Model.Discretization
import Verif.Props.Discretize
import Verif.Model.Mapping
import Verif.Spec.Nlp
import Verif.Proofs.Mapping
import Verif.Props.MoveBlocking
import Verif.Model.NlModel
import Verif.Model.Objective
import Verif.Model.Constraints
import Verif.Spec.NlFun
import Verif.Proofs.NlLoops
import Verif.Proofs.NlObjective
import Verif.Proofs.NlConstraints
import Verif.Model.NlProblem
import Verif.Spec.NlCfg
import Verif.Spec.NlDiff
import Verif.Proofs.NlDynamics
import Verif.Proofs.NlHistory
import Verif.Proofs.NlAffine
import Verif.Proofs.NlEval
import Verif.Proofs.NlDynEval
import Verif.Props.NlGradients
import Verif.Proofs.NlDetermined
import Verif.Props.NlDynamicsConstraints
import Verif.Props.NlEvaluations
import Verif.Basic.Flt
import Verif.Model.Feasible
import Verif.Model.NLMPC
import Verif.Spec.NlApi
import Verif.Spec.NlLast
import Verif.Proofs.NlFill
import Verif.Proofs.NlGuess
import Verif.Proofs.NlFeas
import Verif.Proofs.NlCtl
import Verif.Proofs.NlStep
import Verif.Proofs.NlRun
import Verif.Proofs.NlTotal
import Verif.Proofs.NlLast
import Verif.Proofs.NlOutputs
import Verif.Proofs.NlStartPoint
import Verif.Props.NlAsked
import Verif.Props.NlFeasible
import Verif.Props.NlBounds
import Verif.Props.NlLimits
import Verif.Props.NlStart
import Verif.Model.Component
import Verif.Props.NlFunctions
import Verif.Props.Initialisation
import Verif.Props.NlSafety
import Verif.Props.ControllerStats
import Verif.Props.LinearOptimal
import Verif.Props.NlOptimal
import Verif.Props.NlApiGradients
import Verif.Proofs.NlSmooth
import Verif.Props.NlSteps
import Verif.Props.NlAccuracy
import Verif.Props.LinearTracking
import Verif.Props.Instances
import Verif.Props.LinearSymmetry
import Verif.Props.ClosedLoop
import Verif.Props.NlCallbacks
import Verif.Props.Superposition
import Verif.Props.TwoControllers
import Verif.Props.LinearAccuracy
import Verif.Spec.Recursive
import Verif.Proofs.PlanShift
import Verif.Props.LoopBuild
import Verif.Props.Recursive
import Verif.Model.Throwing
import Verif.Spec.NlExceptions
import Verif.Proofs.NlThrowing
import Verif.Proofs.NlTraces
import Verif.Proofs.NlThrowTotal
import Verif.Props.NlExceptions
import Verif.Props.ThrowingStats
import Verif.Model.Messages
import Verif.Spec.Messages
import Verif.Proofs.Messages
import Verif.Proofs.Refusals
import Verif.Proofs.MessageSteps
import Verif.Props.Messages
import Verif.Props.LogSettings
import Verif.Props.Reports
import Verif.Spec.NlLoop
import Verif.Spec.NlCompare
import Verif.Proofs.NlPlanShift
import Verif.Props.NlLoop
import Verif.Props.NlLoopBuild
import Verif.Props.NlCompare
import Verif.Model.Environment
import Verif.Spec.Environment
import Verif.Proofs.Environment
import Verif.Proofs.EnvTotal
import Verif.Props.Environment
import Verif.Model.Threads
import Verif.Spec.Threads
import Verif.Proofs.Threads
import Verif.Proofs.ThreadRuns
import Verif.Props.Threads
import Verif.Props.ThreadOrder
import Verif.Props.Footprint
import Verif.Model.Rounding
import Verif.Spec.Rounding
import Verif.Proofs.LinExists
import Verif.Proofs.Rounding
import Verif.Proofs.RoundRows
import Verif.Proofs.RoundCost
import Verif.Props.Rounding
import Verif.Model.Tolerance
import Verif.Props.NlTolerance
import Verif.Proofs.RoundStats
import Verif.Props.RoundedStats
import Verif.Model.NlRounding
import Verif.Spec.NlRounded
import Verif.Proofs.NlRoundLoops
import Verif.Proofs.NlRoundEval
import Verif.Proofs.NlRoundGrad
import Verif.Proofs.NlRoundCalls
import Verif.Proofs.NlRoundDyn
import Verif.Proofs.NlRoundHist
import Verif.Proofs.NlRoundBounds
import Verif.Proofs.NlRoundAccurate
import Verif.Proofs.NlRoundSparse
import Verif.Proofs.NlRoundVary
import Verif.Proofs.NlRoundModel
import Verif.Props.NlRounding
import Verif.Props.NlRoundGrad
import Verif.Props.NlRoundModel
import Verif.Spec.WrongSize
import Verif.Proofs.WrongSize
import Verif.Props.WrongSize
import Verif.Model.Python
import Verif.Spec.Python
import Verif.Proofs.Python
import Verif.Props.Python
import Verif.Model.Print
import Verif.Spec.Print
import Verif.Proofs.Print
import Verif.Props.Print
import Verif.Model.Sized
import Verif.Spec.Sized
import Verif.Proofs.Sized
import Verif.Proofs.SizedWrong
import Verif.Proofs.SizedCheck
import Verif.Props.Sized
import Verif.Model.Programs
import Verif.Spec.Programs
import Verif.Proofs.Programs
import Verif.Props.Programs
import Verif.Model.ProgramsEnv
import Verif.Spec.ProgramsEnv
import Verif.Proofs.ProgramsEnv
import Verif.Props.ProgramsEnv
import Verif.Spec.Tests
import Verif.Props.TestsLinear
import Verif.Props.TestsNonlinear
import Verif.Props.TestsTools
import Verif.Model.Doubles
import Verif.Spec.Doubles
import Verif.Proofs.Doubles
import Verif.Props.Doubles
import Verif.Spec.NlStarting
import Verif.Props.NlStarting
import Verif.Model.NlStartRounding
import Verif.Proofs.NlStartRounding
import Verif.Props.NlStartRounding
import Verif.Model.NlDoubles
import Verif.Spec.NlDoubles
import Verif.Proofs.NlDoubles
import Verif.Props.NlDoubles
import Verif.Spec.NlDomain
import Verif.Props.NlDomain
import Verif.Model.NlStartDoubles
import Verif.Spec.NlStartDoubles
import Verif.Proofs.NlStartDoubles
import Verif.Props.NlStartDoubles
import Verif.Model.NlCalls
import Verif.Spec.NlCalls
import Verif.Proofs.NlCalls
import Verif.Proofs.NlTrace
import Verif.Proofs.NlTraceEval
import Verif.Props.NlCalls
import Verif.Model.NlOptimizeCalls
import Verif.Spec.NlOptimizeCalls
import Verif.Proofs.NlOptimizeCalls
import Verif.Proofs.NlOptimizeTrace
import Verif.Props.NlOptimizeCalls
import Verif.Proofs.NlDoublesZero
import Verif.Model.NlStateful
import Verif.Spec.NlStateful
import Verif.Proofs.NlAnyAnswer
import Verif.Proofs.NlAnyEval
import Verif.Proofs.NlAnySearch
import Verif.Proofs.NlAnyRun
import Verif.Props.NlStateful
import Verif.Model.NlUnruly
import Verif.Spec.NlUnruly
import Verif.Proofs.NlUnruly
import Verif.Props.NlUnruly
import Verif.Props.NlReads
import Verif.Proofs.NlUnrulyAgree
import Verif.Props.NlUnrulyAgree
import Verif.Proofs.Fork
import Verif.Props.Fork
import Verif.Spec.NlNested
import Verif.Model.NlNested
import Verif.Proofs.NlNested
import Verif.Props.NlNested
import Verif.Proofs.Uncopied
import Verif.Props.Uncopied
import Verif.Model.Mixed
import Verif.Spec.Mixed
import Verif.Props.Mixed
import Verif.Spec.Copies
import Verif.Proofs.Copies
import Verif.Props.Copies
import Verif.Proofs.Pointer
import Verif.Props.MixedCopies
import Verif.Props.CopiesMemory
import Verif.Props.MixedThreads
