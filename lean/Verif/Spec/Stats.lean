import Verif.Model.Profiler
import Verif.Model.NLMPC

/-
Specification of the execution statistics: what was recorded since the last reset, and elementary statistics of a
list of numbers.
-/
namespace Mpc.Spec
noncomputable section

/-- status and duration of a call of `optimize` that returned -/
def entry : StatOp → Option (ResultStatus × ℝ)
  | .optimize start stop (some st) => some (st, stop - start)
  | _ => none

/-- the status a user reads in what a call of a linear controller gave back, when that is a result -/
def reportedL {K : Type} (o : LOut K) : Option ResultStatus :=
  match o with
  | .result r _ => some r.status
  | _ => none

/-- the status a user reads in what a call of a nonlinear controller gave back, when that is a result -/
def reportedNl {K : Type} (o : NlOut K) : Option ResultStatus :=
  match o with
  | .result r _ => some r.status
  | _ => none

/-- a reset -/
def isReset : StatOp → Bool
  | .resetStats => true
  | _ => false

/-- the calls made since the last reset -/
def sinceReset (ops : List StatOp) : List StatOp := (ops.reverse.takeWhile fun op => !isReset op).reverse

/-- status and duration of all solutions since the last reset -/
def recorded (ops : List StatOp) : List (ResultStatus × ℝ) := (sinceReset ops).filterMap entry

/-- durations of all solutions since the last reset -/
def durations (ops : List StatOp) : List ℝ := (recorded ops).map Prod.snd

/-- arithmetic mean -/
def mean (l : List ℝ) : ℝ := l.sum / l.length

/-- sum of the squared deviations from the mean -/
def squares (l : List ℝ) : ℝ := (l.map fun t => (t - mean l) ^ 2).sum

/-- sample standard deviation -/
def sampleStd (l : List ℝ) : ℝ := Real.sqrt (squares l / ((l.length : ℝ) - 1))

/-- the durations are numbers a `double` can represent (`big` is the largest one) -/
def Representable (big : ℝ) (ops : List StatOp) : Prop :=
  ∀ start stop st, StatOp.optimize start stop st ∈ ops → |stop - start| ≤ big

end
end Mpc.Spec
