import Verif.Spec.NlApi

/-
Specification of what a history of API calls on the nonlinear controller configures: the last value set of everything.
(Of the model only the types of calls and returned values are used.)
-/
namespace Mpc.NlSpec

variable {K : Type} {d : Dims} [Field K]

/-- the last value set by an element of a history, `f` telling which elements set it -/
def last {β α : Type} (f : β → Option α) : List β → Option α
  | [] => none
  | b :: l => (last f l).or (f b)

/-- last optimizer parameters of the right type -/
def paramsOf : NlCall d K → Option (NlParams K)
  | .setOptimizerParameters (.nonlinear p) => some p
  | _ => none

/-- last input scale -/
def inScaleOf : NlCall d K → Option (Nat → K)
  | .setInputScale v => some v.get
  | _ => none

/-- last state scale -/
def stScaleOf : NlCall d K → Option (Nat → K)
  | .setStateScale v => some v.get
  | _ => none

/-- the objective set by a call -/
def objectiveOf : NlCall d K → Option (ObjFn d K)
  | .setObjectiveFunction f _ => some f
  | _ => none

/-- the model set by a call -/
def modelOf : NlCall d K → Option (FVec d.nx K → FVec d.nu K → Nat → FVec d.nx K)
  | .setStateSpaceFunction F _ _ => some F
  | _ => none

/-- the output map set by a call -/
def outputOf : NlCall d K → Option (OutFn d K)
  | .setOutputFunction g => some g
  | _ => none

/-- inequality constraints and tolerance set by a call -/
def ineqConOf : NlCall d K → Option
    ((Traj (d.ph + 1) d.nx K → Traj (d.ph + 1) d.ny K → Traj (d.ph + 1) d.nu K → K → FVec d.ineq K) × K)
  | .setIneqConFunction F tol _ => some (F, tol)
  | _ => none

/-- equality constraints and tolerance set by a call -/
def eqConOf : NlCall d K → Option ((Traj (d.ph + 1) d.nx K → Traj (d.ph + 1) d.nu K → FVec d.eq K) × K)
  | .setEqConFunction F tol _ => some (F, tol)
  | _ => none

/-- sampling time set by a call -/
def samplingOf : NlCall d K → Option K
  | .setDiscretizationSamplingTime ts => some ts
  | _ => none

/-- solution of the solver in a call -/
def solutionOf : NlCall d K → Option (Vec K)
  | .optimize _ _ _ (.answered z _ _ _) _ => some z
  | _ => none

/-- input scale in force after a history (one by default) -/
def inScale (ops : List (NlCall d K)) : Nat → K := (last inScaleOf ops).getD fun _ => 1

/-- state scale in force after a history (one by default) -/
def stScale (ops : List (NlCall d K)) : Nat → K := (last stScaleOf ops).getD fun _ => 1

/-- warm start is enabled after a history (it is off by default) -/
def WarmStart (ops : List (NlCall d K)) : Bool := ((last paramsOf ops).map (·.enable_warm_start)).getD false

/-- the steps of the slice `{start, stop}`: all for `{-1,-1}`, otherwise `start <= k < stop` -/
def InSlice (s : HorizonSlice) (k : Nat) : Prop := s = HorizonSlice.all ∨ (s.start ≤ (k : Int) ∧ (k : Int) < s.stop)

instance (s : HorizonSlice) (k : Nat) : Decidable (InSlice s k) := by unfold InSlice; infer_instance

/-- bounds set by an accepted call for component `a` of the state of step `k + 1` -/
def stateBox (k a : Nat) : NlCall d K × NlOut K → Option (Ext K × Ext K)
  | (.setStateBounds mn mx, .bool true) => some (mn.get a k, mx.get a k)
  | (.setStateBoundsSlice l u s, .bool true) => if InSlice s k then some (l.get a, u.get a) else none
  | _ => none

/-- bounds set by an accepted call for component `b` of input `j` -/
def inputBox (j b : Nat) : NlCall d K × NlOut K → Option (Ext K × Ext K)
  | (.setInputBounds mn mx, .bool true) => some (mn.get b j, mx.get b j)
  | (.setInputBoundsSlice l u s, .bool true) => if InSlice s j then some (l.get b, u.get b) else none
  | _ => none

/-- command returned by a call in which the solver answered (and the feasibility check did not throw) -/
def commandOf : NlCall d K × NlOut K → Option (Vec K)
  | (.optimize _ _ _ (.answered _ _ _ false) _, .result r _) => some r.cmd
  | _ => none

end Mpc.NlSpec

namespace Mpc.NlSpec
variable {K : Type} {d : Dims} [Field K]

/-- the slice of a slice setter is the whole horizon or does not start at a negative step -/
def UsableCall : NlCall d K → Prop
  | .setStateBoundsSlice _ _ s | .setInputBoundsSlice _ _ s => SliceUsable s
  | _ => True

/-- time limit set by a call: only positive ones are looked at -/
def timeLimitOf [LinearOrder K] : NlCall d K → Option K
  | .setOptimizerParameters (.nonlinear p) => if 0 < p.time_limit then some p.time_limit else none
  | _ => none

end Mpc.NlSpec

namespace Mpc.NlSpec
variable {K : Type} {d : Dims} [Field K]

/-- the constraint group a call adds to the solver's problem, if the solver accepts it -/
def groupOf : NlCall d K → Option (NlGroup K)
  | .setStateSpaceFunction _ tol true => some ⟨.dynamics, ⟨d.ph * d.nx, fun _ => tol⟩⟩
  | .setIneqConFunction _ tol true => some ⟨.userIneq, ⟨d.ineq, fun _ => tol⟩⟩
  | .setEqConFunction _ tol true => some ⟨.userEq, ⟨d.eq, fun _ => tol⟩⟩
  | _ => none

/-- for the calls which bind a function to the solver: whether the solver accepted it -/
def acceptedOf : NlCall d K → Option Bool
  | .setObjectiveFunction _ acc => some acc
  | .setStateSpaceFunction _ _ acc => some acc
  | .setIneqConFunction _ _ acc => some acc
  | .setEqConFunction _ _ acc => some acc
  | _ => none

/-- documented status of an NLopt code: success codes SUCCESS, limits MAX_ITERATION, the failures of NLopt ERROR, a number which
is no code UNKNOWN -/
def NloptDocumented (code : Int) (s : ResultStatus) : Prop :=
  if code = 1 ∨ code = 2 ∨ code = 3 ∨ code = 4 then s = .SUCCESS
  else if code = 5 ∨ code = 6 then s = .MAX_ITERATION
  else if -5 ≤ code ∧ code ≤ -1 then s = .ERROR
  else s = .UNKNOWN

end Mpc.NlSpec
