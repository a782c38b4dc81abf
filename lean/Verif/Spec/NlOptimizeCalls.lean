import Verif.Spec.NlCalls

/-
What a whole `optimize` asks of the user functions. `X`, `U`: the states and inputs which belong to a decision vector.
-/
namespace Mpc.NlSpec
open Mpc
variable {d : Dims} {K : Type} [Field K] [LinearOrder K]

/-- The solver asks for a function it has been given (`call`): the objective, or the constraints added as the `i`-th. `cont`: a
sampling time has been set. -/
def callbackTrace (F : ∀ c : UserCall d K, c.Ans) (cont hasOut : Bool) (call : NlSolverCall K)
    (X : Vec K → Traj (d.ph + 1) d.nx K) (U : Vec K → Traj (d.ph + 1) d.nu K) : NlCallback K → List (UserCall d K)
  | .obj z gradient _ => if call.objective then objectiveTrace F hasOut (X z) (U z) (z.get (slackIx d)) gradient else []
  | .con i z gradient _ =>
    match call.groups[i]? with
    | none => []
    | some ⟨.dynamics, _⟩ => modelTrace cont (X z) (U z) gradient
    | some ⟨.userIneq, _⟩ => ineqTrace F hasOut (X z) (U z) (z.get (slackIx d))
    | some ⟨.userEq, _⟩ => eqTrace (X z) (U z)

/-- the inequality constraints which are set are within their tolerance -/
def IneqHolds (F : ∀ c : UserCall d K, c.Ans) (hasOut : Bool) (tol : K) (X : Traj (d.ph + 1) d.nx K) (U : Traj (d.ph + 1) d.nu K)
    (e : K) : Prop := ∀ i, (F (.ineq X (outputsBy F hasOut X U) U e) : FVec d.ineq K) i ≤ tol

open Classical in
/-- The check of the solver's answer: the inequality constraints if there are any (`ineq` is their tolerance), then, unless one is
violated, the equality constraints if there are any. -/
noncomputable def checkTrace (F : ∀ c : UserCall d K, c.Ans) (hasOut : Bool) (ineq : Option K) (hasEq : Bool)
    (X : Traj (d.ph + 1) d.nx K) (U : Traj (d.ph + 1) d.nu K) (e : K) : List (UserCall d K) :=
  match ineq with
  | none => if hasEq then [.eq X U] else []
  | some tol => ineqCalls F hasOut X U e ++ if IneqHolds F hasOut tol X U e ∧ hasEq then [.eq X U] else []

/-- What follows the solver's search: if it answers, the check, then the output function at all steps of the plan. -/
noncomputable def answerTrace (F : ∀ c : UserCall d K, c.Ans) (hasOut : Bool) (ineq : Option K) (hasEq : Bool)
    (X : Vec K → Traj (d.ph + 1) d.nx K) (U : Vec K → Traj (d.ph + 1) d.nu K) : NlOutcome K → List (UserCall d K)
  | .threw => []
  | .answered z _ _ _ => checkTrace F hasOut ineq hasEq (X z) (U z) (z.get (slackIx d)) ++ outCalls hasOut (X z) (U z)

end Mpc.NlSpec
