import Verif.Spec.NlOptimizeCalls
import Verif.Model.NlStateful

/-
User functions with memory: calls apart from the outputs computed on the way, and functions whose memory does not show.
-/
namespace Mpc.NlSpec
open Mpc
variable {d : Dims} {K : Type}

/-- The call without the outputs it is shown, which the output function has answered before. -/
def bare [Zero K] : UserCall d K → UserCall d K
  | .obj X _ U e => .obj X (fun _ _ => 0) U e
  | .ineq X _ U e => .ineq X (fun _ _ => 0) U e
  | c => c

/-- functions which always answer zero -/
def zeroF [Zero K] : ∀ c : UserCall d K, c.Ans
  | .state _ _ _ => (fun _ => 0 : FVec d.nx K)
  | .out _ _ _ => (fun _ => 0 : FVec d.ny K)
  | .obj _ _ _ _ => (0 : K)
  | .ineq _ _ _ _ => (fun _ => 0 : FVec d.ineq K)
  | .eq _ _ => (fun _ => 0 : FVec d.eq K)

/-- The calls of the check of an answer with states `X`, inputs `U` and slack `e`, whatever the user functions answer: the inequality
constraints if there are any, then the equality constraints if there are any; these may be left out if the answer is reported to be
infeasible and there are inequality constraints. -/
def CheckAsked [Zero K] (hasOut hasIneq hasEq : Bool) (X : Traj (d.ph + 1) d.nx K) (U : Traj (d.ph + 1) d.nu K) (e : K) (feasible : Bool)
    (l : List (UserCall d K)) : Prop :=
  l = (if hasIneq then ineqCalls zeroF hasOut X U e else []) ++ (if hasEq then [.eq X U] else []) ∨
  hasIneq = true ∧ feasible = false ∧ l = ineqCalls zeroF hasOut X U e

/-- What follows the solver's search, likewise. -/
def AfterAsked [Field K] (hasOut hasIneq hasEq : Bool) (X : Vec K → Traj (d.ph + 1) d.nx K) (U : Vec K → Traj (d.ph + 1) d.nu K)
    (feasible : Bool) : NlOutcome K → List (UserCall d K) → Prop
  | .answered z _ _ false, l => ∃ l', l = l' ++ outCalls hasOut (X z) (U z) ∧
      CheckAsked hasOut hasIneq hasEq (X z) (U z) (z.get (slackIx d)) feasible l'
  | _, l => l = []

/-- Functions which remember, but answer as `F` does: as long as what they remember is in `inv`. -/
structure Faithful {σ : Type} (inv : σ → Prop) (f : Stateful d K σ) (F : ∀ c : UserCall d K, c.Ans) : Prop where
  answer : ∀ s c, inv s → (f s c).2 = F c
  keep : ∀ s c, inv s → inv (f s c).1

end Mpc.NlSpec
