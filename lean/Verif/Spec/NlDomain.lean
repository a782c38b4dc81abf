import Verif.Spec.NlDoubles
import Verif.Spec.NlStarting

/-
Where the nonlinear controller looks at the user functions: functions which are numbers on a part of the trajectories only.
-/
namespace Mpc.NlSpec
open Mpc
open Mpc.Spec (within)
variable {K : Type} [Field K] [LinearOrder K] {d : Dims}

/-- the user functions return numbers for all states, inputs and slacks with the property `P`; `cont`: the state equation of a step
also for the state after it -/
structure DefinedOn (F : DoubleFns d K) (cont : Bool)
    (P : Traj (d.ph + 1) d.nx K → Traj (d.ph + 1) d.nu K → K → Prop) : Prop where
  obj : ∀ X U e, P X U e → IsNumber (costF F X U e)
  ineq : ∀ X U e, P X U e → ∀ c, IsNumber (ineqF F X U e c)
  eq : ∀ X U e, P X U e → ∀ c, IsNumber (F.eq X U c)
  state : ∀ X U e, P X U e → ∀ (k : Fin d.ph) i, IsNumber (F.state (X k.castSucc) (U k.castSucc) k i)
  stateEnd : cont = true → ∀ X U e, P X U e → ∀ (k : Fin d.ph) i, IsNumber (F.state (X k.succ) (U k.castSucc) k i)

/-- the same measured state, everything else at most `δ` away -/
structure Beside (δ : K) (X : Traj (d.ph + 1) d.nx K) (U : Traj (d.ph + 1) d.nu K) (e : K)
    (X' : Traj (d.ph + 1) d.nx K) (U' : Traj (d.ph + 1) d.nu K) (e' : K) : Prop where
  measured : X' 0 = X 0
  states : ∀ k a, |X' k a - X k a| ≤ δ
  inputs : ∀ k b, |U' k b - U k b| ≤ δ
  slack : |e' - e| ≤ δ

/-- measured state `x0`, states and inputs at most `δ` away from a value within their limits -/
structure WithinBy (δ : K) (ops : List (NlCall d K)) (outs : List (NlOut K)) (x0 : FVec d.nx K)
    (X : Traj (d.ph + 1) d.nx K) (U : Traj (d.ph + 1) d.nu K) : Prop where
  measured : X 0 = x0
  states : ∀ (k : Fin d.ph) (a : Fin d.nx), ∃ w, within (stateLimits ops outs k a).1 (stateLimits ops outs k a).2 w ∧ |X k.succ a - w| ≤ δ
  inputs : ∀ (k : Fin (d.ph + 1)) (b : Fin d.nu), ∃ w, within (inputLimits ops outs (min k (d.ch - 1)) b).1
    (inputLimits ops outs (min k (d.ch - 1)) b).2 w ∧ |U k b - w| ≤ δ

/-- all values and derivatives which the solver can ask for at `z` are numbers -/
structure AllNumbers (s : NlState d K) (F : DoubleFns d K) (z : Vec K) : Prop where
  obj : ∃ v g, s.evalObjF F z true = .ok (v, some g) ∧ IsNumber v ∧ ∀ l, l < d.nZ → IsNumber (g.get l)
  ineq : ∀ junk, ∃ r, s.evalIneqF F z junk = .ok r ∧
    ∀ c : Fin d.ineq, IsNumber (r.value.get c) ∧ ∀ l, l < d.nZ → IsNumber (r.grad.get (c * d.nZ + l))
  eq : ∀ junk, ∃ r, s.evalEqF F z junk = .ok r ∧
    ∀ c : Fin d.eq, IsNumber (r.value.get c) ∧ ∀ l, l < d.nZ → IsNumber (r.grad.get (c * d.nZ + l))
  dynamics : ∀ junk, ∃ r, s.evalDynF F z true junk = .ok r ∧ ∀ (k : Fin d.ph) (i : Fin d.nx),
    IsNumber (r.value.get (k * d.nx + i)) ∧ ∀ l, l < d.nZ → IsNumber (r.grad.get ((k * d.nx + i) * d.nZ + l))

/-- the decision vector `z` is within the limits, with slack zero -/
def InsideLimits (d : Dims) (ops : List (NlCall d K)) (outs : List (NlOut K)) (z : Vec K) : Prop :=
  (∀ k a, k < d.ph → a < d.nx → within (stateLimits ops outs k a).1 (stateLimits ops outs k a).2 (z.get (stateIx d k a))) ∧
  (∀ j b, j < d.ch → b < d.nu → within (inputLimits ops outs j b).1 (inputLimits ops outs j b).2 (z.get (inputIx d j b))) ∧
  z.get (slackIx d) = 0

end Mpc.NlSpec
