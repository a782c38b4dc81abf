import Verif.Spec.Tracking
import Verif.Spec.NlOptimal

/-
Specification: the task configured on a linear controller, set up on a nonlinear controller by user functions.
-/
namespace Mpc.Spec
variable {K : Type} [Field K]

/-- the plant of a linear configuration as a discrete model `x+ = A x + B u + Bd d_k` -/
def LinConfig.field (d : Dims) (c : LinConfig K) : FVec d.nx K → FVec d.nu K → Nat → FVec d.nx K := fun x u k a =>
  (∑ e : Fin d.nx, c.A a e * x e) + (∑ b : Fin d.nu, c.B a b * u b) + ∑ e : Fin d.ndu, c.Bd a e * c.dist k e

/-- command in force before step `k`: the last applied one before step 0 -/
def priorInput (d : Dims) (u0 : Nat → K) (U : Traj (d.ph + 1) d.nu K) (k : Fin d.ph) (b : Fin d.nu) : K :=
  if (k : Nat) = 0 then u0 b else U ⟨k - 1, by omega⟩ b

/-- the tracking cost of a linear configuration as an objective function -/
def LinConfig.objective (d : Dims) (c : LinConfig K) (u0 : Nat → K) : ObjFn d K := fun X _ U _ =>
  (∑ k : Fin d.ph,
    ((∑ a : Fin d.ny, c.wY k a *
        ((∑ e : Fin d.nx, c.C a e * X k.succ e) + (∑ e : Fin d.ndu, c.Dd a e * c.dist k e) - c.yRef k a) ^ 2) +
     (∑ b : Fin d.nu, c.wU k b * (U k.castSucc b - c.uRef k b) ^ 2) +
     (∑ b : Fin d.nu, c.wDu k b * (U k.castSucc b - priorInput d u0 U k b - c.duRef k b) ^ 2))) / 2

/-- A history of calls sets up, on a nonlinear controller, the task of the linear configuration `c` after the command `u0`:
its plant without tolerance, its cost, its limits on states and commands; nothing else, and `c` has no further limits. -/
structure SameTask (d : Dims) (c : LinConfig K) (u0 : Nat → K) (ops : List (NlCall d K)) (outs : List (NlOut K)) : Prop where
  model : NlSpec.last NlSpec.modelTolOf ops = some (c.field d, 0)
  discrete : NlSpec.last NlSpec.samplingOf ops = none
  objective : NlSpec.last NlSpec.objectiveOf ops = some (c.objective d u0)
  noIneq : NlSpec.last NlSpec.ineqConOf ops = none
  noEq : NlSpec.last NlSpec.eqConOf ops = none
  states : ∀ k a, k < d.ph → a < d.nx → NlSpec.stateLimits ops outs k a = (c.xMin k a, c.xMax k a)
  inputs : ∀ k b, k < d.ph → b < d.nu → NlSpec.inputLimits ops outs k b = (c.uMin k b, c.uMax k b)
  yMin : ∀ k a, k < d.ph → a < d.ny → c.yMin k a = .negInf
  yMax : ∀ k a, k < d.ph → a < d.ny → c.yMax k a = .posInf

end Mpc.Spec
