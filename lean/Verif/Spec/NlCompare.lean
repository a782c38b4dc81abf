import Verif.Spec.NlOptimal
import Verif.Spec.Optimal

/-
Specification: comparing two configurations of the nonlinear controller.
-/
namespace Mpc.NlSpec
open Mpc.Spec (within)
variable {K : Type} {d : Dims} [Field K] [LinearOrder K]

/-- Whatever the second history asks of a plan, the first asks too: its limits are inside, its constraints include those of the
second with at most their tolerances; model, sampling and output map are the same. -/
structure Relaxed (ops : List (NlCall d K)) (outs : List (NlOut K)) (ops' : List (NlCall d K)) (outs' : List (NlOut K)) : Prop where
  states : ∀ k a v, k < d.ph → a < d.nx → within (stateLimits ops outs k a).1 (stateLimits ops outs k a).2 v →
    within (stateLimits ops' outs' k a).1 (stateLimits ops' outs' k a).2 v
  inputs : ∀ j b v, j < d.ch → b < d.nu → within (inputLimits ops outs j b).1 (inputLimits ops outs j b).2 v →
    within (inputLimits ops' outs' j b).1 (inputLimits ops' outs' j b).2 v
  model : ∀ F tol', last modelTolOf ops' = some (F, tol') → ∃ tol, last modelTolOf ops = some (F, tol) ∧ tol ≤ tol'
  ineq : ∀ G tol', last ineqConOf ops' = some (G, tol') → ∃ tol, last ineqConOf ops = some (G, tol) ∧ tol ≤ tol'
  eq : ∀ G tol', last eqConOf ops' = some (G, tol') → ∃ tol, last eqConOf ops = some (G, tol) ∧ tol ≤ tol'
  sampling : last samplingOf ops' = last samplingOf ops
  output : last outputOf ops' = last outputOf ops

/-- a plan which is best, and the only one -/
def OnlyBest {α : Type} (Allowed : α → Prop) (cost : α → K) (p : α) : Prop :=
  Spec.IsBest Allowed cost p ∧ ∀ q, Spec.IsBest Allowed cost q → q = p

end Mpc.NlSpec
