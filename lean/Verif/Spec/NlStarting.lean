import Verif.Spec.NlOptimal

/-
Specification: which starting points NLopt takes. `nlopt_optimize` checks its arguments before the search: a starting point with a
component outside the bounds of this component is refused (`NLOPT_INVALID_ARGS`, an exception in C++), whatever the problem.
-/
namespace Mpc.NlSpec
open Mpc.Spec (within)
variable {K : Type} {d : Dims} [Field K] [LinearOrder K]

/-- every component of `z` is within the bounds given to the solver -/
def InBox (call : NlSolverCall K) (z : Vec K) : Prop := ∀ p, p < z.size → within (call.lb.get p) (call.ub.get p) (z.get p)

/-- the rule of `nlopt_optimize`: no search from a starting point outside the bounds -/
def StartRule (call : NlSolverCall K) (oc : NlOutcome K) : Prop := ¬ InBox call call.guess → oc = .threw

/-- the solver kept to the rule, and its answer to the bounds, in a call -/
def KeepsBox : NlCall d K × NlOut K → Prop
  | (.optimize _ _ _ oc _, .result _ call) => StartRule call oc ∧ ∀ z v c t, oc = .answered z v c t → InBox call z
  | _ => True

/-- `x` is within the bounds of the state of every step, and `u` within those of every input -/
def InLimits (d : Dims) (ops : List (NlCall d K)) (outs : List (NlOut K)) (x u : Nat → K) : Prop :=
  (∀ k a, k < d.ph → a < d.nx → within (stateLimits ops outs k a).1 (stateLimits ops outs k a).2 (x a)) ∧
  (∀ j b, j < d.ch → b < d.nu → within (inputLimits ops outs j b).1 (inputLimits ops outs j b).2 (u b))

/-- the sequences of the decision vector `z`, one step later and the last state and input repeated, are within the bounds -/
def ShiftInLimits (d : Dims) (ops : List (NlCall d K)) (outs : List (NlOut K)) (z : Vec K) : Prop :=
  (∀ k a, k < d.ph → a < d.nx → within (stateLimits ops outs k a).1 (stateLimits ops outs k a).2
    (z.get (stateIx d (min (k + 1) (d.ph - 1)) a))) ∧
  (∀ j b, j < d.ch → b < d.nu → within (inputLimits ops outs j b).1 (inputLimits ops outs j b).2
    (z.get (inputIx d (min (j + 1) (d.ch - 1)) b)))

/-- limits do not get looser along the horizon (for instance: they are the same for all steps) -/
def LimitsNested (d : Dims) (ops : List (NlCall d K)) (outs : List (NlOut K)) : Prop :=
  (∀ k a v, k + 1 < d.ph → a < d.nx → within (stateLimits ops outs (k + 1) a).1 (stateLimits ops outs (k + 1) a).2 v →
    within (stateLimits ops outs k a).1 (stateLimits ops outs k a).2 v) ∧
  (∀ j b v, j + 1 < d.ch → b < d.nu → within (inputLimits ops outs (j + 1) b).1 (inputLimits ops outs (j + 1) b).2 v →
    within (inputLimits ops outs j b).1 (inputLimits ops outs j b).2 v)

end Mpc.NlSpec
