import Mathlib.Algebra.Field.Defs
import Mathlib.Order.Nat
import Verif.Model.Types

/-
Specification of the decision vector of the nonlinear controller, written without any function of the model:
the vector stacks the states of steps 1..ph, then the inputs of steps 0..ch-1, then the slack; states and
inputs are stored divided by their scaling factors.
-/
namespace Mpc.NlSpec

variable {K : Type}

/-- position of component `a` of the decision state of step `k + 1` -/
def stateIx (d : Dims) (k a : Nat) : Nat := k * d.nx + a

/-- position of component `b` of the `j`-th decision input -/
def inputIx (d : Dims) (j b : Nat) : Nat := d.ph * d.nx + (j * d.nu + b)

/-- position of the slack -/
def slackIx (d : Dims) : Nat := d.ph * d.nx + d.ch * d.nu

/-- documented state of step `k` (component `a`) when the decision vector is `z`: the measured state at
step 0, the rescaled decision state afterwards -/
def stateAt [Field K] (d : Dims) (scale x0 z : Nat → K) (k a : Nat) : K :=
  if k = 0 then x0 a else scale a * z (stateIx d (k - 1) a)

/-- documented input of step `k` (component `b`): the decision input of step `min k (ch-1)`, rescaled -/
def inputAt [Field K] (d : Dims) (scale z : Nat → K) (k b : Nat) : K :=
  scale b * z (inputIx d (min k (d.ch - 1)) b)

end Mpc.NlSpec
