import Verif.Spec.NlFun

/-
Specification vocabulary for the steps of difference quotients: the step of a variable is relative to the magnitude of that
variable itself.
-/
namespace Mpc.NlSpec
variable {K : Type} [Field K] [LinearOrder K] {r n : Nat}

/-- forward difference quotient of `ψ` with respect to step `i`, component `a` of the sequence, with a step relative to the
magnitude of that entry -/
def ownForward (t : K) (ψ : Traj r n K → K) (X : Traj r n K) (i a : Nat) : K :=
  (ψ (bump X i a (stepOf t (entry X i a))) - ψ X) / stepOf t (entry X i a)

/-- central difference quotient, with a step relative to the magnitude of the entry -/
def ownCentral (t : K) (ψ : Traj r n K → K) (X : Traj r n K) (i a : Nat) : K :=
  (ψ (bump X i a (stepOf t (entry X i a))) - ψ (bump X i a (-stepOf t (entry X i a)))) / (2 * stepOf t (entry X i a))

end Mpc.NlSpec
