import Verif.Model.Environment
import Verif.Spec.NlExceptions

/-
Specification: histories of calls in environments which change, and the history a caller would expect them to act like.
-/
namespace Mpc.NlSpec
variable {E : Type} {d : Dims} {K : Type} [Field K]

/-- the history in which the environment was `e` from the start -/
def frozenAt (e : E) (ops : List (E × EnvCall E d K)) : List (NlTCall d K) := ops.map fun p => p.2.frozen e

/-- arguments of the right sizes -/
def EnvFits (d : Dims) (ops : List (E × EnvCall E d K)) : Prop := ∀ p ∈ ops, TCallFits d (p.2.frozen p.1)

/-- well-formed use, as `Admissible` -/
def EnvAdmissible (d : Dims) (dynamic : Bool) (ops : List (E × EnvCall E d K)) : Prop :=
  ∀ p ∈ ops, TAdmissible d dynamic (p.2.frozen p.1)

/-- the call is an `optimize` which returns a result -/
def reports : EnvCall E d K → Bool
  | .call (.optimize _ _ _ _ _) => true
  | .optimize _ _ _ (.outputThrows _) _ => false
  | .optimize _ _ _ _ _ => true
  | _ => false

end Mpc.NlSpec
