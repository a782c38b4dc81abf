import Verif.Model.NLMPC

/-
The tolerance arguments of the nonlinear controller: the user passes a `double`, the parameter is a `float`.
-/
namespace Mpc
set_option linter.unusedSectionVars false

variable {d : Dims} {K : Type} [Field K]

/-- What a call does with the number the user writes for a tolerance: the parameters `eq_tol` and `tol` of
`setStateSpaceFunction`, `setIneqConFunction` and `setEqConFunction` have type `const float` (NLMPC.hpp:165-166, 228-229,
250-251; the default `1e-10` is converted in the same way), and so have those of `Constraints::setIneqConstraints` and
`setEqConstraints` (Constraints.hpp:113-114, 129-130). `float` is the conversion from `double` to `float`; converting the
result back to `double` (Constraints.hpp:932, `tol_vec * tol` in NLMPC.hpp:190, 235, 257) changes nothing. All other arguments
are passed as they are. (Simplification: the three constructors of `NlCall` take the converted number.) -/
def NlCall.narrow (float : K → K) : NlCall d K → NlCall d K
  | .setStateSpaceFunction F tol accepted => .setStateSpaceFunction F (float tol) accepted
  | .setIneqConFunction F tol accepted => .setIneqConFunction F (float tol) accepted
  | .setEqConFunction F tol accepted => .setEqConFunction F (float tol) accepted
  | op => op

end Mpc
