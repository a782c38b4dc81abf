import Mathlib.Algebra.Module.Basic
import Mathlib.Algebra.Field.Defs
import Verif.Model.Types

/-
Model of include/mpc/Integrator.hpp. `double` is a field `K`, `cvec<N>` a module `V` over it; the user function is a
pure function of time and state.
-/
namespace Mpc

variable {K V : Type} [Field K] [AddCommGroup V] [Module K V]

/-- the body of the loop (Integrator.hpp:43-48) -/
def rk4Body (f : K → V → V) (t h : K) (sol : V) : V :=
  let k1 := f t sol
  let k2 := f (t + h / 2) (sol + (h / 2) • k1)
  let k3 := f (t + h / 2) (sol + (h / 2) • k2)
  let k4 := f (t + h) (sol + h • k3)
  sol + (1 / 6 : K) • (h • (k1 + (2 : K) • k2 + (2 : K) • k3 + k4))

/-- `run` (Integrator.hpp:37-52). The loop `size_t i < integration_step` compares unsigned, so the number of passes is
the conversion of `integration_step` to `size_t`. -/
def rk4Run (f : K → V → V) (t : K) (x : V) (h : K) (integration_step : Int) : V :=
  (rk4Body f t h)^[toSizeT integration_step] x

end Mpc
