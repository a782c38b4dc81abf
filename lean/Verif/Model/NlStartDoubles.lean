import Verif.Model.NLMPC
import Verif.Model.NlDoubles

/-
The starting point of the nonlinear solver when the measured state, the last input, the last answer of the solver or the input
scaling make it leave the numbers: the computations of NLOptimizer.hpp:415-495 and Mapping.hpp:225-261 on `double`s with NaN and
infinities.

Simplifications: as in Doubles.lean (numbers are computed exactly, no overflow, one zero, dense products sum over all indices).
The scaling itself is made of numbers.
-/
namespace Mpc
open Exec
set_option linter.unusedSectionVars false

variable {K : Type} [Field K] [LinearOrder K]

/-- The part of `Mapping::computeMapping` which fills `Iu2z` (Mapping.hpp:225-261): `1.0 / input_scaling(i)` is infinite for a
scaling of zero. -/
def Mapping.computeIu2zF (d : Dims) (inputScaling : Vec K) : Exec (Mat (Flt K)) := do
  let S ← forRange d.nu (Mat.const d.nu d.nu (0 : Flt K)) fun i S => do
    let a ← inputScaling.at? i
    S.set i i ((Flt.fin 1).divBy a)
  let r ← forRange d.ch ((0 : Nat), (0 : Nat), Mat.const (d.nu * d.ch) (d.ph * d.nu) (0 : Flt K)) fun i st => do
    let (ix, jx, Iu) := st
    let Iu ← Iu.setBlock ix jx d.nu d.nu S
    return (ix + d.nu, jx + holdCount d i * d.nu, Iu)
  return r.2.2

namespace NlOpt

/-- `shifted` (NLOptimizer.hpp:445-495) on `double`s; `slack`: the slack of the last answer -/
def shiftedF (d : Dims) (mp : Mapping K) (junk : Nat → Flt K) (slack : Flt K) (v : Vec (Flt K)) : Exec (Vec (Flt K)) := do
  let Iu2z ← Mapping.computeIu2zF d mp.inputScaling
  let g := Vec.const (d.ph * d.nx + d.nu * d.ch + 1) (0 : Flt K)
  let g ← shiftInto d.ph d.nx v g
  let zu ← v.seg (d.ph * d.nx) (d.nu * d.ch)
  let tmp ← (mp.Iz2u.map Flt.fin).mulVec zu
  let umv ← shiftInto d.ph d.nu tmp ⟨d.ph * d.nu, junk⟩
  let res ← Iu2z.mulVec umv
  let g ← forRange (d.nu * d.ch) g fun i g => do
    let a ← res.at? i
    g.set (d.ph * d.nx + i) a
  g.set (d.ph * d.nx + d.nu * d.ch + 1 - 1) slack

end NlOpt

/-- The starting point `optimize(x0, u0)` hands to the solver (NLOptimizer.hpp:409-501); `last`: the last answer of the solver as it
is in the decision vector, `slack`: its slack. -/
def NlMpc.startF {d : Dims} (m : NlMpc d K) (last : Vec (Flt K)) (slack : Flt K) (x0 u0 : Vec (Flt K)) (junk : Nat → Flt K) :
    Exec (Vec (Flt K)) := do
  let v ← if m.o.first || !m.o.warm then NlOpt.coldFill d x0 u0 last else .ok last
  NlOpt.shiftedF d m.s.mp junk slack v

end Mpc
