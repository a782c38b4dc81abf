import Verif.Model.NLMPC
import Verif.Model.NlRounding

/-
The starting point of the nonlinear solver in the arithmetic of the code (`rnd` after every multiplication, division and sum).
Rounding enters through the input scaling only: states, measured state and slack are copied.
-/
namespace Mpc
open Exec

variable {K : Type} [Field K] (rnd : K → K)

/-- `Iu2z` as stored: rounded reciprocals of the scaling (Mapping.hpp:240, 250) -/
def Mapping.Iu2zR (m : Mapping K) : Mat K := ⟨m.Iu2z.rows, m.Iu2z.cols, fun i j => rnd (m.Iu2z.get i j)⟩

namespace NlOpt

/-- `shifted` (NLOptimizer.hpp:445-495), rounded -/
def shiftedR (d : Dims) (mp : Mapping K) (junk : Nat → K) (slack : K) (v : Vec K) : Exec (Vec K) := do
  let g := Vec.const (d.ph * d.nx + d.nu * d.ch + 1) (0 : K)
  let g ← shiftInto d.ph d.nx v g
  let zu ← v.seg (d.ph * d.nx) (d.nu * d.ch)
  let tmp ← mp.Iz2u.mulVecR rnd zu
  let umv ← shiftInto d.ph d.nu tmp ⟨d.ph * d.nu, junk⟩
  let res ← (mp.Iu2zR rnd).mulVecR rnd umv
  let g ← forRange (d.nu * d.ch) g fun i g => do
    let a ← res.at? i
    g.set (d.ph * d.nx + i) a
  g.set (d.ph * d.nx + d.nu * d.ch + 1 - 1) slack

/-- `prepare` (NLOptimizer.hpp:415-495), rounded: new contents of `opt_vector` and the initial point -/
def prepareR [LinearOrder K] (o : NlOpt K) (d : Dims) (mp : Mapping K) (junk : Nat → K) (x0 u0 : Vec K) :
    Exec (Vec K × Vec K) := do
  let v ← if o.first || !o.warm then coldFill d x0 u0 o.optVector else .ok o.optVector
  let g ← shiftedR rnd d mp junk o.currentSlack v
  return (v, g)

end NlOpt

/-- what `optimize(x0, u0)` gives to the solver (NLOptimizer.hpp:409-501) when the code computes with rounded numbers -/
def NlMpc.startR [LinearOrder K] {d : Dims} (m : NlMpc d K) (x0 u0 : Vec K) (junk : Nat → K) : Exec (NlSolverCall K) := do
  let p ← m.o.prepareR rnd d m.s.mp junk x0 u0
  return m.solverCall p.2

end Mpc
