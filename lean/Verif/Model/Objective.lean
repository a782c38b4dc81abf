import Mathlib.Algebra.Order.Field.Basic
import Mathlib.Algebra.Order.Group.Abs
import Verif.Model.Mapping
import Verif.Model.NlModel

/-
Model of /repo/include/mpc/NLMPC/Objective.hpp.
Not modelled: logging and the debug counter `niteration`.
-/
namespace Mpc

open Exec

/-- `m.cwiseAbs().unaryExpr(d < 1 ? 1 : d)` (Objective.hpp:199-200, 218-219), and `m.cwiseAbs().cwiseMax(1.0)`
(Constraints.hpp:655, 683, 742, 773) -/
def Mat.absMax1 {K : Type} [Field K] [LinearOrder K] (m : Mat K) : Mat K :=
  ⟨m.rows, m.cols, fun i j => if |m.get i j| < 1 then 1 else |m.get i j|⟩

/-- `v.cwiseAbs().cwiseMax(1.0)` (Constraints.hpp:859, 883) -/
def Vec.absMax1 {K : Type} [Field K] [LinearOrder K] (v : Vec K) : Vec K :=
  ⟨v.size, fun i => if |v.get i| < 1 then 1 else |v.get i|⟩

/-- Members of `Objective` (Objective.hpp:259-272 and Base.hpp:72-81), without the shared model and mapping. -/
structure Objective (d : Dims) (K : Type) where
  fuser : Option (ObjFn d K)
  x0 : Vec K
  Xmat : Mat K
  Umat : Mat K
  e : K
  Jx : Mat K
  Jmv : Mat K
  Je : K

/-- `Objective::Cost` (Objective.hpp:42-46). `grad = none`: the vector was allocated but never written. -/
structure ObjCost (K : Type) where
  value : K
  grad : Option (Vec K)

namespace Objective
variable {d : Dims} {K : Type}

/-- the expression `fuser(X, model->getOutput(X, U), U, e)` (Objective.hpp:99, 210, 230, 245, 254-255);
an empty handle throws -/
def callObj [Zero K] (f : Option (ObjFn d K)) (M : NlModel d K) (X U : Mat K) (e : K) : Exec K := do
  let Y ← M.getOutput X U
  match f with
  | none => .error .cppThrow
  | some f => do
    let x ← X.view (d.ph + 1) d.nx
    let y ← Y.view (d.ph + 1) d.ny
    let u ← U.view (d.ph + 1) d.nu
    return f x y u e

variable [Field K] [LinearOrder K]

/-- `Objective::computeJacobian` (Objective.hpp:186-257): `Jx`, `Jmv`, `Je`.
(Simplification: `abs(e0)` at line 252 is the absolute value; should the C function for `int` be selected there,
the step is larger but still positive.) -/
def computeJacobian (f : Option (ObjFn d K)) (M : NlModel d K) (x0 u0 : Mat K) (f0 e0 : K) :
    Exec (Mat K × Mat K × K) := do
  let dv : K := 1 / 1000000
  let Xa := x0.absMax1
  let r ← forRange d.ph (x0, Mat.const d.nx d.ph (0 : K)) fun i s => forRange d.nx s fun j s => do
    let dx := dv * (← Xa.dataVec.at? j)
    let x0 ← s.1.set (i + 1) j ((← s.1.at? (i + 1) j) + dx)
    let v ← callObj f M x0 u0 e0
    let x0 ← x0.set (i + 1) j ((← x0.at? (i + 1) j) - dx)
    let J ← s.2.set j i ((v - f0) / dx)
    return (x0, J)
  let x0 := r.1
  let Jx := r.2
  let Ua := u0.absMax1
  let r ← forRange (d.ph - 1) (u0, Mat.const d.nu d.ph (0 : K)) fun i s => forRange d.nu s fun j s => do
    let du := dv * (← Ua.dataVec.at? j)
    let u0 ← s.1.set i j ((← s.1.at? i j) + du)
    let v ← callObj f M x0 u0 e0
    let u0 ← u0.set i j ((← u0.at? i j) - du)
    let J ← s.2.set j i ((v - f0) / du)
    return (u0, J)
  let r ← forRange d.nu r fun j s => do
    let du := dv * (← Ua.dataVec.at? j)
    let u0 ← s.1.set (d.ph - 1) j ((← s.1.at? (d.ph - 1) j) + du)
    let u0 ← u0.set d.ph j ((← u0.at? d.ph j) + du)
    let v ← callObj f M x0 u0 e0
    let u0 ← u0.set (d.ph - 1) j ((← u0.at? (d.ph - 1) j) - du)
    let u0 ← u0.set d.ph j ((← u0.at? d.ph j) - du)
    let J ← s.2.set j (d.ph - 1) ((v - f0) / du)
    return (u0, J)
  let u0 := r.1
  let ea := max (1 / 1000000) |e0|
  let de := ea * dv
  let f1 ← callObj f M x0 u0 (e0 + de)
  let f2 ← callObj f M x0 u0 (e0 - de)
  return (Jx, r.2, (f1 - f2) / (2 * de))

/-- `Objective::evaluate` (Objective.hpp:89-175). `mp` and `M` are the shared mapping and model objects. -/
def evaluate (o : Objective d K) (mp : Mapping K) (M : NlModel d K) (x : Vec K) (hasGradient : Bool) :
    Exec (ObjCost K × Objective d K) := do
  let w ← mp.unwrapVector x o.x0 o.Xmat o.Umat
  let o := { o with Xmat := w.1, Umat := w.2.1, e := w.2.2 }
  let value ← callObj o.fuser M o.Xmat o.Umat o.e
  if hasGradient then
    let J ← computeJacobian o.fuser M o.Xmat o.Umat value o.e
    let o := { o with Jx := J.1, Jmv := J.2.1, Je := J.2.2 }
    let X ← forRange o.Xmat.cols o.Xmat fun i X => do
      let s ← mp.stateScaling.at? i
      let c ← X.col i
      X.setCol i ⟨c.size, fun k => c.get k / (1 / s)⟩
    let o := { o with Xmat := X }
    let grad : Vec K := Vec.const d.nZ 0
    -- for j over the columns, i over the rows: grad(counter++) = Jx(i, j)
    let g ← forRange o.Jx.cols ((0 : Nat), grad) fun j s => forRange o.Jx.rows s fun i s => do
      let g ← s.2.set s.1 (← o.Jx.at? i j)
      return (s.1 + 1, g)
    let jm ← forRange o.Jmv.cols ((0 : Nat), (Vec.const (d.ph * d.nu) (0 : K))) fun j s =>
      forRange o.Jmv.rows s fun i s => do
        let g ← s.2.set s.1 (← o.Jmv.at? i j)
        return (s.1 + 1, g)
    let res ← mp.Iz2u.transpose.mulVec jm.2
    let g ← forRange (d.ch * d.nu) g fun j s => do
      let g ← s.2.set s.1 (← res.at? j)
      return (s.1 + 1, g)
    let g ← g.2.set (d.nZ - 1) o.Je
    return (⟨value, some g⟩, o)
  else
    return (⟨value, none⟩, o)

end Objective
end Mpc
