import Verif.Model.Doubles
import Verif.Model.NlProblem

/-
The evaluations which the nonlinear controller performs for the solver, when the user functions return arbitrary `double`s: a
square root of a negative number, a division by zero or a logarithm outside of its domain makes them return NaN or an infinity.

The definitions repeat those of Objective.lean, Constraints.lean and NlProblem.lean operation by operation; `Verif.Props.NlDoubles`
proves that for functions which return numbers they give the same numbers.

Simplifications: as in Doubles.lean (numbers are computed exactly, no overflow, one zero; Eigen's dense products sum over all
indices without shortcut for zero factors). The decision vector, the measured state and the settings are numbers. The members which
only cache results of the last evaluation (the Jacobians of `Objective`, `ceq`, `Jceq`, ... of `Constraints`) are left out: they are
overwritten before they are read.
-/
namespace Mpc

open Exec
set_option linter.unusedSectionVars false

namespace Flt
variable {K : Type} [Field K] [LinearOrder K]

/-- `a - b` -/
def sub (a b : Flt K) : Flt K := a + -b

instance : Sub (Flt K) := ⟨sub⟩

/-- `a / h` for a number `h`; zero is the positive one -/
def divBy : Flt K → K → Flt K
  | nan, _ => nan
  | num (.fin x), h =>
    if h = 0 then (if x = 0 then nan else if 0 < x then num .posInf else num .negInf) else num (.fin (x / h))
  | num a, h => if h < 0 then neg (num a) else num a

end Flt

/-- The user functions of a controller, with the `double`s they return (IDimensionable.hpp:86-149). Functions which fill a vector are
given by what they fill it with, except that the output function may leave entries untouched. -/
structure DoubleFns (d : Dims) (K : Type) where
  state : FVec d.nx K → FVec d.nu K → Nat → FVec d.nx (Flt K)
  out : Option (FVec d.ny (Flt K) → FVec d.nx K → FVec d.nu K → Nat → FVec d.ny (Flt K))
  obj : Traj (d.ph + 1) d.nx K → Traj (d.ph + 1) d.ny (Flt K) → Traj (d.ph + 1) d.nu K → K → Flt K
  ineq : Traj (d.ph + 1) d.nx K → Traj (d.ph + 1) d.ny (Flt K) → Traj (d.ph + 1) d.nu K → K → FVec d.ineq (Flt K)
  eq : Traj (d.ph + 1) d.nx K → Traj (d.ph + 1) d.nu K → FVec d.eq (Flt K)

/-- `(v - w) / h` -/
def Vec.subDivF {K : Type} [Field K] [LinearOrder K] (v w : Vec (Flt K)) (h : K) : Exec (Vec (Flt K)) := do
  require (v.size = w.size) .sizeMismatch
  return ⟨v.size, fun i => (v.get i - w.get i).divBy h⟩

namespace DoubleFns
variable {d : Dims} {K : Type} [Field K] [LinearOrder K] (F : DoubleFns d K)

/-- `Model::getOutput` (Model.hpp:72-96) -/
def getOutput (X U : Mat K) : Exec (Mat (Flt K)) := do
  let Y := Mat.const (d.ph + 1) d.ny (0 : Flt K)
  match F.out with
  | none => return Y
  | some f =>
    forRange (d.ph + 1) Y fun i Y => do
      let x ← (← X.row i).view d.nx
      let u ← (← U.row i).view d.nu
      Y.setRow i (Vec.ofF (f (fun _ => 0) x u (toUnsigned i)))

/-- `fuser(X, model->getOutput(X, U), U, e)` (Objective.hpp:99, 210, 230, 245, 254-255) -/
def callObj (X U : Mat K) (e : K) : Exec (Flt K) := do
  let Y ← F.getOutput X U
  let x ← X.view (d.ph + 1) d.nx
  let y ← Y.view (d.ph + 1) d.ny
  let u ← U.view (d.ph + 1) d.nu
  return F.obj x y u e

/-- `ieqUser(buf, X, model->getOutput(X, U), U, e)` (Constraints.hpp:153-154, 213-214, 668-669, 695-696, 715-719) -/
def callIneq (X U : Mat K) (e : K) : Exec (Vec (Flt K)) := do
  let Y ← F.getOutput X U
  let x ← X.view (d.ph + 1) d.nx
  let y ← Y.view (d.ph + 1) d.ny
  let u ← U.view (d.ph + 1) d.nu
  return Vec.ofF (F.ineq x y u e)

/-- `eqUser(buf, X, U)` (Constraints.hpp:173, 377, 757, 763, 787, 793, 815, 823) -/
def callEq (X U : Mat K) : Exec (Vec (Flt K)) := do
  let x ← X.view (d.ph + 1) d.nx
  let u ← U.view (d.ph + 1) d.nu
  return Vec.ofF (F.eq x u)

/-- `vectorField(buf, x, u, p)` (Constraints.hpp:544-545, 594, 868-869, 891-892) -/
def callState (x u : Vec K) (p : Nat) : Exec (Vec (Flt K)) := do
  let x ← x.view d.nx
  let u ← u.view d.nu
  return Vec.ofF (F.state x u p)

end DoubleFns

namespace Objective
variable {d : Dims} {K : Type} [Field K] [LinearOrder K]

/-- `Objective::computeJacobian` (Objective.hpp:186-257): `Jx`, `Jmv`, `Je` -/
def computeJacobianF (F : DoubleFns d K) (x0 u0 : Mat K) (f0 : Flt K) (e0 : K) :
    Exec (Mat (Flt K) × Mat (Flt K) × Flt K) := do
  let dv : K := 1 / 1000000
  let Xa := x0.absMax1
  let r ← forRange d.ph (x0, Mat.const d.nx d.ph (0 : Flt K)) fun i s => forRange d.nx s fun j s => do
    let dx := dv * (← Xa.dataVec.at? j)
    let x0 ← s.1.set (i + 1) j ((← s.1.at? (i + 1) j) + dx)
    let v ← F.callObj x0 u0 e0
    let x0 ← x0.set (i + 1) j ((← x0.at? (i + 1) j) - dx)
    let J ← s.2.set j i ((v - f0).divBy dx)
    return (x0, J)
  let x0 := r.1
  let Jx := r.2
  let Ua := u0.absMax1
  let r ← forRange (d.ph - 1) (u0, Mat.const d.nu d.ph (0 : Flt K)) fun i s => forRange d.nu s fun j s => do
    let du := dv * (← Ua.dataVec.at? j)
    let u0 ← s.1.set i j ((← s.1.at? i j) + du)
    let v ← F.callObj x0 u0 e0
    let u0 ← u0.set i j ((← u0.at? i j) - du)
    let J ← s.2.set j i ((v - f0).divBy du)
    return (u0, J)
  let r ← forRange d.nu r fun j s => do
    let du := dv * (← Ua.dataVec.at? j)
    let u0 ← s.1.set (d.ph - 1) j ((← s.1.at? (d.ph - 1) j) + du)
    let u0 ← u0.set d.ph j ((← u0.at? d.ph j) + du)
    let v ← F.callObj x0 u0 e0
    let u0 ← u0.set (d.ph - 1) j ((← u0.at? (d.ph - 1) j) - du)
    let u0 ← u0.set d.ph j ((← u0.at? d.ph j) - du)
    let J ← s.2.set j (d.ph - 1) ((v - f0).divBy du)
    return (u0, J)
  let u0 := r.1
  let ea := max (1 / 1000000) |e0|
  let de := ea * dv
  let f1 ← F.callObj x0 u0 (e0 + de)
  let f2 ← F.callObj x0 u0 (e0 - de)
  return (Jx, r.2, (f1 - f2).divBy (2 * de))

/-- `Objective::evaluate` (Objective.hpp:89-175): value and gradient -/
def evaluateF (o : Objective d K) (mp : Mapping K) (F : DoubleFns d K) (x : Vec K) (hasGradient : Bool) :
    Exec (Flt K × Option (Vec (Flt K))) := do
  let w ← mp.unwrapVector x o.x0 o.Xmat o.Umat
  let value ← F.callObj w.1 w.2.1 w.2.2
  if hasGradient then
    let J ← computeJacobianF F w.1 w.2.1 value w.2.2
    let grad : Vec (Flt K) := Vec.const d.nZ 0
    let g ← forRange J.1.cols ((0 : Nat), grad) fun j s => forRange J.1.rows s fun i s => do
      let g ← s.2.set s.1 (← J.1.at? i j)
      return (s.1 + 1, g)
    let jm ← forRange J.2.1.cols ((0 : Nat), (Vec.const (d.ph * d.nu) (0 : Flt K))) fun j s =>
      forRange J.2.1.rows s fun i s => do
        let g ← s.2.set s.1 (← J.2.1.at? i j)
        return (s.1 + 1, g)
    let res ← (mp.Iz2u.map Flt.fin).transpose.mulVec jm.2
    let g ← forRange (d.ch * d.nu) g fun j s => do
      let g ← s.2.set s.1 (← res.at? j)
      return (s.1 + 1, g)
    let g ← g.2.set (d.nZ - 1) J.2.2
    return (value, some g)
  else
    return (value, none)

end Objective

namespace Constraints
variable {d : Dims} {K : Type} [Field K] [LinearOrder K]

/-- `Constraints::glueJacobian` (Constraints.hpp:462-485); the new value of `Jres` -/
def glueJacobianF (d : Dims) (mp : Mapping K) (junk : Nat → Flt K) (Jres Jstate Jmanvar : Mat (Flt K)) (Jcon : Vec (Flt K)) :
    Exec (Mat (Flt K)) := do
  let Jres ← forRange d.ph Jres fun i Jres => do
    let b ← Jstate.block 0 (i * d.nx) Jstate.rows d.nx
    Jres.setBlock (i * d.nx) 0 d.nx Jres.cols b.transpose
  let Jm ← forRange d.ph (⟨Jres.cols, d.ph * d.nu, fun i _ => junk i⟩ : Mat (Flt K)) fun i Jm => do
    let b ← Jmanvar.block 0 (i * d.nu) Jmanvar.rows d.nu
    Jm.setBlock 0 (i * d.nu) Jres.cols d.nu b
  let p ← Jm.mul (mp.Iz2u.map Flt.fin)
  let Jres ← Jres.setBlock (d.ph * d.nx) 0 (d.nu * d.ch) Jres.cols p.transpose
  require (1 ≤ Jres.rows) .outOfBounds
  Jres.setBlock (Jres.rows - 1) 0 1 Jres.cols Jcon.asRow

/-- The loops which multiply the rows of the state variables by the state scaling
(Constraints.hpp:257-272 and 397-411) -/
def scaleStateRowsF (d : Dims) (mp : Mapping K) (J : Mat (Flt K)) : Exec (Mat (Flt K)) :=
  forRange J.cols J fun j J => do
    let r ← forRange d.ph ((0 : Nat), J) fun _ s => do
      let J ← forRange d.nx s.2 fun ix J => do
        let s' ← mp.stateScaling.at? ix
        J.set (s.1 + ix) j ((← J.at? (s.1 + ix) j) * Flt.fin s')
      return (s.1 + d.nx, J)
    return r.2

/-- `Constraints::computeIneqJacobian` (Constraints.hpp:642-722): `Jconx`, `Jconmv`, `Jcone` -/
def computeIneqJacobianF (F : DoubleFns d K) (x0 u0 : Mat K) (e0 : K) :
    Exec (Mat (Flt K) × Mat (Flt K) × Vec (Flt K)) := do
  let Xa := x0.absMax1
  let r ← forRange d.ph (x0, Mat.const d.ineq (d.ph * d.nx) (0 : Flt K)) fun i s => forRange d.nx s fun j s => do
    let dx := dv * (← Xa.dataVec.at? j)
    let x0 ← s.1.set (i + 1) j ((← s.1.at? (i + 1) j) + dx)
    let fp ← F.callIneq x0 u0 e0
    let x0 ← x0.set (i + 1) j ((← x0.at? (i + 1) j) - 2 * dx)
    let fm ← F.callIneq x0 u0 e0
    let x0 ← x0.set (i + 1) j ((← x0.at? (i + 1) j) + dx)
    let df ← fp.subDivF fm (2 * dx)
    let J ← s.2.setColIn (i * d.nx) d.nx j df
    return (x0, J)
  let x0 := r.1
  let Jx := r.2
  let Ua := u0.absMax1
  let r ← forRange d.ph (u0, Mat.const d.ineq (d.ph * d.nu) (0 : Flt K)) fun i s => forRange d.nu s fun j s => do
    let du := dv * (← Ua.dataVec.at? j)
    let u0 ← s.1.set i j ((← s.1.at? i j) + du)
    let fp ← F.callIneq x0 u0 e0
    let u0 ← u0.set i j ((← u0.at? i j) - 2 * du)
    let fm ← F.callIneq x0 u0 e0
    let u0 ← u0.set i j ((← u0.at? i j) + du)
    let df ← fp.subDivF fm (2 * du)
    let J ← s.2.setColIn (i * d.nu) d.nu j df
    return (u0, J)
  let u0 := r.1
  let ea : K := max dv |e0|
  let de := ea * dv
  let f1 ← F.callIneq x0 u0 (e0 + de)
  let f2 ← F.callIneq x0 u0 (e0 - de)
  let Je ← f1.subDivF f2 (2 * de)
  return (Jx, r.2, Je)

/-- `Constraints::computeEqJacobian` (Constraints.hpp:732-833): `Jconx`, `Jconmv` -/
def computeEqJacobianF (F : DoubleFns d K) (x0 u0 : Mat K) : Exec (Mat (Flt K) × Mat (Flt K)) := do
  let Xa := x0.absMax1
  let r ← forRange d.ph (x0, Mat.const d.eq (d.ph * d.nx) (0 : Flt K)) fun i s => forRange d.nx s fun j s => do
    let dx := dv * (← Xa.at? (i + 1) j)
    let x0 ← s.1.set (i + 1) j ((← s.1.at? (i + 1) j) + dx)
    let fp ← F.callEq x0 u0
    let x0 ← x0.set (i + 1) j ((← x0.at? (i + 1) j) - 2 * dx)
    let fm ← F.callEq x0 u0
    let x0 ← x0.set (i + 1) j ((← x0.at? (i + 1) j) + dx)
    let df ← fp.subDivF fm (2 * dx)
    let J ← s.2.setColIn (i * d.nx) d.nx j df
    return (x0, J)
  let x0 := r.1
  let Jx := r.2
  let Ua := u0.absMax1
  let r ← forRange (d.ph - 1) (u0, Mat.const d.eq (d.ph * d.nu) (0 : Flt K)) fun i s => forRange d.nu s fun j s => do
    let du := dv * (← Ua.at? (d.ph - 1) j)
    let u0 ← s.1.set i j ((← s.1.at? i j) + du)
    let fp ← F.callEq x0 u0
    let u0 ← u0.set i j ((← u0.at? i j) - 2 * du)
    let fm ← F.callEq x0 u0
    let u0 ← u0.set i j ((← u0.at? i j) + du)
    let df ← fp.subDivF fm (2 * du)
    let J ← s.2.setColIn (i * d.nu) d.nu j df
    return (u0, J)
  let r ← forRange d.nu r fun j s => do
    let du := dv * (← Ua.at? (d.ph - 1) j)
    let u0 ← s.1.set (d.ph - 1) j ((← s.1.at? (d.ph - 1) j) + du)
    let u0 ← u0.set d.ph j ((← u0.at? d.ph j) + du)
    let fp ← F.callEq x0 u0
    let u0 ← u0.set (d.ph - 1) j ((← u0.at? (d.ph - 1) j) - 2 * du)
    let u0 ← u0.set d.ph j ((← u0.at? d.ph j) - 2 * du)
    let fm ← F.callEq x0 u0
    let u0 ← u0.set (d.ph - 1) j ((← u0.at? (d.ph - 1) j) + du)
    let u0 ← u0.set d.ph j ((← u0.at? d.ph j) + du)
    let df ← fp.subDivF fm (2 * du)
    let J ← s.2.setColIn ((d.ph - 1) * d.nu) d.nu j df
    return (u0, J)
  return (Jx, r.2)

/-- `Constraints::computeStateEqJacobian` (Constraints.hpp:845-906): `Jx`, `Jmv` -/
def computeStateEqJacobianF (F : DoubleFns d K) (x0 u0 : Vec K) (p : Nat) :
    Exec (Mat (Flt K) × Mat (Flt K)) := do
  let Xa := x0.absMax1
  let Jx ← forRange d.nx (Mat.const d.nx d.nx (0 : Flt K)) fun i J => do
    let dx := dv * (← Xa.at? i)
    let xp ← x0.set i ((← x0.at? i) + dx)
    let xm ← x0.set i ((← x0.at? i) - dx)
    let fp ← F.callState xp u0 p
    let fm ← F.callState xm u0 p
    let df ← fp.subDivF fm (2 * dx)
    J.setCol i df
  let Ua := u0.absMax1
  let Jmv ← forRange d.nu (Mat.const d.nx d.nu (0 : Flt K)) fun i J => do
    let du := dv * (← Ua.at? i)
    let up ← u0.set i ((← u0.at? i) + du)
    let um ← u0.set i ((← u0.at? i) - du)
    let fp ← F.callState x0 up p
    let fm ← F.callState x0 um p
    let df ← fp.subDivF fm (2 * du)
    J.setCol i df
  return (Jx, Jmv)

/-- The guarded write of the block of the state of step `i` (Constraints.hpp:566-569 and 613-616) -/
def setPrevBlockF (d : Dims) (Jx : Mat (Flt K)) (i ic : Nat) (B : Exec (Mat (Flt K))) : Exec (Mat (Flt K)) :=
  if 0 < i then do
    Jx.setBlock ic ((i - 1) * d.nx) d.nx d.nx (← B)
  else pure Jx

/-- `mapping->StateInverseScaling().asDiagonal()` (Constraints.hpp:519 with Mapping.hpp:85): the inverse of zero is infinite -/
def _root_.Mpc.Mapping.invScalingF (m : Mapping K) : Mat (Flt K) :=
  ⟨m.invStateScaling.size, m.invStateScaling.size, fun i j =>
    if i = j then (if m.stateScaling.get i = 0 then .num .posInf else .fin (m.invStateScaling.get i)) else .fin 0⟩

/-- Body of the loop for continuous-time models (Constraints.hpp:528-575); the state is `(ic, ceq, Jx, Jmv)` -/
def stepContinuousF (mp : Mapping K) (F : DoubleFns d K) (Ts : K) (X U : Mat K) (hasGradient : Bool)
    (i : Nat) (s : Nat × Vec (Flt K) × Mat (Flt K) × Mat (Flt K)) : Exec (Nat × Vec (Flt K) × Mat (Flt K) × Mat (Flt K)) := do
  let (ic, ceq, Jx, Jmv) := s
  let Ix := Mat.identity (α := Flt K) d.nx d.nx
  let Sx := mp.invScalingF
  let Tx := mp.stateScaling.asDiagonal.map Flt.fin
  let uk ← U.row i
  let xk ← X.row i
  let h := Ts / 2
  let xk1 ← X.row (i + 1)
  let fk ← F.callState xk uk (toUnsigned i)
  let fk1 ← F.callState xk1 uk (toUnsigned i)
  let v ← (← (xk.to Flt.fin).add (Vec.smul (Flt.fin h) (← fk.add fk1))).add (xk1.to Flt.fin).neg
  let ceq ← ceq.setSeg ic d.nx v
  let v ← ceq.seg ic d.nx
  require (v.size = mp.stateScaling.size) .sizeMismatch
  let ceq ← ceq.setSeg ic d.nx ⟨v.size, fun a => (v.get a).divBy (mp.stateScaling.get a)⟩
  if hasGradient then
    let (Ak, Bk) ← computeStateEqJacobianF F xk uk (toUnsigned i)
    let (Ak1, Bk1) ← computeStateEqJacobianF F xk1 uk (toUnsigned i)
    let Jx ← setPrevBlockF d Jx i ic (do Ix.add (← (← (Sx.smul (Flt.fin h)).mul Ak).mul Tx))
    let Jx ← Jx.setBlock ic (i * d.nx) d.nx d.nx (← Ix.neg.add (← (← (Sx.smul (Flt.fin h)).mul Ak1).mul Tx))
    let Jmv ← Jmv.setBlock ic (i * d.nu) d.nx d.nu (← (Sx.smul (Flt.fin h)).mul (← Bk.add Bk1))
    return (ic + d.nx, ceq, Jx, Jmv)
  else
    return (ic + d.nx, ceq, Jx, Jmv)

/-- Body of the loop for discrete-time models (Constraints.hpp:583-621) -/
def stepDiscreteF (mp : Mapping K) (F : DoubleFns d K) (X U : Mat K) (hasGradient : Bool)
    (i : Nat) (s : Nat × Vec (Flt K) × Mat (Flt K) × Mat (Flt K)) : Exec (Nat × Vec (Flt K) × Mat (Flt K) × Mat (Flt K)) := do
  let (ic, ceq, Jx, Jmv) := s
  let Ix := Mat.identity (α := Flt K) d.nx d.nx
  let Sx := mp.invScalingF
  let Tx := mp.stateScaling.asDiagonal.map Flt.fin
  let uk ← U.row i
  let xk ← X.row i
  let xk1 ← F.callState xk uk (toUnsigned i)
  let v ← ((← X.row (i + 1)).to Flt.fin).add xk1.neg
  let ceq ← ceq.setSeg ic d.nx v
  let v ← ceq.seg ic d.nx
  require (v.size = mp.stateScaling.size) .sizeMismatch
  let ceq ← ceq.setSeg ic d.nx ⟨v.size, fun a => (v.get a).divBy (mp.stateScaling.get a)⟩
  if hasGradient then
    let (Ak, Bk) ← computeStateEqJacobianF F xk uk (toUnsigned i)
    let Ak ← (← Sx.mul Ak).mul Tx
    let Bk ← Sx.mul Bk
    let Jx ← Jx.setBlock ic (i * d.nx) d.nx d.nx Ix
    let Jx ← setPrevBlockF d Jx i ic (pure Ak.neg)
    let Jmv ← Jmv.setBlock ic (i * d.nu) d.nx d.nu Bk.neg
    return (ic + d.nx, ceq, Jx, Jmv)
  else
    return (ic + d.nx, ceq, Jx, Jmv)

/-- `Constraints::getStateEqConstraints` (Constraints.hpp:493-629): `ceq`, `Jceq` -/
def getStateEqConstraintsF (mp : Mapping K) (F : DoubleFns d K) (cont : Bool) (Ts : K) (junk : Nat → Flt K) (X U : Mat K)
    (hasGradient : Bool) : Exec (Vec (Flt K) × Mat (Flt K)) := do
  let ceq : Vec (Flt K) := Vec.const (d.ph * d.nx) 0
  let Jceq : Mat (Flt K) := Mat.const d.nZ (d.ph * d.nx) 0
  let Jx := Mat.const (d.ph * d.nx) (d.ph * d.nx) (0 : Flt K)
  let Jmv := Mat.const (d.ph * d.nx) (d.ph * d.nu) (0 : Flt K)
  let Je := Vec.const (d.ph * d.nx) (0 : Flt K)
  let r ← forRange d.ph ((0 : Nat), ceq, Jx, Jmv) fun i s =>
    if cont then stepContinuousF mp F Ts X U hasGradient i s
    else stepDiscreteF mp F X U hasGradient i s
  let ceq := r.2.1
  if hasGradient then
    let Jceq ← glueJacobianF d mp junk Jceq r.2.2.1 r.2.2.2 Je
    return (ceq, Jceq)
  else
    return (ceq, Jceq)

/-- `Constraints::evaluateIneq` (Constraints.hpp:199-310): values and Jacobian, column by column -/
def evaluateIneqF (o : Constraints d K) (mp : Mapping K) (F : DoubleFns d K) (z : Vec K) (junk : Nat → Flt K) :
    Exec (ConCost (Flt K)) := do
  let w ← mp.unwrapVector z o.x0 o.Xmat o.Umat
  let v ← F.callIneq w.1 w.2.1 w.2.2
  let J ← computeIneqJacobianF F w.1 w.2.1 w.2.2
  let G ← glueJacobianF d mp junk ⟨d.nZ, d.ineq, fun i _ => junk i⟩ J.1 J.2.1 J.2.2
  let G ← scaleStateRowsF d mp G
  return ⟨v, G.dataVec⟩

/-- `Constraints::evaluateEq` (Constraints.hpp:365-448) -/
def evaluateEqF (o : Constraints d K) (mp : Mapping K) (F : DoubleFns d K) (z : Vec K) (junk : Nat → Flt K) :
    Exec (ConCost (Flt K)) := do
  let w ← mp.unwrapVector z o.x0 o.Xmat o.Umat
  let v ← F.callEq w.1 w.2.1
  let J ← computeEqJacobianF F w.1 w.2.1
  let G ← glueJacobianF d mp junk ⟨d.nZ, d.eq, fun i _ => junk i⟩ J.1 J.2 (Vec.const d.eq 0)
  let G ← scaleStateRowsF d mp G
  return ⟨v, G.dataVec⟩

/-- `Constraints::evaluateStateModelEq` (Constraints.hpp:319-356); `cont`, `Ts`: the settings of the model -/
def evaluateStateModelEqF (o : Constraints d K) (mp : Mapping K) (F : DoubleFns d K) (cont : Bool) (Ts : K) (z : Vec K) (g : Bool)
    (junk : Nat → Flt K) : Exec (ConCost (Flt K)) := do
  let w ← mp.unwrapVector z o.x0 o.Xmat o.Umat
  let r ← getStateEqConstraintsF mp F cont Ts junk w.1 w.2.1 g
  return ⟨r.1, r.2.dataVec⟩

end Constraints

namespace NlState
variable {d : Dims} {K : Type} [Field K] [LinearOrder K]

/-- `Objective::evaluate` (Objective.hpp:89-175) on the connected objects: value and gradient -/
def evalObjF (s : NlState d K) (F : DoubleFns d K) (z : Vec K) (g : Bool) : Exec (Flt K × Option (Vec (Flt K))) :=
  s.obj.evaluateF s.mp F z g

/-- `Constraints::evaluateIneq` (Constraints.hpp:199-310) on the connected objects -/
def evalIneqF (s : NlState d K) (F : DoubleFns d K) (z : Vec K) (junk : Nat → Flt K) : Exec (ConCost (Flt K)) :=
  s.con.evaluateIneqF s.mp F z junk

/-- `Constraints::evaluateEq` (Constraints.hpp:365-448) on the connected objects -/
def evalEqF (s : NlState d K) (F : DoubleFns d K) (z : Vec K) (junk : Nat → Flt K) : Exec (ConCost (Flt K)) :=
  s.con.evaluateEqF s.mp F z junk

/-- `Constraints::evaluateStateModelEq` (Constraints.hpp:319-356) on the connected objects -/
def evalDynF (s : NlState d K) (F : DoubleFns d K) (z : Vec K) (g : Bool) (junk : Nat → Flt K) : Exec (ConCost (Flt K)) :=
  s.con.evaluateStateModelEqF s.mp F s.M.continuous s.M.Ts z g junk

end NlState
end Mpc
