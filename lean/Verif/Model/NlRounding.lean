import Verif.Model.NlProblem

/-
The evaluations which the nonlinear controller performs for the solver, in the arithmetic of the code: every addition, subtraction,
multiplication and division of `double`s is followed by a rounding `rnd`.

The definitions repeat those of Mapping.lean, Objective.lean, Constraints.lean and NlProblem.lean operation by operation (the text
of the C++ is the same); `Verif.Props.NlRounding` proves that with `rnd = id` they are those definitions. Rounding inside the user
functions belongs to the user functions.

Simplifications: no overflow, underflow or NaN; each operation is rounded separately and sums are computed from left to right (a
compiler using fused multiply-add, or Eigen's vectorised products, evaluate the same sums in another order). The constant
`2 * dx` is written as a rounded product although it is exact in binary.
-/
namespace Mpc
open Exec
set_option linter.unusedSectionVars false

section
variable {K : Type}

/-- `sum_{i < n} f i` from left to right, each partial sum rounded -/
def sumToR [Zero K] [Add K] (rnd : K → K) : Nat → (Nat → K) → K
  | 0, _ => 0
  | n + 1, f => rnd (sumToR rnd n f + f n)

variable [Field K] (rnd : K → K)

/-- `m * n`, rounded -/
def Mat.mulR (m n : Mat K) : Exec (Mat K) := do
  require (m.cols = n.rows) .sizeMismatch
  return ⟨m.rows, n.cols, fun i j => sumToR rnd m.cols fun k => rnd (m.get i k * n.get k j)⟩

/-- `m * v`, rounded -/
def Mat.mulVecR (m : Mat K) (v : Vec K) : Exec (Vec K) := do
  require (m.cols = v.size) .sizeMismatch
  return ⟨m.rows, fun i => sumToR rnd m.cols fun k => rnd (m.get i k * v.get k)⟩

/-- `m + n`, rounded -/
def Mat.addR (m n : Mat K) : Exec (Mat K) := do
  require (m.rows = n.rows ∧ m.cols = n.cols) .sizeMismatch
  return ⟨m.rows, m.cols, fun i j => rnd (m.get i j + n.get i j)⟩

/-- `h * m`, rounded -/
def Mat.smulR (h : K) (m : Mat K) : Mat K := ⟨m.rows, m.cols, fun i j => rnd (h * m.get i j)⟩

/-- `v + w`, rounded -/
def Vec.addR (v w : Vec K) : Exec (Vec K) := do
  require (v.size = w.size) .sizeMismatch
  return ⟨v.size, fun i => rnd (v.get i + w.get i)⟩

/-- `h * v`, rounded -/
def Vec.smulR (h : K) (v : Vec K) : Vec K := ⟨v.size, fun i => rnd (h * v.get i)⟩

/-- `(v - w) / h`, rounded -/
def Vec.subDivR (v w : Vec K) (h : K) : Exec (Vec K) := do
  require (v.size = w.size) .sizeMismatch
  return ⟨v.size, fun i => rnd (rnd (v.get i - w.get i) / h)⟩

/-- `v.array() / w.array()`, rounded -/
def Vec.cwiseDivR (v w : Vec K) : Exec (Vec K) := do
  require (v.size = w.size) .sizeMismatch
  return ⟨v.size, fun i => rnd (v.get i / w.get i)⟩

/-- `invStateScaling` as stored: rounded quotients (Mapping.hpp:82-86) -/
def Mapping.invStateScalingR (m : Mapping K) : Vec K := ⟨m.invStateScaling.size, fun i => rnd (m.invStateScaling.get i)⟩

/-- `Mapping::unwrapVector` (Mapping.hpp:174-215), rounded -/
def Mapping.unwrapVectorR (m : Mapping K) (x : Vec K) (x0 : Vec K) (Xbuf Ubuf : Mat K) :
    Exec (Mat K × Mat K × K) := do
  let d := m.dims
  let uVec ← x.seg (d.ph * d.nx) (d.nu * d.ch)
  let tmp ← m.Iz2u.mulVecR rnd uVec
  require (tmp.size = d.nu * d.ph) .sizeMismatch
  let mapped : Mat K := ⟨d.nu, d.ph, fun i j => tmp.get (j * d.nu + i)⟩
  let Umv := Mat.const (d.ph + 1) d.nu (0 : K)
  let Umv ← Umv.setBlock 0 0 d.ph d.nu mapped.transpose
  let last ← Umv.row (d.ph - 1)
  let Umv ← Umv.setRow d.ph last
  let X := Mat.const Xbuf.rows Xbuf.cols (0 : K)
  let X ← X.setRow 0 x0
  let X ← forFrom 1 d.ph X fun i X => do
    let r ← x.seg ((i - 1) * d.nx) d.nx
    X.setRow i r
  let X ← forRange X.cols X fun i X => do
    let s ← m.stateScaling.at? i
    let c ← X.col i
    X.setCol i ⟨c.size, fun k => rnd (c.get k / rnd (1 / s))⟩
  let U := Mat.const Ubuf.rows Ubuf.cols (0 : K)
  let U ← U.setBlock 0 0 (d.ph + 1) d.nu Umv
  require (0 < x.size) .outOfBounds
  return (X, U, x.get (x.size - 1))

end

namespace Objective
variable {d : Dims} {K : Type} [Field K] [LinearOrder K] (rnd : K → K)

/-- `Objective::computeJacobian` (Objective.hpp:186-257), rounded; the constants `1e-6` of lines 252 and 271 are the nearest
`double`s -/
def computeJacobianR (f : Option (ObjFn d K)) (M : NlModel d K) (x0 u0 : Mat K) (f0 e0 : K) :
    Exec (Mat K × Mat K × K) := do
  let dv : K := rnd (1 / 1000000)
  let Xa := x0.absMax1
  let r ← forRange d.ph (x0, Mat.const d.nx d.ph (0 : K)) fun i s => forRange d.nx s fun j s => do
    let dx := rnd (dv * (← Xa.dataVec.at? j))
    let x0 ← s.1.set (i + 1) j (rnd ((← s.1.at? (i + 1) j) + dx))
    let v ← callObj f M x0 u0 e0
    let x0 ← x0.set (i + 1) j (rnd ((← x0.at? (i + 1) j) - dx))
    let J ← s.2.set j i (rnd (rnd (v - f0) / dx))
    return (x0, J)
  let x0 := r.1
  let Jx := r.2
  let Ua := u0.absMax1
  let r ← forRange (d.ph - 1) (u0, Mat.const d.nu d.ph (0 : K)) fun i s => forRange d.nu s fun j s => do
    let du := rnd (dv * (← Ua.dataVec.at? j))
    let u0 ← s.1.set i j (rnd ((← s.1.at? i j) + du))
    let v ← callObj f M x0 u0 e0
    let u0 ← u0.set i j (rnd ((← u0.at? i j) - du))
    let J ← s.2.set j i (rnd (rnd (v - f0) / du))
    return (u0, J)
  let r ← forRange d.nu r fun j s => do
    let du := rnd (dv * (← Ua.dataVec.at? j))
    let u0 ← s.1.set (d.ph - 1) j (rnd ((← s.1.at? (d.ph - 1) j) + du))
    let u0 ← u0.set d.ph j (rnd ((← u0.at? d.ph j) + du))
    let v ← callObj f M x0 u0 e0
    let u0 ← u0.set (d.ph - 1) j (rnd ((← u0.at? (d.ph - 1) j) - du))
    let u0 ← u0.set d.ph j (rnd ((← u0.at? d.ph j) - du))
    let J ← s.2.set j (d.ph - 1) (rnd (rnd (v - f0) / du))
    return (u0, J)
  let u0 := r.1
  let ea := max (rnd (1 / 1000000)) |e0|
  let de := rnd (ea * dv)
  let f1 ← callObj f M x0 u0 (rnd (e0 + de))
  let f2 ← callObj f M x0 u0 (rnd (e0 - de))
  return (Jx, r.2, rnd (rnd (f1 - f2) / rnd (2 * de)))

/-- `Objective::evaluate` (Objective.hpp:89-175), rounded -/
def evaluateR (o : Objective d K) (mp : Mapping K) (M : NlModel d K) (x : Vec K) (hasGradient : Bool) :
    Exec (ObjCost K × Objective d K) := do
  let w ← mp.unwrapVectorR rnd x o.x0 o.Xmat o.Umat
  let o := { o with Xmat := w.1, Umat := w.2.1, e := w.2.2 }
  let value ← callObj o.fuser M o.Xmat o.Umat o.e
  if hasGradient then
    let J ← computeJacobianR rnd o.fuser M o.Xmat o.Umat value o.e
    let o := { o with Jx := J.1, Jmv := J.2.1, Je := J.2.2 }
    let X ← forRange o.Xmat.cols o.Xmat fun i X => do
      let s ← mp.stateScaling.at? i
      let c ← X.col i
      X.setCol i ⟨c.size, fun k => rnd (c.get k / rnd (1 / s))⟩
    let o := { o with Xmat := X }
    let grad : Vec K := Vec.const d.nZ 0
    let g ← forRange o.Jx.cols ((0 : Nat), grad) fun j s => forRange o.Jx.rows s fun i s => do
      let g ← s.2.set s.1 (← o.Jx.at? i j)
      return (s.1 + 1, g)
    let jm ← forRange o.Jmv.cols ((0 : Nat), (Vec.const (d.ph * d.nu) (0 : K))) fun j s =>
      forRange o.Jmv.rows s fun i s => do
        let g ← s.2.set s.1 (← o.Jmv.at? i j)
        return (s.1 + 1, g)
    let res ← mp.Iz2u.transpose.mulVecR rnd jm.2
    let g ← forRange (d.ch * d.nu) g fun j s => do
      let g ← s.2.set s.1 (← res.at? j)
      return (s.1 + 1, g)
    let g ← g.2.set (d.nZ - 1) o.Je
    return (⟨value, some g⟩, o)
  else
    return (⟨value, none⟩, o)

end Objective

namespace Constraints
variable {d : Dims} {K : Type} [Field K] (rnd : K → K)

/-- `Constraints::glueJacobian` (Constraints.hpp:462-485), rounded -/
def glueJacobianR (d : Dims) (mp : Mapping K) (junk : Nat → K) (Jres Jstate Jmanvar : Mat K) (Jcon : Vec K) :
    Exec (Mat K) := do
  let Jres ← forRange d.ph Jres fun i Jres => do
    let b ← Jstate.block 0 (i * d.nx) Jstate.rows d.nx
    Jres.setBlock (i * d.nx) 0 d.nx Jres.cols b.transpose
  let Jm ← forRange d.ph (⟨Jres.cols, d.ph * d.nu, fun i _ => junk i⟩ : Mat K) fun i Jm => do
    let b ← Jmanvar.block 0 (i * d.nu) Jmanvar.rows d.nu
    Jm.setBlock 0 (i * d.nu) Jres.cols d.nu b
  let p ← Jm.mulR rnd mp.Iz2u
  let Jres ← Jres.setBlock (d.ph * d.nx) 0 (d.nu * d.ch) Jres.cols p.transpose
  require (1 ≤ Jres.rows) .outOfBounds
  Jres.setBlock (Jres.rows - 1) 0 1 Jres.cols Jcon.asRow

/-- The loops which multiply the rows of the state variables by the state scaling
(Constraints.hpp:257-272 and 397-411), rounded -/
def scaleStateRowsR (d : Dims) (mp : Mapping K) (J : Mat K) : Exec (Mat K) :=
  forRange J.cols J fun j J => do
    let r ← forRange d.ph ((0 : Nat), J) fun _ s => do
      let J ← forRange d.nx s.2 fun ix J => do
        let s' ← mp.stateScaling.at? ix
        J.set (s.1 + ix) j (rnd ((← J.at? (s.1 + ix) j) * s'))
      return (s.1 + d.nx, J)
    return r.2

variable [LinearOrder K]

/-- `Constraints::computeIneqJacobian` (Constraints.hpp:642-722), rounded -/
def computeIneqJacobianR (f : IConFn d K) (M : NlModel d K) (junk : Nat → K) (x0 u0 : Mat K) (e0 : K) :
    Exec (Mat K × Mat K × Vec K) := do
  let buf : FVec d.ineq K := fun i => junk i
  let Xa := x0.absMax1
  let r ← forRange d.ph (x0, Mat.const d.ineq (d.ph * d.nx) (0 : K)) fun i s => forRange d.nx s fun j s => do
    let dx := rnd (rnd dv * (← Xa.dataVec.at? j))
    let x0 ← s.1.set (i + 1) j (rnd ((← s.1.at? (i + 1) j) + dx))
    let fp ← callIneq f M buf x0 u0 e0
    let x0 ← x0.set (i + 1) j (rnd ((← x0.at? (i + 1) j) - rnd (2 * dx)))
    let fm ← callIneq f M buf x0 u0 e0
    let x0 ← x0.set (i + 1) j (rnd ((← x0.at? (i + 1) j) + dx))
    let df ← fp.subDivR rnd fm (rnd (2 * dx))
    let J ← s.2.setColIn (i * d.nx) d.nx j df
    return (x0, J)
  let x0 := r.1
  let Jx := r.2
  let Ua := u0.absMax1
  let r ← forRange d.ph (u0, Mat.const d.ineq (d.ph * d.nu) (0 : K)) fun i s => forRange d.nu s fun j s => do
    let du := rnd (rnd dv * (← Ua.dataVec.at? j))
    let u0 ← s.1.set i j (rnd ((← s.1.at? i j) + du))
    let fp ← callIneq f M buf x0 u0 e0
    let u0 ← u0.set i j (rnd ((← u0.at? i j) - rnd (2 * du)))
    let fm ← callIneq f M buf x0 u0 e0
    let u0 ← u0.set i j (rnd ((← u0.at? i j) + du))
    let df ← fp.subDivR rnd fm (rnd (2 * du))
    let J ← s.2.setColIn (i * d.nu) d.nu j df
    return (u0, J)
  let u0 := r.1
  let ea : K := max (rnd dv) |e0|
  let de := rnd (ea * rnd dv)
  let f1 ← callIneq f M buf x0 u0 (rnd (e0 + de))
  let f2 ← callIneq f M buf x0 u0 (rnd (e0 - de))
  let Je ← f1.subDivR rnd f2 (rnd (2 * de))
  return (Jx, r.2, Je)

/-- `Constraints::computeEqJacobian` (Constraints.hpp:732-833), rounded -/
def computeEqJacobianR (f : EConFn d K) (junk : Nat → K) (x0 u0 : Mat K) : Exec (Mat K × Mat K) := do
  let buf : FVec d.eq K := fun i => junk i
  let Xa := x0.absMax1
  let r ← forRange d.ph (x0, Mat.const d.eq (d.ph * d.nx) (0 : K)) fun i s => forRange d.nx s fun j s => do
    let dx := rnd (rnd dv * (← Xa.at? (i + 1) j))
    let x0 ← s.1.set (i + 1) j (rnd ((← s.1.at? (i + 1) j) + dx))
    let fp ← callEq f buf x0 u0
    let x0 ← x0.set (i + 1) j (rnd ((← x0.at? (i + 1) j) - rnd (2 * dx)))
    let fm ← callEq f buf x0 u0
    let x0 ← x0.set (i + 1) j (rnd ((← x0.at? (i + 1) j) + dx))
    let df ← fp.subDivR rnd fm (rnd (2 * dx))
    let J ← s.2.setColIn (i * d.nx) d.nx j df
    return (x0, J)
  let x0 := r.1
  let Jx := r.2
  let Ua := u0.absMax1
  let r ← forRange (d.ph - 1) (u0, Mat.const d.eq (d.ph * d.nu) (0 : K)) fun i s => forRange d.nu s fun j s => do
    let du := rnd (rnd dv * (← Ua.at? (d.ph - 1) j))
    let u0 ← s.1.set i j (rnd ((← s.1.at? i j) + du))
    let fp ← callEq f buf x0 u0
    let u0 ← u0.set i j (rnd ((← u0.at? i j) - rnd (2 * du)))
    let fm ← callEq f buf x0 u0
    let u0 ← u0.set i j (rnd ((← u0.at? i j) + du))
    let df ← fp.subDivR rnd fm (rnd (2 * du))
    let J ← s.2.setColIn (i * d.nu) d.nu j df
    return (u0, J)
  let r ← forRange d.nu r fun j s => do
    let du := rnd (rnd dv * (← Ua.at? (d.ph - 1) j))
    let u0 ← s.1.set (d.ph - 1) j (rnd ((← s.1.at? (d.ph - 1) j) + du))
    let u0 ← u0.set d.ph j (rnd ((← u0.at? d.ph j) + du))
    let fp ← callEq f buf x0 u0
    let u0 ← u0.set (d.ph - 1) j (rnd ((← u0.at? (d.ph - 1) j) - rnd (2 * du)))
    let u0 ← u0.set d.ph j (rnd ((← u0.at? d.ph j) - rnd (2 * du)))
    let fm ← callEq f buf x0 u0
    let u0 ← u0.set (d.ph - 1) j (rnd ((← u0.at? (d.ph - 1) j) + du))
    let u0 ← u0.set d.ph j (rnd ((← u0.at? d.ph j) + du))
    let df ← fp.subDivR rnd fm (rnd (2 * du))
    let J ← s.2.setColIn ((d.ph - 1) * d.nu) d.nu j df
    return (u0, J)
  return (Jx, r.2)

/-- `Constraints::computeStateEqJacobian` (Constraints.hpp:845-906), rounded -/
def computeStateEqJacobianR (M : NlModel d K) (junk : Nat → K) (x0 u0 : Vec K) (p : Nat) :
    Exec (Mat K × Mat K) := do
  let buf : FVec d.nx K := fun i => junk i
  let Xa := x0.absMax1
  let Jx ← forRange d.nx (Mat.const d.nx d.nx (0 : K)) fun i J => do
    let dx := rnd (rnd dv * (← Xa.at? i))
    let xp ← x0.set i (rnd ((← x0.at? i) + dx))
    let xm ← x0.set i (rnd ((← x0.at? i) - dx))
    let fp ← M.callState buf xp u0 p
    let fm ← M.callState buf xm u0 p
    let df ← fp.subDivR rnd fm (rnd (2 * dx))
    J.setCol i df
  let Ua := u0.absMax1
  let Jmv ← forRange d.nu (Mat.const d.nx d.nu (0 : K)) fun i J => do
    let du := rnd (rnd dv * (← Ua.at? i))
    let up ← u0.set i (rnd ((← u0.at? i) + du))
    let um ← u0.set i (rnd ((← u0.at? i) - du))
    let fp ← M.callState buf x0 up p
    let fm ← M.callState buf x0 um p
    let df ← fp.subDivR rnd fm (rnd (2 * du))
    J.setCol i df
  return (Jx, Jmv)

/-- Body of the loop for continuous-time models (Constraints.hpp:528-575), rounded -/
def stepContinuousR (mp : Mapping K) (M : NlModel d K) (junk : Nat → K) (X U : Mat K) (hasGradient : Bool)
    (i : Nat) (s : Nat × Vec K × Mat K × Mat K) : Exec (Nat × Vec K × Mat K × Mat K) := do
  let (ic, ceq, Jx, Jmv) := s
  let buf : FVec d.nx K := fun i => junk i
  let Ix := Mat.identity (α := K) d.nx d.nx
  let Sx := (mp.invStateScalingR rnd).asDiagonal
  let Tx := mp.stateScaling.asDiagonal
  let uk ← U.row i
  let xk ← X.row i
  let h := rnd (M.Ts / 2)
  let xk1 ← X.row (i + 1)
  let fk ← M.callState buf xk uk (toUnsigned i)
  let fk1 ← M.callState buf xk1 uk (toUnsigned i)
  let v ← (← xk.addR rnd (Vec.smulR rnd h (← fk.addR rnd fk1))).addR rnd xk1.neg
  let ceq ← ceq.setSeg ic d.nx v
  let v ← (← ceq.seg ic d.nx).cwiseDivR rnd mp.stateScaling
  let ceq ← ceq.setSeg ic d.nx v
  if hasGradient then
    let (Ak, Bk) ← computeStateEqJacobianR rnd M junk xk uk (toUnsigned i)
    let (Ak1, Bk1) ← computeStateEqJacobianR rnd M junk xk1 uk (toUnsigned i)
    let Jx ← setPrevBlock d Jx i ic (do Ix.addR rnd (← (← (Sx.smulR rnd h).mulR rnd Ak).mulR rnd Tx))
    let Jx ← Jx.setBlock ic (i * d.nx) d.nx d.nx (← Ix.neg.addR rnd (← (← (Sx.smulR rnd h).mulR rnd Ak1).mulR rnd Tx))
    let Jmv ← Jmv.setBlock ic (i * d.nu) d.nx d.nu (← (Sx.smulR rnd h).mulR rnd (← Bk.addR rnd Bk1))
    return (ic + d.nx, ceq, Jx, Jmv)
  else
    return (ic + d.nx, ceq, Jx, Jmv)

/-- Body of the loop for discrete-time models (Constraints.hpp:583-621), rounded -/
def stepDiscreteR (mp : Mapping K) (M : NlModel d K) (junk : Nat → K) (X U : Mat K) (hasGradient : Bool)
    (i : Nat) (s : Nat × Vec K × Mat K × Mat K) : Exec (Nat × Vec K × Mat K × Mat K) := do
  let (ic, ceq, Jx, Jmv) := s
  let buf : FVec d.nx K := fun i => junk i
  let Ix := Mat.identity (α := K) d.nx d.nx
  let Sx := (mp.invStateScalingR rnd).asDiagonal
  let Tx := mp.stateScaling.asDiagonal
  let uk ← U.row i
  let xk ← X.row i
  let xk1 ← M.callState buf xk uk (toUnsigned i)
  let v ← (← X.row (i + 1)).addR rnd xk1.neg
  let ceq ← ceq.setSeg ic d.nx v
  let v ← (← ceq.seg ic d.nx).cwiseDivR rnd mp.stateScaling
  let ceq ← ceq.setSeg ic d.nx v
  if hasGradient then
    let (Ak, Bk) ← computeStateEqJacobianR rnd M junk xk uk (toUnsigned i)
    let Ak ← (← Sx.mulR rnd Ak).mulR rnd Tx
    let Bk ← Sx.mulR rnd Bk
    let Jx ← Jx.setBlock ic (i * d.nx) d.nx d.nx Ix
    let Jx ← setPrevBlock d Jx i ic (pure Ak.neg)
    let Jmv ← Jmv.setBlock ic (i * d.nu) d.nx d.nu Bk.neg
    return (ic + d.nx, ceq, Jx, Jmv)
  else
    return (ic + d.nx, ceq, Jx, Jmv)

/-- `Constraints::getStateEqConstraints` (Constraints.hpp:493-629), rounded -/
def getStateEqConstraintsR (mp : Mapping K) (M : NlModel d K) (junk : Nat → K) (X U : Mat K)
    (ceq : Vec K) (Jceq : Mat K) (hasGradient : Bool) : Exec (Vec K × Mat K) := do
  let ceq : Vec K := Vec.const ceq.size 0
  let Jceq : Mat K := Mat.const Jceq.rows Jceq.cols 0
  let Jx := Mat.const (d.ph * d.nx) (d.ph * d.nx) (0 : K)
  let Jmv := Mat.const (d.ph * d.nx) (d.ph * d.nu) (0 : K)
  let Je := Vec.const (d.ph * d.nx) (0 : K)
  let r ← forRange d.ph ((0 : Nat), ceq, Jx, Jmv) fun i s =>
    if M.continuous then stepContinuousR rnd mp M junk X U hasGradient i s
    else stepDiscreteR rnd mp M junk X U hasGradient i s
  let ceq := r.2.1
  if hasGradient then
    let Jceq ← glueJacobianR rnd d mp junk Jceq r.2.2.1 r.2.2.2 Je
    return (ceq, Jceq)
  else
    return (ceq, Jceq)

/-- `Constraints::evaluateStateModelEq` (Constraints.hpp:319-356), rounded -/
def evaluateStateModelEqR (c : Constraints d K) (mp : Mapping K) (M : NlModel d K) (junk : Nat → K) (x : Vec K)
    (hasGradient : Bool) : Exec (ConCost K × Constraints d K) := do
  let w ← mp.unwrapVectorR rnd x c.x0 c.Xmat c.Umat
  let c := { c with Xmat := w.1, Umat := w.2.1, e := w.2.2 }
  let r ← getStateEqConstraintsR rnd mp M junk c.Xmat c.Umat c.ceq c.Jceq hasGradient
  let c := { c with ceq := r.1, Jceq := r.2 }
  return (⟨c.ceq, c.Jceq.dataVec⟩, c)

/-- `Constraints::evaluateIneq` (Constraints.hpp:199-310), rounded -/
def evaluateIneqR (c : Constraints d K) (mp : Mapping K) (M : NlModel d K) (junk : Nat → K) (x : Vec K) :
    Exec (ConCost K × Constraints d K) := do
  let w ← mp.unwrapVectorR rnd x c.x0 c.Xmat c.Umat
  let c := { c with Xmat := w.1, Umat := w.2.1, e := w.2.2 }
  let c ←
    match c.ieqUser with
    | some f => do
      let v ← callIneq f M (c.cineqUser.viewF d.ineq) c.Xmat c.Umat c.e
      let J ← computeIneqJacobianR rnd f M junk c.Xmat c.Umat c.e
      let G ← glueJacobianR rnd d mp junk c.JcineqUser J.1 J.2.1 J.2.2
      let G ← scaleStateRowsR rnd d mp G
      pure { c with cineqUser := v, JcineqUser := G }
    | none =>
      pure { c with cineqUser := Vec.const c.cineqUser.size 0,
                    JcineqUser := Mat.const c.JcineqUser.rows c.JcineqUser.cols 0 }
  return (⟨c.cineqUser, c.JcineqUser.dataVec⟩, c)

/-- `Constraints::evaluateEq` (Constraints.hpp:365-448), rounded -/
def evaluateEqR (c : Constraints d K) (mp : Mapping K) (junk : Nat → K) (x : Vec K) :
    Exec (ConCost K × Constraints d K) := do
  let w ← mp.unwrapVectorR rnd x c.x0 c.Xmat c.Umat
  let c := { c with Xmat := w.1, Umat := w.2.1, e := w.2.2 }
  let c ←
    match c.eqUser with
    | some f => do
      let v ← callEq f (c.ceqUser.viewF d.eq) c.Xmat c.Umat
      let J ← computeEqJacobianR rnd f junk c.Xmat c.Umat
      let G ← glueJacobianR rnd d mp junk c.JceqUser J.1 J.2 (Vec.const d.eq 0)
      let G ← scaleStateRowsR rnd d mp G
      pure { c with ceqUser := v, JceqUser := G }
    | none =>
      pure { c with ceqUser := Vec.const c.ceqUser.size 0,
                    JceqUser := Mat.const c.JceqUser.rows c.JceqUser.cols 0 }
  return (⟨c.ceqUser, c.JceqUser.dataVec⟩, c)

end Constraints

namespace NlState
variable {d : Dims} {K : Type} [Field K] [LinearOrder K] (rnd : K → K)

/-- `Objective::evaluate` (Objective.hpp:89-175) on the connected objects, rounded -/
def evalObjR (s : NlState d K) (z : Vec K) (g : Bool) : Exec (ObjCost K × NlState d K) := do
  let r ← s.obj.evaluateR rnd s.mp s.M z g
  return (r.1, { s with obj := r.2 })

/-- `Constraints::evaluateIneq` (Constraints.hpp:199-310) on the connected objects, rounded -/
def evalIneqR (s : NlState d K) (z : Vec K) (junk : Nat → K) : Exec (ConCost K × NlState d K) := do
  let r ← s.con.evaluateIneqR rnd s.mp s.M junk z
  return (r.1, { s with con := r.2 })

/-- `Constraints::evaluateEq` (Constraints.hpp:365-448) on the connected objects, rounded -/
def evalEqR (s : NlState d K) (z : Vec K) (junk : Nat → K) : Exec (ConCost K × NlState d K) := do
  let r ← s.con.evaluateEqR rnd s.mp junk z
  return (r.1, { s with con := r.2 })

/-- `Constraints::evaluateStateModelEq` (Constraints.hpp:319-356) on the connected objects, rounded -/
def evalDynR (s : NlState d K) (z : Vec K) (g : Bool) (junk : Nat → K) : Exec (ConCost K × NlState d K) := do
  let r ← s.con.evaluateStateModelEqR rnd s.mp s.M junk z g
  return (r.1, { s with con := r.2 })

end NlState
end Mpc
