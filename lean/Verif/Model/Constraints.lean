import Verif.Model.Objective

/-
Model of /repo/include/mpc/NLMPC/Constraints.hpp.
Not modelled: logging; the members `cineq`, `Jcineq` which are allocated and never used.

`junk` stands for the contents of local vectors and matrices which the code declares without initialising
them (one arbitrary function serves all of them).
-/
namespace Mpc

open Exec

/-- Members of `Constraints` (Constraints.hpp:908-932 and Base.hpp:72-81), without the shared model and mapping. -/
structure Constraints (d : Dims) (K : Type) where
  ieqUser : Option (IConFn d K)
  eqUser : Option (EConFn d K)
  ieqTol : K
  eqTol : K
  x0 : Vec K
  Xmat : Mat K
  Umat : Mat K
  e : K
  ceq : Vec K
  Jceq : Mat K
  cineqUser : Vec K
  JcineqUser : Mat K
  ceqUser : Vec K
  JceqUser : Mat K

/-- `Constraints::Cost` (Constraints.hpp:45-49) -/
structure ConCost (K : Type) where
  value : Vec K
  grad : Vec K

/-- `m.middleCols(c0, w).col(j) = v` -/
def Mat.setColIn {K : Type} (m : Mat K) (c0 w j : Nat) (v : Vec K) : Exec (Mat K) := do
  require (c0 + w ≤ m.cols ∧ j < w) .outOfBounds
  m.setCol (c0 + j) v

/-- `(v - w) / h` -/
def Vec.subDiv {K : Type} [Field K] (v w : Vec K) (h : K) : Exec (Vec K) := do
  require (v.size = w.size) .sizeMismatch
  return ⟨v.size, fun i => (v.get i - w.get i) / h⟩

/-- `v.array() / w.array()` -/
def Vec.cwiseDiv {K : Type} [Field K] (v w : Vec K) : Exec (Vec K) := do
  require (v.size = w.size) .sizeMismatch
  return ⟨v.size, fun i => v.get i / w.get i⟩

/-- `h * m` -/
def Mat.smul {K : Type} [Mul K] (h : K) (m : Mat K) : Mat K := ⟨m.rows, m.cols, fun i j => h * m.get i j⟩

/-- `h * v` -/
def Vec.smul {K : Type} [Mul K] (h : K) (v : Vec K) : Vec K := ⟨v.size, fun i => h * v.get i⟩

namespace Constraints
variable {d : Dims} {K : Type}

/-- `ieqUser(buf, X, model->getOutput(X, U), U, e)` (Constraints.hpp:153-154, 213-214, 668-669, 695-696, 715-719) -/
def callIneq [Zero K] (f : IConFn d K) (M : NlModel d K) (buf : FVec d.ineq K) (X U : Mat K) (e : K) :
    Exec (Vec K) := do
  let Y ← M.getOutput X U
  let x ← X.view (d.ph + 1) d.nx
  let y ← Y.view (d.ph + 1) d.ny
  let u ← U.view (d.ph + 1) d.nu
  return Vec.ofF (f buf x y u e)

/-- `eqUser(buf, X, U)` (Constraints.hpp:173, 377, 757, 763, 787, 793, 815, 823) -/
def callEq [Zero K] (f : EConFn d K) (buf : FVec d.eq K) (X U : Mat K) : Exec (Vec K) := do
  let x ← X.view (d.ph + 1) d.nx
  let u ← U.view (d.ph + 1) d.nu
  return Vec.ofF (f buf x u)

variable [Field K]

/-- `Constraints::glueJacobian` (Constraints.hpp:462-485); the new value of `Jres` -/
def glueJacobian (d : Dims) (mp : Mapping K) (junk : Nat → K) (Jres Jstate Jmanvar : Mat K) (Jcon : Vec K) :
    Exec (Mat K) := do
  let Jres ← forRange d.ph Jres fun i Jres => do
    let b ← Jstate.block 0 (i * d.nx) Jstate.rows d.nx
    Jres.setBlock (i * d.nx) 0 d.nx Jres.cols b.transpose
  let Jm ← forRange d.ph (⟨Jres.cols, d.ph * d.nu, fun i _ => junk i⟩ : Mat K) fun i Jm => do
    let b ← Jmanvar.block 0 (i * d.nu) Jmanvar.rows d.nu
    Jm.setBlock 0 (i * d.nu) Jres.cols d.nu b
  let p ← Jm.mul mp.Iz2u
  let Jres ← Jres.setBlock (d.ph * d.nx) 0 (d.nu * d.ch) Jres.cols p.transpose
  require (1 ≤ Jres.rows) .outOfBounds
  Jres.setBlock (Jres.rows - 1) 0 1 Jres.cols Jcon.asRow

/-- The loops which multiply the rows of the state variables by the state scaling
(Constraints.hpp:257-272 and 397-411) -/
def scaleStateRows (d : Dims) (mp : Mapping K) (J : Mat K) : Exec (Mat K) :=
  forRange J.cols J fun j J => do
    let r ← forRange d.ph ((0 : Nat), J) fun _ s => do
      let J ← forRange d.nx s.2 fun ix J => do
        let s' ← mp.stateScaling.at? ix
        J.set (s.1 + ix) j ((← J.at? (s.1 + ix) j) * s')
      return (s.1 + d.nx, J)
    return r.2

variable [LinearOrder K]

/-- `dv = sqrt(epsilon) = 2^-26` (Constraints.hpp:931) -/
def dv : K := 1 / 67108864

/-- `Constraints::computeIneqJacobian` (Constraints.hpp:642-722): `Jconx`, `Jconmv`, `Jcone` -/
def computeIneqJacobian (f : IConFn d K) (M : NlModel d K) (junk : Nat → K) (x0 u0 : Mat K) (e0 : K) :
    Exec (Mat K × Mat K × Vec K) := do
  let buf : FVec d.ineq K := fun i => junk i
  let Xa := x0.absMax1
  let r ← forRange d.ph (x0, Mat.const d.ineq (d.ph * d.nx) (0 : K)) fun i s => forRange d.nx s fun j s => do
    let dx := dv * (← Xa.dataVec.at? j)
    let x0 ← s.1.set (i + 1) j ((← s.1.at? (i + 1) j) + dx)
    let fp ← callIneq f M buf x0 u0 e0
    let x0 ← x0.set (i + 1) j ((← x0.at? (i + 1) j) - 2 * dx)
    let fm ← callIneq f M buf x0 u0 e0
    let x0 ← x0.set (i + 1) j ((← x0.at? (i + 1) j) + dx)
    let df ← fp.subDiv fm (2 * dx)
    let J ← s.2.setColIn (i * d.nx) d.nx j df
    return (x0, J)
  let x0 := r.1
  let Jx := r.2
  let Ua := u0.absMax1
  let r ← forRange d.ph (u0, Mat.const d.ineq (d.ph * d.nu) (0 : K)) fun i s => forRange d.nu s fun j s => do
    let du := dv * (← Ua.dataVec.at? j)
    let u0 ← s.1.set i j ((← s.1.at? i j) + du)
    let fp ← callIneq f M buf x0 u0 e0
    let u0 ← u0.set i j ((← u0.at? i j) - 2 * du)
    let fm ← callIneq f M buf x0 u0 e0
    let u0 ← u0.set i j ((← u0.at? i j) + du)
    let df ← fp.subDiv fm (2 * du)
    let J ← s.2.setColIn (i * d.nu) d.nu j df
    return (u0, J)
  let u0 := r.1
  let ea : K := max dv |e0|
  let de := ea * dv
  let f1 ← callIneq f M buf x0 u0 (e0 + de)
  let f2 ← callIneq f M buf x0 u0 (e0 - de)
  let Je ← f1.subDiv f2 (2 * de)
  return (Jx, r.2, Je)

/-- `Constraints::computeEqJacobian` (Constraints.hpp:732-833): `Jconx`, `Jconmv` -/
def computeEqJacobian (f : EConFn d K) (junk : Nat → K) (x0 u0 : Mat K) : Exec (Mat K × Mat K) := do
  let buf : FVec d.eq K := fun i => junk i
  let Xa := x0.absMax1
  let r ← forRange d.ph (x0, Mat.const d.eq (d.ph * d.nx) (0 : K)) fun i s => forRange d.nx s fun j s => do
    let dx := dv * (← Xa.at? (i + 1) j)
    let x0 ← s.1.set (i + 1) j ((← s.1.at? (i + 1) j) + dx)
    let fp ← callEq f buf x0 u0
    let x0 ← x0.set (i + 1) j ((← x0.at? (i + 1) j) - 2 * dx)
    let fm ← callEq f buf x0 u0
    let x0 ← x0.set (i + 1) j ((← x0.at? (i + 1) j) + dx)
    let df ← fp.subDiv fm (2 * dx)
    let J ← s.2.setColIn (i * d.nx) d.nx j df
    return (x0, J)
  let x0 := r.1
  let Jx := r.2
  let Ua := u0.absMax1
  let r ← forRange (d.ph - 1) (u0, Mat.const d.eq (d.ph * d.nu) (0 : K)) fun i s => forRange d.nu s fun j s => do
    let du := dv * (← Ua.at? (d.ph - 1) j)
    let u0 ← s.1.set i j ((← s.1.at? i j) + du)
    let fp ← callEq f buf x0 u0
    let u0 ← u0.set i j ((← u0.at? i j) - 2 * du)
    let fm ← callEq f buf x0 u0
    let u0 ← u0.set i j ((← u0.at? i j) + du)
    let df ← fp.subDiv fm (2 * du)
    let J ← s.2.setColIn (i * d.nu) d.nu j df
    return (u0, J)
  let r ← forRange d.nu r fun j s => do
    let du := dv * (← Ua.at? (d.ph - 1) j)
    let u0 ← s.1.set (d.ph - 1) j ((← s.1.at? (d.ph - 1) j) + du)
    let u0 ← u0.set d.ph j ((← u0.at? d.ph j) + du)
    let fp ← callEq f buf x0 u0
    let u0 ← u0.set (d.ph - 1) j ((← u0.at? (d.ph - 1) j) - 2 * du)
    let u0 ← u0.set d.ph j ((← u0.at? d.ph j) - 2 * du)
    let fm ← callEq f buf x0 u0
    let u0 ← u0.set (d.ph - 1) j ((← u0.at? (d.ph - 1) j) + du)
    let u0 ← u0.set d.ph j ((← u0.at? d.ph j) + du)
    let df ← fp.subDiv fm (2 * du)
    let J ← s.2.setColIn ((d.ph - 1) * d.nu) d.nu j df
    return (u0, J)
  return (Jx, r.2)

/-- `Constraints::computeStateEqJacobian` (Constraints.hpp:845-906): `Jx`, `Jmv` -/
def computeStateEqJacobian (M : NlModel d K) (junk : Nat → K) (x0 u0 : Vec K) (p : Nat) :
    Exec (Mat K × Mat K) := do
  let buf : FVec d.nx K := fun i => junk i
  let Xa := x0.absMax1
  let Jx ← forRange d.nx (Mat.const d.nx d.nx (0 : K)) fun i J => do
    let dx := dv * (← Xa.at? i)
    let xp ← x0.set i ((← x0.at? i) + dx)
    let xm ← x0.set i ((← x0.at? i) - dx)
    let fp ← M.callState buf xp u0 p
    let fm ← M.callState buf xm u0 p
    let df ← fp.subDiv fm (2 * dx)
    J.setCol i df
  let Ua := u0.absMax1
  let Jmv ← forRange d.nu (Mat.const d.nx d.nu (0 : K)) fun i J => do
    let du := dv * (← Ua.at? i)
    let up ← u0.set i ((← u0.at? i) + du)
    let um ← u0.set i ((← u0.at? i) - du)
    let fp ← M.callState buf x0 up p
    let fm ← M.callState buf x0 um p
    let df ← fp.subDiv fm (2 * du)
    J.setCol i df
  return (Jx, Jmv)

/-- The guarded write of the block of the state of step `i` (Constraints.hpp:566-569 and 613-616) -/
def setPrevBlock (d : Dims) (Jx : Mat K) (i ic : Nat) (B : Exec (Mat K)) : Exec (Mat K) :=
  if 0 < i then do
    Jx.setBlock ic ((i - 1) * d.nx) d.nx d.nx (← B)
  else pure Jx

/-- Body of the loop for continuous-time models (Constraints.hpp:528-575); the state is `(ic, ceq, Jx, Jmv)` -/
def stepContinuous (mp : Mapping K) (M : NlModel d K) (junk : Nat → K) (X U : Mat K) (hasGradient : Bool)
    (i : Nat) (s : Nat × Vec K × Mat K × Mat K) : Exec (Nat × Vec K × Mat K × Mat K) := do
  let (ic, ceq, Jx, Jmv) := s
  let buf : FVec d.nx K := fun i => junk i
  let Ix := Mat.identity (α := K) d.nx d.nx
  let Sx := mp.invStateScaling.asDiagonal
  let Tx := mp.stateScaling.asDiagonal
  let uk ← U.row i
  let xk ← X.row i
  let h := M.Ts / 2
  let xk1 ← X.row (i + 1)
  let fk ← M.callState buf xk uk (toUnsigned i)
  let fk1 ← M.callState buf xk1 uk (toUnsigned i)
  let v ← (← xk.add (Vec.smul h (← fk.add fk1))).add xk1.neg
  let ceq ← ceq.setSeg ic d.nx v
  let v ← (← ceq.seg ic d.nx).cwiseDiv mp.stateScaling
  let ceq ← ceq.setSeg ic d.nx v
  if hasGradient then
    let (Ak, Bk) ← computeStateEqJacobian M junk xk uk (toUnsigned i)
    let (Ak1, Bk1) ← computeStateEqJacobian M junk xk1 uk (toUnsigned i)
    let Jx ← setPrevBlock d Jx i ic (do Ix.add (← (← (Sx.smul h).mul Ak).mul Tx))
    let Jx ← Jx.setBlock ic (i * d.nx) d.nx d.nx (← Ix.neg.add (← (← (Sx.smul h).mul Ak1).mul Tx))
    let Jmv ← Jmv.setBlock ic (i * d.nu) d.nx d.nu (← (Sx.smul h).mul (← Bk.add Bk1))
    return (ic + d.nx, ceq, Jx, Jmv)
  else
    return (ic + d.nx, ceq, Jx, Jmv)

/-- Body of the loop for discrete-time models (Constraints.hpp:583-621) -/
def stepDiscrete (mp : Mapping K) (M : NlModel d K) (junk : Nat → K) (X U : Mat K) (hasGradient : Bool)
    (i : Nat) (s : Nat × Vec K × Mat K × Mat K) : Exec (Nat × Vec K × Mat K × Mat K) := do
  let (ic, ceq, Jx, Jmv) := s
  let buf : FVec d.nx K := fun i => junk i
  let Ix := Mat.identity (α := K) d.nx d.nx
  let Sx := mp.invStateScaling.asDiagonal
  let Tx := mp.stateScaling.asDiagonal
  let uk ← U.row i
  let xk ← X.row i
  let xk1 ← M.callState buf xk uk (toUnsigned i)
  let v ← (← X.row (i + 1)).add xk1.neg
  let ceq ← ceq.setSeg ic d.nx v
  let v ← (← ceq.seg ic d.nx).cwiseDiv mp.stateScaling
  let ceq ← ceq.setSeg ic d.nx v
  if hasGradient then
    let (Ak, Bk) ← computeStateEqJacobian M junk xk uk (toUnsigned i)
    let Ak ← (← Sx.mul Ak).mul Tx
    let Bk ← Sx.mul Bk
    let Jx ← Jx.setBlock ic (i * d.nx) d.nx d.nx Ix
    let Jx ← setPrevBlock d Jx i ic (pure Ak.neg)
    let Jmv ← Jmv.setBlock ic (i * d.nu) d.nx d.nu Bk.neg
    return (ic + d.nx, ceq, Jx, Jmv)
  else
    return (ic + d.nx, ceq, Jx, Jmv)

/-- `Constraints::getStateEqConstraints` (Constraints.hpp:493-629): `ceq`, `Jceq` -/
def getStateEqConstraints (mp : Mapping K) (M : NlModel d K) (junk : Nat → K) (X U : Mat K)
    (ceq : Vec K) (Jceq : Mat K) (hasGradient : Bool) : Exec (Vec K × Mat K) := do
  let ceq : Vec K := Vec.const ceq.size 0
  let Jceq : Mat K := Mat.const Jceq.rows Jceq.cols 0
  let Jx := Mat.const (d.ph * d.nx) (d.ph * d.nx) (0 : K)
  let Jmv := Mat.const (d.ph * d.nx) (d.ph * d.nu) (0 : K)
  let Je := Vec.const (d.ph * d.nx) (0 : K)
  let r ← forRange d.ph ((0 : Nat), ceq, Jx, Jmv) fun i s =>
    if M.continuous then stepContinuous mp M junk X U hasGradient i s
    else stepDiscrete mp M junk X U hasGradient i s
  let ceq := r.2.1
  if hasGradient then
    let Jceq ← glueJacobian d mp junk Jceq r.2.2.1 r.2.2.2 Je
    return (ceq, Jceq)
  else
    return (ceq, Jceq)

/-- `Constraints::evaluateStateModelEq` (Constraints.hpp:319-356) -/
def evaluateStateModelEq (c : Constraints d K) (mp : Mapping K) (M : NlModel d K) (junk : Nat → K) (x : Vec K)
    (hasGradient : Bool) : Exec (ConCost K × Constraints d K) := do
  let w ← mp.unwrapVector x c.x0 c.Xmat c.Umat
  let c := { c with Xmat := w.1, Umat := w.2.1, e := w.2.2 }
  let r ← getStateEqConstraints mp M junk c.Xmat c.Umat c.ceq c.Jceq hasGradient
  let c := { c with ceq := r.1, Jceq := r.2 }
  return (⟨c.ceq, c.Jceq.dataVec⟩, c)

/-- `Constraints::evaluateIneq` (Constraints.hpp:199-310). (The Jacobian is computed whether or not a gradient
is requested; `hasGradient` only selects log messages and is left out.) -/
def evaluateIneq (c : Constraints d K) (mp : Mapping K) (M : NlModel d K) (junk : Nat → K) (x : Vec K) :
    Exec (ConCost K × Constraints d K) := do
  let w ← mp.unwrapVector x c.x0 c.Xmat c.Umat
  let c := { c with Xmat := w.1, Umat := w.2.1, e := w.2.2 }
  let c ←
    match c.ieqUser with
    | some f => do
      let v ← callIneq f M (c.cineqUser.viewF d.ineq) c.Xmat c.Umat c.e
      let J ← computeIneqJacobian f M junk c.Xmat c.Umat c.e
      let G ← glueJacobian d mp junk c.JcineqUser J.1 J.2.1 J.2.2
      let G ← scaleStateRows d mp G
      pure { c with cineqUser := v, JcineqUser := G }
    | none =>
      pure { c with cineqUser := Vec.const c.cineqUser.size 0,
                    JcineqUser := Mat.const c.JcineqUser.rows c.JcineqUser.cols 0 }
  return (⟨c.cineqUser, c.JcineqUser.dataVec⟩, c)

/-- `Constraints::evaluateEq` (Constraints.hpp:365-448) -/
def evaluateEq (c : Constraints d K) (mp : Mapping K) (junk : Nat → K) (x : Vec K) :
    Exec (ConCost K × Constraints d K) := do
  let w ← mp.unwrapVector x c.x0 c.Xmat c.Umat
  let c := { c with Xmat := w.1, Umat := w.2.1, e := w.2.2 }
  let c ←
    match c.eqUser with
    | some f => do
      let v ← callEq f (c.ceqUser.viewF d.eq) c.Xmat c.Umat
      let J ← computeEqJacobian f junk c.Xmat c.Umat
      let G ← glueJacobian d mp junk c.JceqUser J.1 J.2 (Vec.const d.eq 0)
      let G ← scaleStateRows d mp G
      pure { c with ceqUser := v, JceqUser := G }
    | none =>
      pure { c with ceqUser := Vec.const c.ceqUser.size 0,
                    JceqUser := Mat.const c.JceqUser.rows c.JceqUser.cols 0 }
  return (⟨c.ceqUser, c.JceqUser.dataVec⟩, c)

end Constraints
end Mpc
