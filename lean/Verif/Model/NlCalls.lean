import Verif.Model.NlProblem

/-
The evaluations of the nonlinear controller as programs which call user functions: which calls are made, in which order and with
which arguments, as the code makes them (Objective.hpp:89-257, Constraints.hpp:199-906, Model.hpp:72-96). A program is a tree: it is
done, or it makes a call and goes on with the answer. What the user functions are is not part of the program, so that the same
program can be run with functions which return, throw, or record how they are called.

The text of the definitions below repeats that of Objective.lean and Constraints.lean with calls instead of function applications;
`Proofs/NlCalls.lean` proves that running it with the functions which are set gives the results of these files.

Simplifications: as in Objective.lean and Constraints.lean. Functions which fill a vector are given by what they fill it with.
-/
namespace Mpc
open Exec
set_option linter.unusedSectionVars false

/-- a call of a user function (IDimensionable.hpp:86-149) with its arguments -/
inductive UserCall (d : Dims) (K : Type) where
  | state (x : FVec d.nx K) (u : FVec d.nu K) (k : Nat)
  | out (x : FVec d.nx K) (u : FVec d.nu K) (k : Nat)
  | obj (X : Traj (d.ph + 1) d.nx K) (Y : Traj (d.ph + 1) d.ny K) (U : Traj (d.ph + 1) d.nu K) (e : K)
  | ineq (X : Traj (d.ph + 1) d.nx K) (Y : Traj (d.ph + 1) d.ny K) (U : Traj (d.ph + 1) d.nu K) (e : K)
  | eq (X : Traj (d.ph + 1) d.nx K) (U : Traj (d.ph + 1) d.nu K)

/-- the type of what the function returns or fills its vector with (IDimensionable.hpp:86-149) -/
def UserCall.Ans {d : Dims} {K : Type} : UserCall d K → Type
  | .state _ _ _ => FVec d.nx K
  | .out _ _ _ => FVec d.ny K
  | .obj _ _ _ _ => K
  | .ineq _ _ _ _ => FVec d.ineq K
  | .eq _ _ => FVec d.eq K

/-- a piece of code which calls user functions (not code of the project: the language its evaluations are written in here) -/
inductive Prog (d : Dims) (K : Type) (α : Type) where
  | done (r : Exec α)
  | ask (c : UserCall d K) (next : c.Ans → Prog d K α)

namespace Prog
variable {d : Dims} {K : Type} {α β σ : Type}

/-- one piece of code after the other (semantics of C++ statements, no code of the project) -/
def andThen : Prog d K α → (α → Prog d K β) → Prog d K β
  | done (.ok a), f => f a
  | done (.error e), _ => done (.error e)
  | ask c k, f => ask c fun a => (k a).andThen f

instance : Monad (Prog d K) where
  pure a := done (.ok a)
  bind := andThen

instance : MonadLift Exec (Prog d K) where
  monadLift e := done e

/-- a call of a user function -/
def call (c : UserCall d K) : Prog d K c.Ans := ask c fun a => done (.ok a)

/-- the loop `for (size_t i = lo; i < lo + n; i++)`, as `Exec.forFrom` -/
def forFrom : (lo n : Nat) → σ → (Nat → σ → Prog d K σ) → Prog d K σ
  | _, 0, s, _ => pure s
  | lo, n + 1, s, body => do
    let s' ← body lo s
    forFrom (lo + 1) n s' body

/-- the loop `for (size_t i = 0; i < n; i++)`, as `Exec.forRange` -/
def forRange (n : Nat) (s : σ) (body : Nat → σ → Prog d K σ) : Prog d K σ := forFrom 0 n s body

/-- running it with user functions which return -/
def run (F : ∀ c : UserCall d K, c.Ans) : Prog d K α → Exec α
  | done r => r
  | ask c k => run F (k (F c))

/-- the calls it makes, in order -/
def calls (F : ∀ c : UserCall d K, c.Ans) : Prog d K α → List (UserCall d K)
  | done _ => []
  | ask c k => c :: calls F (k (F c))

/-- Running it with user functions which may throw (`none`): an exception of a user function leaves the evaluation (there is no
`try` in Objective.hpp, Constraints.hpp, Model.hpp). The result is that of the code, or the call which threw; and the calls made. -/
def attempt (F : ∀ c : UserCall d K, Option c.Ans) : Prog d K α → (Exec α ⊕ UserCall d K) × List (UserCall d K)
  | done r => (.inl r, [])
  | ask c k =>
    match F c with
    | none => (.inr c, [c])
    | some a =>
      let r := attempt F (k a)
      (r.1, c :: r.2)

end Prog

/-! ### Model.hpp -/

namespace NlModel
variable {d : Dims} {K : Type} [Zero K]

/-- `Model::getOutput` (Model.hpp:72-96) -/
def getOutputP (M : NlModel d K) (X U : Mat K) : Prog d K (Mat K) := do
  let Y := Mat.const (d.ph + 1) d.ny (0 : K)
  match M.outUser with
  | none => return Y
  | some _ =>
    Prog.forRange (d.ph + 1) Y fun i Y => do
      let x ← (← X.row i).view d.nx
      let u ← (← U.row i).view d.nu
      let y ← Prog.call (.out x u (toUnsigned i))
      Y.setRow i (Vec.ofF (n := d.ny) y)

/-- call of `vectorField(buf, x, u, p)` (Constraints.hpp:533-605, 868-900); an empty handle throws -/
def callStateP (M : NlModel d K) (x u : Vec K) (p : Nat) : Prog d K (Vec K) := do
  match M.vectorField with
  | none => .done (.error .cppThrow)
  | some _ => do
    let x ← x.view d.nx
    let u ← u.view d.nu
    let y ← Prog.call (.state x u p)
    return Vec.ofF (n := d.nx) y

end NlModel

/-! ### Objective.hpp -/

namespace Objective
variable {d : Dims} {K : Type} [Field K] [LinearOrder K]

/-- the expression `fuser(X, model->getOutput(X, U), U, e)` (Objective.hpp:99, 210, 230, 245, 254-255) -/
def callObjP (f : Option (ObjFn d K)) (M : NlModel d K) (X U : Mat K) (e : K) : Prog d K K := do
  let Y ← M.getOutputP X U
  match f with
  | none => .done (.error .cppThrow)
  | some _ => do
    let x ← X.view (d.ph + 1) d.nx
    let y ← Y.view (d.ph + 1) d.ny
    let u ← U.view (d.ph + 1) d.nu
    let v ← Prog.call (.obj x y u e)
    return (show K from v)

/-- `Objective::computeJacobian` (Objective.hpp:186-257) -/
def computeJacobianP (f : Option (ObjFn d K)) (M : NlModel d K) (x0 u0 : Mat K) (f0 e0 : K) :
    Prog d K (Mat K × Mat K × K) := do
  let dv : K := 1 / 1000000
  let Xa := x0.absMax1
  let r ← Prog.forRange d.ph (x0, Mat.const d.nx d.ph (0 : K)) fun i s => Prog.forRange d.nx s fun j s => do
    let dx := dv * (← Xa.dataVec.at? j)
    let x0 ← s.1.set (i + 1) j ((← s.1.at? (i + 1) j) + dx)
    let v ← callObjP f M x0 u0 e0
    let x0 ← x0.set (i + 1) j ((← x0.at? (i + 1) j) - dx)
    let J ← s.2.set j i ((v - f0) / dx)
    return (x0, J)
  let x0 := r.1
  let Jx := r.2
  let Ua := u0.absMax1
  let r ← Prog.forRange (d.ph - 1) (u0, Mat.const d.nu d.ph (0 : K)) fun i s => Prog.forRange d.nu s fun j s => do
    let du := dv * (← Ua.dataVec.at? j)
    let u0 ← s.1.set i j ((← s.1.at? i j) + du)
    let v ← callObjP f M x0 u0 e0
    let u0 ← u0.set i j ((← u0.at? i j) - du)
    let J ← s.2.set j i ((v - f0) / du)
    return (u0, J)
  let r ← Prog.forRange d.nu r fun j s => do
    let du := dv * (← Ua.dataVec.at? j)
    let u0 ← s.1.set (d.ph - 1) j ((← s.1.at? (d.ph - 1) j) + du)
    let u0 ← u0.set d.ph j ((← u0.at? d.ph j) + du)
    let v ← callObjP f M x0 u0 e0
    let u0 ← u0.set (d.ph - 1) j ((← u0.at? (d.ph - 1) j) - du)
    let u0 ← u0.set d.ph j ((← u0.at? d.ph j) - du)
    let J ← s.2.set j (d.ph - 1) ((v - f0) / du)
    return (u0, J)
  let u0 := r.1
  let ea := max (1 / 1000000) |e0|
  let de := ea * dv
  let f1 ← callObjP f M x0 u0 (e0 + de)
  let f2 ← callObjP f M x0 u0 (e0 - de)
  return (Jx, r.2, (f1 - f2) / (2 * de))

/-- what `evaluate` does after the Jacobian is known (Objective.hpp:115-166), with no calls of user functions -/
def packP (o : Objective d K) (mp : Mapping K) (value : K) : Exec (ObjCost K × Objective d K) := do
  let X ← Exec.forRange o.Xmat.cols o.Xmat fun i X => do
    let s ← mp.stateScaling.at? i
    let c ← X.col i
    X.setCol i ⟨c.size, fun k => c.get k / (1 / s)⟩
  let o := { o with Xmat := X }
  let grad : Vec K := Vec.const d.nZ 0
  let g ← Exec.forRange o.Jx.cols ((0 : Nat), grad) fun j s => Exec.forRange o.Jx.rows s fun i s => do
    let g ← s.2.set s.1 (← o.Jx.at? i j)
    return (s.1 + 1, g)
  let jm ← Exec.forRange o.Jmv.cols ((0 : Nat), (Vec.const (d.ph * d.nu) (0 : K))) fun j s =>
    Exec.forRange o.Jmv.rows s fun i s => do
      let g ← s.2.set s.1 (← o.Jmv.at? i j)
      return (s.1 + 1, g)
  let res ← mp.Iz2u.transpose.mulVec jm.2
  let g ← Exec.forRange (d.ch * d.nu) g fun j s => do
    let g ← s.2.set s.1 (← res.at? j)
    return (s.1 + 1, g)
  let g ← g.2.set (d.nZ - 1) o.Je
  return (⟨value, some g⟩, o)

/-- `Objective::evaluate` (Objective.hpp:89-175) -/
def evaluateP (o : Objective d K) (mp : Mapping K) (M : NlModel d K) (x : Vec K) (hasGradient : Bool) :
    Prog d K (ObjCost K × Objective d K) := do
  let w ← mp.unwrapVector x o.x0 o.Xmat o.Umat
  let o := { o with Xmat := w.1, Umat := w.2.1, e := w.2.2 }
  let value ← callObjP o.fuser M o.Xmat o.Umat o.e
  if hasGradient then
    let J ← computeJacobianP o.fuser M o.Xmat o.Umat value o.e
    let o := { o with Jx := J.1, Jmv := J.2.1, Je := J.2.2 }
    packP o mp value
  else
    return (⟨value, none⟩, o)

end Objective

/-! ### Constraints.hpp -/

namespace Constraints
variable {d : Dims} {K : Type} [Field K] [LinearOrder K]

/-- `ieqUser(buf, X, model->getOutput(X, U), U, e)` (Constraints.hpp:153-154, 213-214, 668-669, 695-696, 715-719) -/
def callIneqP (M : NlModel d K) (X U : Mat K) (e : K) : Prog d K (Vec K) := do
  let Y ← M.getOutputP X U
  let x ← X.view (d.ph + 1) d.nx
  let y ← Y.view (d.ph + 1) d.ny
  let u ← U.view (d.ph + 1) d.nu
  let v ← Prog.call (.ineq x y u e)
  return Vec.ofF (n := d.ineq) v

/-- `eqUser(buf, X, U)` (Constraints.hpp:173, 377, 757, 763, 787, 793, 815, 823) -/
def callEqP (X U : Mat K) : Prog d K (Vec K) := do
  let x ← X.view (d.ph + 1) d.nx
  let u ← U.view (d.ph + 1) d.nu
  let v ← Prog.call (.eq x u)
  return Vec.ofF (n := d.eq) v

/-- `Constraints::computeIneqJacobian` (Constraints.hpp:642-722) -/
def computeIneqJacobianP (M : NlModel d K) (x0 u0 : Mat K) (e0 : K) : Prog d K (Mat K × Mat K × Vec K) := do
  let Xa := x0.absMax1
  let r ← Prog.forRange d.ph (x0, Mat.const d.ineq (d.ph * d.nx) (0 : K)) fun i s => Prog.forRange d.nx s fun j s => do
    let dx := dv * (← Xa.dataVec.at? j)
    let x0 ← s.1.set (i + 1) j ((← s.1.at? (i + 1) j) + dx)
    let fp ← callIneqP M x0 u0 e0
    let x0 ← x0.set (i + 1) j ((← x0.at? (i + 1) j) - 2 * dx)
    let fm ← callIneqP M x0 u0 e0
    let x0 ← x0.set (i + 1) j ((← x0.at? (i + 1) j) + dx)
    let df ← fp.subDiv fm (2 * dx)
    let J ← s.2.setColIn (i * d.nx) d.nx j df
    return (x0, J)
  let x0 := r.1
  let Jx := r.2
  let Ua := u0.absMax1
  let r ← Prog.forRange d.ph (u0, Mat.const d.ineq (d.ph * d.nu) (0 : K)) fun i s => Prog.forRange d.nu s fun j s => do
    let du := dv * (← Ua.dataVec.at? j)
    let u0 ← s.1.set i j ((← s.1.at? i j) + du)
    let fp ← callIneqP M x0 u0 e0
    let u0 ← u0.set i j ((← u0.at? i j) - 2 * du)
    let fm ← callIneqP M x0 u0 e0
    let u0 ← u0.set i j ((← u0.at? i j) + du)
    let df ← fp.subDiv fm (2 * du)
    let J ← s.2.setColIn (i * d.nu) d.nu j df
    return (u0, J)
  let u0 := r.1
  let ea : K := max dv |e0|
  let de := ea * dv
  let f1 ← callIneqP M x0 u0 (e0 + de)
  let f2 ← callIneqP M x0 u0 (e0 - de)
  let Je ← f1.subDiv f2 (2 * de)
  return (Jx, r.2, Je)

/-- `Constraints::computeEqJacobian` (Constraints.hpp:732-833) -/
def computeEqJacobianP (x0 u0 : Mat K) : Prog d K (Mat K × Mat K) := do
  let Xa := x0.absMax1
  let r ← Prog.forRange d.ph (x0, Mat.const d.eq (d.ph * d.nx) (0 : K)) fun i s => Prog.forRange d.nx s fun j s => do
    let dx := dv * (← Xa.at? (i + 1) j)
    let x0 ← s.1.set (i + 1) j ((← s.1.at? (i + 1) j) + dx)
    let fp ← callEqP x0 u0
    let x0 ← x0.set (i + 1) j ((← x0.at? (i + 1) j) - 2 * dx)
    let fm ← callEqP x0 u0
    let x0 ← x0.set (i + 1) j ((← x0.at? (i + 1) j) + dx)
    let df ← fp.subDiv fm (2 * dx)
    let J ← s.2.setColIn (i * d.nx) d.nx j df
    return (x0, J)
  let x0 := r.1
  let Jx := r.2
  let Ua := u0.absMax1
  let r ← Prog.forRange (d.ph - 1) (u0, Mat.const d.eq (d.ph * d.nu) (0 : K)) fun i s => Prog.forRange d.nu s fun j s => do
    let du := dv * (← Ua.at? (d.ph - 1) j)
    let u0 ← s.1.set i j ((← s.1.at? i j) + du)
    let fp ← callEqP x0 u0
    let u0 ← u0.set i j ((← u0.at? i j) - 2 * du)
    let fm ← callEqP x0 u0
    let u0 ← u0.set i j ((← u0.at? i j) + du)
    let df ← fp.subDiv fm (2 * du)
    let J ← s.2.setColIn (i * d.nu) d.nu j df
    return (u0, J)
  let r ← Prog.forRange d.nu r fun j s => do
    let du := dv * (← Ua.at? (d.ph - 1) j)
    let u0 ← s.1.set (d.ph - 1) j ((← s.1.at? (d.ph - 1) j) + du)
    let u0 ← u0.set d.ph j ((← u0.at? d.ph j) + du)
    let fp ← callEqP x0 u0
    let u0 ← u0.set (d.ph - 1) j ((← u0.at? (d.ph - 1) j) - 2 * du)
    let u0 ← u0.set d.ph j ((← u0.at? d.ph j) - 2 * du)
    let fm ← callEqP x0 u0
    let u0 ← u0.set (d.ph - 1) j ((← u0.at? (d.ph - 1) j) + du)
    let u0 ← u0.set d.ph j ((← u0.at? d.ph j) + du)
    let df ← fp.subDiv fm (2 * du)
    let J ← s.2.setColIn ((d.ph - 1) * d.nu) d.nu j df
    return (u0, J)
  return (Jx, r.2)

/-- `Constraints::computeStateEqJacobian` (Constraints.hpp:845-906) -/
def computeStateEqJacobianP (M : NlModel d K) (x0 u0 : Vec K) (p : Nat) : Prog d K (Mat K × Mat K) := do
  let Xa := x0.absMax1
  let Jx ← Prog.forRange d.nx (Mat.const d.nx d.nx (0 : K)) fun i J => do
    let dx := dv * (← Xa.at? i)
    let xp ← x0.set i ((← x0.at? i) + dx)
    let xm ← x0.set i ((← x0.at? i) - dx)
    let fp ← M.callStateP xp u0 p
    let fm ← M.callStateP xm u0 p
    let df ← fp.subDiv fm (2 * dx)
    J.setCol i df
  let Ua := u0.absMax1
  let Jmv ← Prog.forRange d.nu (Mat.const d.nx d.nu (0 : K)) fun i J => do
    let du := dv * (← Ua.at? i)
    let up ← u0.set i ((← u0.at? i) + du)
    let um ← u0.set i ((← u0.at? i) - du)
    let fp ← M.callStateP x0 up p
    let fm ← M.callStateP x0 um p
    let df ← fp.subDiv fm (2 * du)
    J.setCol i df
  return (Jx, Jmv)

/-- Body of the loop for continuous-time models (Constraints.hpp:528-575) -/
def stepContinuousP (mp : Mapping K) (M : NlModel d K) (X U : Mat K) (hasGradient : Bool)
    (i : Nat) (s : Nat × Vec K × Mat K × Mat K) : Prog d K (Nat × Vec K × Mat K × Mat K) := do
  let (ic, ceq, Jx, Jmv) := s
  let Ix := Mat.identity (α := K) d.nx d.nx
  let Sx := mp.invStateScaling.asDiagonal
  let Tx := mp.stateScaling.asDiagonal
  let uk ← U.row i
  let xk ← X.row i
  let h := M.Ts / 2
  let xk1 ← X.row (i + 1)
  let fk ← M.callStateP xk uk (toUnsigned i)
  let fk1 ← M.callStateP xk1 uk (toUnsigned i)
  let v ← (← xk.add (Vec.smul h (← fk.add fk1))).add xk1.neg
  let ceq ← ceq.setSeg ic d.nx v
  let v ← (← ceq.seg ic d.nx).cwiseDiv mp.stateScaling
  let ceq ← ceq.setSeg ic d.nx v
  if hasGradient then
    let AB ← computeStateEqJacobianP M xk uk (toUnsigned i)
    let AB1 ← computeStateEqJacobianP M xk1 uk (toUnsigned i)
    let Jx ← setPrevBlock d Jx i ic (do Ix.add (← (← (Sx.smul h).mul AB.1).mul Tx))
    let Jx ← Jx.setBlock ic (i * d.nx) d.nx d.nx (← Ix.neg.add (← (← (Sx.smul h).mul AB1.1).mul Tx))
    let Jmv ← Jmv.setBlock ic (i * d.nu) d.nx d.nu (← (Sx.smul h).mul (← AB.2.add AB1.2))
    return (ic + d.nx, ceq, Jx, Jmv)
  else
    return (ic + d.nx, ceq, Jx, Jmv)

/-- Body of the loop for discrete-time models (Constraints.hpp:583-621) -/
def stepDiscreteP (mp : Mapping K) (M : NlModel d K) (X U : Mat K) (hasGradient : Bool)
    (i : Nat) (s : Nat × Vec K × Mat K × Mat K) : Prog d K (Nat × Vec K × Mat K × Mat K) := do
  let (ic, ceq, Jx, Jmv) := s
  let Ix := Mat.identity (α := K) d.nx d.nx
  let Sx := mp.invStateScaling.asDiagonal
  let Tx := mp.stateScaling.asDiagonal
  let uk ← U.row i
  let xk ← X.row i
  let xk1 ← M.callStateP xk uk (toUnsigned i)
  let v ← (← X.row (i + 1)).add xk1.neg
  let ceq ← ceq.setSeg ic d.nx v
  let v ← (← ceq.seg ic d.nx).cwiseDiv mp.stateScaling
  let ceq ← ceq.setSeg ic d.nx v
  if hasGradient then
    let AB ← computeStateEqJacobianP M xk uk (toUnsigned i)
    let Ak ← (← Sx.mul AB.1).mul Tx
    let Bk ← Sx.mul AB.2
    let Jx ← Jx.setBlock ic (i * d.nx) d.nx d.nx Ix
    let Jx ← setPrevBlock d Jx i ic (pure Ak.neg)
    let Jmv ← Jmv.setBlock ic (i * d.nu) d.nx d.nu Bk.neg
    return (ic + d.nx, ceq, Jx, Jmv)
  else
    return (ic + d.nx, ceq, Jx, Jmv)

/-- `Constraints::getStateEqConstraints` (Constraints.hpp:493-629) -/
def getStateEqConstraintsP (mp : Mapping K) (M : NlModel d K) (junk : Nat → K) (X U : Mat K)
    (ceq : Vec K) (Jceq : Mat K) (hasGradient : Bool) : Prog d K (Vec K × Mat K) := do
  let ceq : Vec K := Vec.const ceq.size 0
  let Jceq : Mat K := Mat.const Jceq.rows Jceq.cols 0
  let Jx := Mat.const (d.ph * d.nx) (d.ph * d.nx) (0 : K)
  let Jmv := Mat.const (d.ph * d.nx) (d.ph * d.nu) (0 : K)
  let Je := Vec.const (d.ph * d.nx) (0 : K)
  let r ← Prog.forRange d.ph ((0 : Nat), ceq, Jx, Jmv) fun i s =>
    if M.continuous then stepContinuousP mp M X U hasGradient i s
    else stepDiscreteP mp M X U hasGradient i s
  let ceq := r.2.1
  if hasGradient then
    let Jceq ← glueJacobian d mp junk Jceq r.2.2.1 r.2.2.2 Je
    return (ceq, Jceq)
  else
    return (ceq, Jceq)

/-- `Constraints::evaluateStateModelEq` (Constraints.hpp:319-356) -/
def evaluateStateModelEqP (c : Constraints d K) (mp : Mapping K) (M : NlModel d K) (junk : Nat → K) (x : Vec K)
    (hasGradient : Bool) : Prog d K (ConCost K × Constraints d K) := do
  let w ← mp.unwrapVector x c.x0 c.Xmat c.Umat
  let c := { c with Xmat := w.1, Umat := w.2.1, e := w.2.2 }
  let r ← getStateEqConstraintsP mp M junk c.Xmat c.Umat c.ceq c.Jceq hasGradient
  let c := { c with ceq := r.1, Jceq := r.2 }
  return (⟨c.ceq, c.Jceq.dataVec⟩, c)

/-- `Constraints::evaluateIneq` (Constraints.hpp:199-310) -/
def evaluateIneqP (c : Constraints d K) (mp : Mapping K) (M : NlModel d K) (junk : Nat → K) (x : Vec K) :
    Prog d K (ConCost K × Constraints d K) := do
  let w ← mp.unwrapVector x c.x0 c.Xmat c.Umat
  let c := { c with Xmat := w.1, Umat := w.2.1, e := w.2.2 }
  let c ←
    match c.ieqUser with
    | some _ => do
      let v ← callIneqP M c.Xmat c.Umat c.e
      let J ← computeIneqJacobianP M c.Xmat c.Umat c.e
      let G ← glueJacobian d mp junk c.JcineqUser J.1 J.2.1 J.2.2
      let G ← scaleStateRows d mp G
      pure { c with cineqUser := v, JcineqUser := G }
    | none =>
      pure { c with cineqUser := Vec.const c.cineqUser.size 0,
                    JcineqUser := Mat.const c.JcineqUser.rows c.JcineqUser.cols 0 }
  return (⟨c.cineqUser, c.JcineqUser.dataVec⟩, c)

/-- `Constraints::evaluateEq` (Constraints.hpp:365-448) -/
def evaluateEqP (c : Constraints d K) (mp : Mapping K) (junk : Nat → K) (x : Vec K) :
    Prog d K (ConCost K × Constraints d K) := do
  let w ← mp.unwrapVector x c.x0 c.Xmat c.Umat
  let c := { c with Xmat := w.1, Umat := w.2.1, e := w.2.2 }
  let c ←
    match c.eqUser with
    | some _ => do
      let v ← callEqP c.Xmat c.Umat
      let J ← computeEqJacobianP (d := d) c.Xmat c.Umat
      let G ← glueJacobian d mp junk c.JceqUser J.1 J.2 (Vec.const d.eq 0)
      let G ← scaleStateRows d mp G
      pure { c with ceqUser := v, JceqUser := G }
    | none =>
      pure { c with ceqUser := Vec.const c.ceqUser.size 0,
                    JceqUser := Mat.const c.JceqUser.rows c.JceqUser.cols 0 }
  return (⟨c.ceqUser, c.JceqUser.dataVec⟩, c)

end Constraints

namespace NlState
variable {d : Dims} {K : Type} [Field K] [LinearOrder K]

/-- `Objective::evaluate` (Objective.hpp:89-175) on the connected objects -/
def evalObjP (s : NlState d K) (z : Vec K) (g : Bool) : Prog d K (ObjCost K × NlState d K) := do
  let r ← s.obj.evaluateP s.mp s.M z g
  return (r.1, { s with obj := r.2 })

/-- `Constraints::evaluateIneq` (Constraints.hpp:199-310) on the connected objects -/
def evalIneqP (s : NlState d K) (z : Vec K) (junk : Nat → K) : Prog d K (ConCost K × NlState d K) := do
  let r ← s.con.evaluateIneqP s.mp s.M junk z
  return (r.1, { s with con := r.2 })

/-- `Constraints::evaluateEq` (Constraints.hpp:365-448) on the connected objects -/
def evalEqP (s : NlState d K) (z : Vec K) (junk : Nat → K) : Prog d K (ConCost K × NlState d K) := do
  let r ← s.con.evaluateEqP s.mp junk z
  return (r.1, { s with con := r.2 })

/-- `Constraints::evaluateStateModelEq` (Constraints.hpp:319-356) on the connected objects -/
def evalDynP (s : NlState d K) (z : Vec K) (g : Bool) (junk : Nat → K) : Prog d K (ConCost K × NlState d K) := do
  let r ← s.con.evaluateStateModelEqP s.mp s.M junk z g
  return (r.1, { s with con := r.2 })

end NlState
end Mpc
