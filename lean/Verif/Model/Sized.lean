import Verif.Model.NLMPC

/-
User functions of the nonlinear controller which return vectors of any length, as functions given from Python do: the wrappers
assign the returned array to the vector which is to be filled, and the assignment gives that vector the length of the array
(/repo/python/pybind_export.cpp:19-58; possible for a C++ program with run-time dimensions as well).

The evaluations are those of Objective.lean, Constraints.lean and NLMPC.lean, with the call of the user function as a
parameter; `Verif.Proofs.Sized` shows that with the calls of these files they are the same functions. Such controllers have
run-time dimensions, so that no equality function can be set (the assertion of NLMPC.hpp:253).
-/
namespace Mpc
open Exec

/-- the vector with the given entries -/
def Vec.ofList {K : Type} [Zero K] (l : List K) : Vec K := ⟨l.length, fun i => l.getD i 0⟩

/-- the functions set by the user (Model.hpp:141-147, Constraints.hpp:908-932) which fill a vector, by the entries they return;
`none`: not set -/
structure SizedFns (d : Dims) (K : Type) where
  state : Option (FVec d.nx K → FVec d.nu K → Nat → List K)
  output : Option (FVec d.nx K → FVec d.nu K → Nat → List K)
  ineq : Option (Traj (d.ph + 1) d.nx K → Traj (d.ph + 1) d.ny K → Traj (d.ph + 1) d.nu K → K → List K)

namespace Sized
variable {d : Dims} {K : Type} [Field K]

/-- `Model::getOutput` (Model.hpp:72-96) -/
def getOutput (F : SizedFns d K) (X U : Mat K) : Exec (Mat K) := do
  let Y := Mat.const (d.ph + 1) d.ny (0 : K)
  match F.output with
  | none => return Y
  | some f =>
    forRange (d.ph + 1) Y fun i Y => do
      let x ← (← X.row i).view d.nx
      let u ← (← U.row i).view d.nu
      Y.setRow i (Vec.ofList (f x u (toUnsigned i)))

/-- call of the state function (Constraints.hpp:542-543, 592, 868-901) -/
def callState (F : SizedFns d K) (x u : Vec K) (p : Nat) : Exec (Vec K) := do
  match F.state with
  | none => .error .cppThrow
  | some f => do
    let x ← x.view d.nx
    let u ← u.view d.nu
    return Vec.ofList (f x u p)

/-- call of the inequality function (Constraints.hpp:153-154, 213-214, 668-669, 695-696, 715-719) -/
def callIneq (F : SizedFns d K)
    (f : Traj (d.ph + 1) d.nx K → Traj (d.ph + 1) d.ny K → Traj (d.ph + 1) d.nu K → K → List K) (X U : Mat K) (e : K) :
    Exec (Vec K) := do
  let Y ← getOutput F X U
  let x ← X.view (d.ph + 1) d.nx
  let y ← Y.view (d.ph + 1) d.ny
  let u ← U.view (d.ph + 1) d.nu
  return Vec.ofList (f x y u e)

/-- call of the objective (Objective.hpp:99, 210, 230, 245, 254-255) -/
def callObj (F : SizedFns d K) (f : Option (ObjFn d K)) (X U : Mat K) (e : K) : Exec K := do
  let Y ← getOutput F X U
  match f with
  | none => .error .cppThrow
  | some f => do
    let x ← X.view (d.ph + 1) d.nx
    let y ← Y.view (d.ph + 1) d.ny
    let u ← U.view (d.ph + 1) d.nu
    return f x y u e

variable [LinearOrder K]

/-- `Constraints::computeIneqJacobian` (Constraints.hpp:642-722) -/
def ineqJacobian (d : Dims) (call : Mat K → Mat K → K → Exec (Vec K)) (x0 u0 : Mat K) (e0 : K) :
    Exec (Mat K × Mat K × Vec K) := do
  let Xa := x0.absMax1
  let r ← forRange d.ph (x0, Mat.const d.ineq (d.ph * d.nx) (0 : K)) fun i s => forRange d.nx s fun j s => do
    let dx := Constraints.dv * (← Xa.dataVec.at? j)
    let x0 ← s.1.set (i + 1) j ((← s.1.at? (i + 1) j) + dx)
    let fp ← call x0 u0 e0
    let x0 ← x0.set (i + 1) j ((← x0.at? (i + 1) j) - 2 * dx)
    let fm ← call x0 u0 e0
    let x0 ← x0.set (i + 1) j ((← x0.at? (i + 1) j) + dx)
    let df ← fp.subDiv fm (2 * dx)
    let J ← s.2.setColIn (i * d.nx) d.nx j df
    return (x0, J)
  let x0 := r.1
  let Jx := r.2
  let Ua := u0.absMax1
  let r ← forRange d.ph (u0, Mat.const d.ineq (d.ph * d.nu) (0 : K)) fun i s => forRange d.nu s fun j s => do
    let du := Constraints.dv * (← Ua.dataVec.at? j)
    let u0 ← s.1.set i j ((← s.1.at? i j) + du)
    let fp ← call x0 u0 e0
    let u0 ← u0.set i j ((← u0.at? i j) - 2 * du)
    let fm ← call x0 u0 e0
    let u0 ← u0.set i j ((← u0.at? i j) + du)
    let df ← fp.subDiv fm (2 * du)
    let J ← s.2.setColIn (i * d.nu) d.nu j df
    return (u0, J)
  let u0 := r.1
  let ea : K := max Constraints.dv |e0|
  let de := ea * Constraints.dv
  let f1 ← call x0 u0 (e0 + de)
  let f2 ← call x0 u0 (e0 - de)
  let Je ← f1.subDiv f2 (2 * de)
  return (Jx, r.2, Je)

/-- `Constraints::computeStateEqJacobian` (Constraints.hpp:845-906) -/
def stateJacobian (d : Dims) (call : Vec K → Vec K → Nat → Exec (Vec K)) (x0 u0 : Vec K) (p : Nat) :
    Exec (Mat K × Mat K) := do
  let Xa := x0.absMax1
  let Jx ← forRange d.nx (Mat.const d.nx d.nx (0 : K)) fun i J => do
    let dx := Constraints.dv * (← Xa.at? i)
    let xp ← x0.set i ((← x0.at? i) + dx)
    let xm ← x0.set i ((← x0.at? i) - dx)
    let fp ← call xp u0 p
    let fm ← call xm u0 p
    let df ← fp.subDiv fm (2 * dx)
    J.setCol i df
  let Ua := u0.absMax1
  let Jmv ← forRange d.nu (Mat.const d.nx d.nu (0 : K)) fun i J => do
    let du := Constraints.dv * (← Ua.at? i)
    let up ← u0.set i ((← u0.at? i) + du)
    let um ← u0.set i ((← u0.at? i) - du)
    let fp ← call x0 up p
    let fm ← call x0 um p
    let df ← fp.subDiv fm (2 * du)
    J.setCol i df
  return (Jx, Jmv)

/-- loop body for continuous-time models (Constraints.hpp:528-575) -/
def continuousStep (d : Dims) (mp : Mapping K) (Ts : K) (call : Vec K → Vec K → Nat → Exec (Vec K)) (X U : Mat K) (hasGradient : Bool)
    (i : Nat) (s : Nat × Vec K × Mat K × Mat K) : Exec (Nat × Vec K × Mat K × Mat K) := do
  let (ic, ceq, Jx, Jmv) := s
  let Ix := Mat.identity (α := K) d.nx d.nx
  let Sx := mp.invStateScaling.asDiagonal
  let Tx := mp.stateScaling.asDiagonal
  let uk ← U.row i
  let xk ← X.row i
  let h := Ts / 2
  let xk1 ← X.row (i + 1)
  let fk ← call xk uk (toUnsigned i)
  let fk1 ← call xk1 uk (toUnsigned i)
  let v ← (← xk.add (Vec.smul h (← fk.add fk1))).add xk1.neg
  let ceq ← ceq.setSeg ic d.nx v
  let v ← (← ceq.seg ic d.nx).cwiseDiv mp.stateScaling
  let ceq ← ceq.setSeg ic d.nx v
  if hasGradient then
    let (Ak, Bk) ← stateJacobian d call xk uk (toUnsigned i)
    let (Ak1, Bk1) ← stateJacobian d call xk1 uk (toUnsigned i)
    let Jx ← Constraints.setPrevBlock d Jx i ic (do Ix.add (← (← (Sx.smul h).mul Ak).mul Tx))
    let Jx ← Jx.setBlock ic (i * d.nx) d.nx d.nx (← Ix.neg.add (← (← (Sx.smul h).mul Ak1).mul Tx))
    let Jmv ← Jmv.setBlock ic (i * d.nu) d.nx d.nu (← (Sx.smul h).mul (← Bk.add Bk1))
    return (ic + d.nx, ceq, Jx, Jmv)
  else
    return (ic + d.nx, ceq, Jx, Jmv)

/-- loop body for discrete-time models (Constraints.hpp:583-621) -/
def discreteStep (d : Dims) (mp : Mapping K) (call : Vec K → Vec K → Nat → Exec (Vec K)) (X U : Mat K) (hasGradient : Bool)
    (i : Nat) (s : Nat × Vec K × Mat K × Mat K) : Exec (Nat × Vec K × Mat K × Mat K) := do
  let (ic, ceq, Jx, Jmv) := s
  let Ix := Mat.identity (α := K) d.nx d.nx
  let Sx := mp.invStateScaling.asDiagonal
  let Tx := mp.stateScaling.asDiagonal
  let uk ← U.row i
  let xk ← X.row i
  let xk1 ← call xk uk (toUnsigned i)
  let v ← (← X.row (i + 1)).add xk1.neg
  let ceq ← ceq.setSeg ic d.nx v
  let v ← (← ceq.seg ic d.nx).cwiseDiv mp.stateScaling
  let ceq ← ceq.setSeg ic d.nx v
  if hasGradient then
    let (Ak, Bk) ← stateJacobian d call xk uk (toUnsigned i)
    let Ak ← (← Sx.mul Ak).mul Tx
    let Bk ← Sx.mul Bk
    let Jx ← Jx.setBlock ic (i * d.nx) d.nx d.nx Ix
    let Jx ← Constraints.setPrevBlock d Jx i ic (pure Ak.neg)
    let Jmv ← Jmv.setBlock ic (i * d.nu) d.nx d.nu Bk.neg
    return (ic + d.nx, ceq, Jx, Jmv)
  else
    return (ic + d.nx, ceq, Jx, Jmv)

/-- `Constraints::getStateEqConstraints` (Constraints.hpp:493-629) -/
def dynamics (d : Dims) (mp : Mapping K) (continuous : Bool) (Ts : K) (junk : Nat → K)
    (call : Vec K → Vec K → Nat → Exec (Vec K)) (X U : Mat K)
    (ceq : Vec K) (Jceq : Mat K) (hasGradient : Bool) : Exec (Vec K × Mat K) := do
  let ceq : Vec K := Vec.const ceq.size 0
  let Jceq : Mat K := Mat.const Jceq.rows Jceq.cols 0
  let Jx := Mat.const (d.ph * d.nx) (d.ph * d.nx) (0 : K)
  let Jmv := Mat.const (d.ph * d.nx) (d.ph * d.nu) (0 : K)
  let Je := Vec.const (d.ph * d.nx) (0 : K)
  let r ← forRange d.ph ((0 : Nat), ceq, Jx, Jmv) fun i s =>
    if continuous then continuousStep d mp Ts call X U hasGradient i s
    else discreteStep d mp call X U hasGradient i s
  let ceq := r.2.1
  if hasGradient then
    let Jceq ← Constraints.glueJacobian d mp junk Jceq r.2.2.1 r.2.2.2 Je
    return (ceq, Jceq)
  else
    return (ceq, Jceq)

/-- `Objective::computeJacobian` (Objective.hpp:186-257) -/
def objJacobian (d : Dims) (call : Mat K → Mat K → K → Exec K) (x0 u0 : Mat K) (f0 e0 : K) :
    Exec (Mat K × Mat K × K) := do
  let dv : K := 1 / 1000000
  let Xa := x0.absMax1
  let r ← forRange d.ph (x0, Mat.const d.nx d.ph (0 : K)) fun i s => forRange d.nx s fun j s => do
    let dx := dv * (← Xa.dataVec.at? j)
    let x0 ← s.1.set (i + 1) j ((← s.1.at? (i + 1) j) + dx)
    let v ← call x0 u0 e0
    let x0 ← x0.set (i + 1) j ((← x0.at? (i + 1) j) - dx)
    let J ← s.2.set j i ((v - f0) / dx)
    return (x0, J)
  let x0 := r.1
  let Jx := r.2
  let Ua := u0.absMax1
  let r ← forRange (d.ph - 1) (u0, Mat.const d.nu d.ph (0 : K)) fun i s => forRange d.nu s fun j s => do
    let du := dv * (← Ua.dataVec.at? j)
    let u0 ← s.1.set i j ((← s.1.at? i j) + du)
    let v ← call x0 u0 e0
    let u0 ← u0.set i j ((← u0.at? i j) - du)
    let J ← s.2.set j i ((v - f0) / du)
    return (u0, J)
  let r ← forRange d.nu r fun j s => do
    let du := dv * (← Ua.dataVec.at? j)
    let u0 ← s.1.set (d.ph - 1) j ((← s.1.at? (d.ph - 1) j) + du)
    let u0 ← u0.set d.ph j ((← u0.at? d.ph j) + du)
    let v ← call x0 u0 e0
    let u0 ← u0.set (d.ph - 1) j ((← u0.at? (d.ph - 1) j) - du)
    let u0 ← u0.set d.ph j ((← u0.at? d.ph j) - du)
    let J ← s.2.set j (d.ph - 1) ((v - f0) / du)
    return (u0, J)
  let u0 := r.1
  let ea := max (1 / 1000000) |e0|
  let de := ea * dv
  let f1 ← call x0 u0 (e0 + de)
  let f2 ← call x0 u0 (e0 - de)
  return (Jx, r.2, (f1 - f2) / (2 * de))

/-- `Objective::evaluate` (Objective.hpp:89-175) -/
def objective (call : Mat K → Mat K → K → Exec K) (o : Objective d K) (mp : Mapping K) (x : Vec K) (hasGradient : Bool) :
    Exec (ObjCost K × Objective d K) := do
  let w ← mp.unwrapVector x o.x0 o.Xmat o.Umat
  let o := { o with Xmat := w.1, Umat := w.2.1, e := w.2.2 }
  let value ← call o.Xmat o.Umat o.e
  if hasGradient then
    let J ← objJacobian d call o.Xmat o.Umat value o.e
    let o := { o with Jx := J.1, Jmv := J.2.1, Je := J.2.2 }
    let X ← forRange o.Xmat.cols o.Xmat fun i X => do
      let s ← mp.stateScaling.at? i
      let c ← X.col i
      X.setCol i ⟨c.size, fun k => c.get k / (1 / s)⟩
    let o := { o with Xmat := X }
    let grad : Vec K := Vec.const d.nZ 0
    -- for j over the columns, i over the rows: grad(counter++) = Jx(i, j)
    let g ← forRange o.Jx.cols ((0 : Nat), grad) fun j s => forRange o.Jx.rows s fun i s => do
      let g ← s.2.set s.1 (← o.Jx.at? i j)
      return (s.1 + 1, g)
    let jm ← forRange o.Jmv.cols ((0 : Nat), (Vec.const (d.ph * d.nu) (0 : K))) fun j s =>
      forRange o.Jmv.rows s fun i s => do
        let g ← s.2.set s.1 (← o.Jmv.at? i j)
        return (s.1 + 1, g)
    let res ← mp.Iz2u.transpose.mulVec jm.2
    let g ← forRange (d.ch * d.nu) g fun j s => do
      let g ← s.2.set s.1 (← res.at? j)
      return (s.1 + 1, g)
    let g ← g.2.set (d.nZ - 1) o.Je
    return (⟨value, some g⟩, o)
  else
    return (⟨value, none⟩, o)

/-- `Objective::evaluate` on the connected objects -/
def evalObj (F : SizedFns d K) (s : NlState d K) (z : Vec K) (g : Bool) : Exec (ObjCost K × NlState d K) := do
  let r ← objective (callObj F s.obj.fuser) s.obj s.mp z g
  return (r.1, { s with obj := r.2 })

/-- `Constraints::evaluateStateModelEq` (Constraints.hpp:319-356) -/
def evalDyn (F : SizedFns d K) (s : NlState d K) (z : Vec K) (g : Bool) (junk : Nat → K) :
    Exec (ConCost K × NlState d K) := do
  let c := s.con
  let w ← s.mp.unwrapVector z c.x0 c.Xmat c.Umat
  let c := { c with Xmat := w.1, Umat := w.2.1, e := w.2.2 }
  let r ← dynamics d s.mp s.M.continuous s.M.Ts junk (callState F) c.Xmat c.Umat c.ceq c.Jceq g
  let c := { c with ceq := r.1, Jceq := r.2 }
  return (⟨c.ceq, c.Jceq.dataVec⟩, { s with con := c })

/-- `Constraints::evaluateIneq` (Constraints.hpp:199-310) -/
def evalIneq (F : SizedFns d K) (s : NlState d K) (z : Vec K) (junk : Nat → K) : Exec (ConCost K × NlState d K) := do
  let c := s.con
  let w ← s.mp.unwrapVector z c.x0 c.Xmat c.Umat
  let c := { c with Xmat := w.1, Umat := w.2.1, e := w.2.2 }
  let c ←
    match F.ineq with
    | some f => do
      let v ← callIneq F f c.Xmat c.Umat c.e
      let J ← ineqJacobian d (callIneq F f) c.Xmat c.Umat c.e
      let G ← Constraints.glueJacobian d s.mp junk c.JcineqUser J.1 J.2.1 J.2.2
      let G ← Constraints.scaleStateRows d s.mp G
      pure { c with cineqUser := v, JcineqUser := G }
    | none =>
      pure { c with cineqUser := Vec.const c.cineqUser.size 0,
                    JcineqUser := Mat.const c.JcineqUser.rows c.JcineqUser.cols 0 }
  return (⟨c.cineqUser, c.JcineqUser.dataVec⟩, { s with con := c })

/-- `Constraints::isFeasible` (Constraints.hpp:145-190); no equality function is set -/
def isFeasible (F : SizedFns d K) (o : Constraints d K) (mp : Mapping K) (z : Vec K) : Exec (Bool × Constraints d K) := do
  let w ← mp.unwrapVector z o.x0 o.Xmat o.Umat
  let o := { o with Xmat := w.1, Umat := w.2.1, e := w.2.2 }
  match F.ineq with
  | none => return (true, o)
  | some f => do
    let c ← callIneq F f w.1 w.2.1 w.2.2
    return (!anyGreater ⟨c.size, fun i => Flt.fin (c.get i)⟩ o.ieqTol, { o with cineqUser := c })

/-- `nloptObjFunWrapper` (NLOptimizer.hpp:714-734) -/
def objWrapper (F : SizedFns d K) (s : NlState d K) (grad z : Vec K) : Exec ((K × Vec K) × NlState d K) := do
  let r ← evalObj F s z (grad.size ≠ 0)
  if grad.size ≠ 0 then
    match r.1.grad with
    | some G => do
      let g ← grad.memcpy G
      return ((r.1.value, g), r.2)
    | none => .error .danglingUse
  else
    return ((r.1.value, grad), r.2)

/-- the constraint callbacks (NLOptimizer.hpp:745-848) -/
def conWrapper (F : SizedFns d K) (s : NlState d K) (k : NlGroupKind) (b : NlBuffers K) (z : Vec K) (junk : Nat → K) :
    Exec (NlBuffers K × NlState d K) :=
  match k with
  | .dynamics => do
    let r ← evalDyn F s z b.grad.isSome junk
    let b ← b.write r.1
    return (b, r.2)
  | .userIneq => do
    let r ← evalIneq F s z junk
    let b ← b.write r.1
    return (b, r.2)
  | .userEq => s.userEqWrapper b z junk

/-- one callback (see `NlMpc.serve`) -/
def serve (F : SizedFns d K) (o : NlOpt K) (s : NlState d K) : NlCallback K → Exec (Option (NlReply K) × NlState d K)
  | .obj z g junk =>
    if o.objective then do
      let r ← objWrapper F s ⟨if g then d.nZ else 0, junk⟩ z
      return (some (.obj r.1.1 r.1.2), r.2)
    else .ok (none, s)
  | .con i z g junk =>
    match o.groups[i]? with
    | none => .ok (none, s)
    | some grp => do
      let r ← conWrapper F s grp.kind ⟨⟨grp.tol.size, junk⟩, if g then some ⟨grp.tol.size * d.nZ, junk⟩ else none⟩ z junk
      return (some (.con r.1), r.2)

/-- the callbacks of the solver, one after the other -/
def callbacks (F : SizedFns d K) (o : NlOpt K) (s : NlState d K) (cs : List (NlCallback K)) : Exec (NlState d K) :=
  cs.foldl (fun e c => e >>= fun s => do
    let r ← serve F o s c
    return r.2) (.ok s)

/-- NLOptimizer.hpp:545-591 -/
def accept (F : SizedFns d K) (m : NlMpc d K) (x0 : Vec K) (value : Ext K) (code : Int) (feas : Bool) (junk : Nat → K) :
    Exec (NlMpc d K) := do
  let w ← m.s.mp.unwrapVector m.o.optVector x0 ⟨d.ph + 1, d.nx, fun i _ => junk i⟩ ⟨d.ph + 1, d.nu, fun i _ => junk i⟩
  let cmd ← w.2.1.row 0
  let st ← w.1.block 0 0 (d.ph + 1) d.nx
  let inp ← w.2.1.block 0 0 (d.ph + 1) d.nu
  let Y ← getOutput F w.1 w.2.1
  let out ← Y.block 0 0 (d.ph + 1) d.ny
  return { m with o := { m.o with
    currentSlack := w.2.2
    result := { solver_status := code, is_feasible := feas, cost := value, status := NlOpt.convertStatus code, cmd := cmd }
    seqState := st, seqInput := inp, seqOutput := out } }

/-- NLOptimizer.hpp:496-608: what follows the solver -/
def finish (F : SizedFns d K) (m : NlMpc d K) (x0 : Vec K) (junk : Nat → K) : NlOutcome K → Exec (NlMpc d K)
  | .threw => .ok { m with o := m.o.failed d }
  | .answered z value code checkThrows => do
    let m := { m with o := { m.o with optVector := z, first := false } }
    if checkThrows then
      return { m with o := m.o.failed d }
    else
      let f ← isFeasible F m.s.con m.s.mp z
      let m := { m with s := { m.s with con := f.2 } }
      accept F m x0 value code f.1 junk

/-- `optimize` (IMPC.hpp:149-168, NLOptimizer.hpp:409-608) -/
def optimize (F : SizedFns d K) (m : NlMpc d K) (x0 u0 : Vec K) (cs : List (NlCallback K)) (out : NlOutcome K)
    (junk : Nat → K) : Exec (NlMpc d K × NlOut K) := do
  let m ← m.onState (.measure x0)
  let p ← m.o.prepare d m.s.mp junk x0 u0
  let call := m.solverCall p.2
  let s ← callbacks F m.o m.s cs
  let m ← finish F { m with s := s, o := { m.o with optVector := p.1 } } x0 junk out
  return (m, .result m.o.result call)

end Sized

/-- the calls which are not about user functions that fill a vector (NLMPC.hpp:81-395) -/
def NlCall.plain {d : Dims} {K : Type} [Field K] : NlCall d K → Bool
  | .setStateSpaceFunction .. => false
  | .setOutputFunction .. => false
  | .setIneqConFunction .. => false
  | .optimize .. => false
  | _ => true

/-- The API calls of a controller with run-time dimensions, user functions by the lists they return -/
inductive SizedCall (d : Dims) (K : Type) [Field K] where
  | setStateSpaceFunction (f : FVec d.nx K → FVec d.nu K → Nat → List K) (tol : K) (accepted : Bool)
  | setOutputFunction (f : FVec d.nx K → FVec d.nu K → Nat → List K)
  | setIneqConFunction (f : Traj (d.ph + 1) d.nx K → Traj (d.ph + 1) d.ny K → Traj (d.ph + 1) d.nu K → K → List K)
      (tol : K) (accepted : Bool)
  | optimize (x0 u0 : Vec K) (callbacks : List (NlCallback K)) (out : NlOutcome K) (junk : Nat → K)
  /-- any of the calls of `NLMPC` other than these four -/
  | other (c : NlCall d K) (h : c.plain = true)

namespace Sized
variable {d : Dims} {K : Type} [Field K] [LinearOrder K]

/-- the first entries of a list, zeros where it has none: used for the entries of a controller which are not looked at -/
def entries {n : Nat} (l : List K) : FVec n K := fun i => l.getD i 0

/-- one API call (NLMPC.hpp:81-395); the functions which NLMPC.hpp:199-243 store are kept in `F` -/
def step (q : NlMpc d K × SizedFns d K) : SizedCall d K → Exec ((NlMpc d K × SizedFns d K) × NlOut K)
  | .setStateSpaceFunction f tol acc => do
    let r ← q.1.step (.setStateSpaceFunction (fun x u k => entries (f x u k)) tol acc)
    return ((r.1, { q.2 with state := some f }), r.2)
  | .setOutputFunction f => do
    let r ← q.1.step (.setOutputFunction fun _ x u k => entries (f x u k))
    return ((r.1, { q.2 with output := some f }), r.2)
  | .setIneqConFunction f tol acc => do
    let r ← q.1.step (.setIneqConFunction (fun x y u e => entries (f x y u e)) tol acc)
    return ((r.1, { q.2 with ineq := some f }), r.2)
  | .optimize x0 u0 cs out junk => do
    let r ← optimize q.2 q.1 x0 u0 cs out junk
    return ((r.1, q.2), r.2)
  | .other c _ => do
    let r ← q.1.step c
    return ((r.1, q.2), r.2)

/-- a history of API calls on a new controller with run-time dimensions -/
def run (d : Dims) (junk : Nat → K) (ops : List (SizedCall d K)) :
    Exec ((NlMpc d K × SizedFns d K) × List (NlOut K)) :=
  ops.foldl (fun e c => e >>= fun q => do
    let r ← step q.1 c
    return (r.1, q.2 ++ [r.2])) (do
      let m ← NlMpc.init d junk true
      return ((m, ⟨none, none, none⟩), []))

end Sized
end Mpc
