import Verif.Model.Constraints

/-
The objects behind the nonlinear controller which turn a decision vector into values and gradients for the solver:
the mapping, the model, the objective and the constraints (NLMPC.hpp:402-442 creates and connects them), and the
operations the controller performs on them.
-/
namespace Mpc

open Exec

/-- the four connected objects (`objF`, `conF`, `model`, `mapping`: NLMPC.hpp:453-465) -/
structure NlState (d : Dims) (K : Type) where
  mp : Mapping K
  M : NlModel d K
  obj : Objective d K
  con : Constraints d K

/-- `Objective::onInit` (Objective.hpp:57-66); `Eigen::resize` leaves the entries unspecified -/
def Objective.init {d : Dims} {K : Type} [Zero K] (junk : Nat → K) : Objective d K where
  fuser := none
  x0 := ⟨d.nx, junk⟩
  Xmat := ⟨d.ph + 1, d.nx, fun i _ => junk i⟩
  Umat := ⟨d.ph + 1, d.nu, fun i _ => junk i⟩
  e := 0
  Jx := ⟨d.nx, d.ph, fun i _ => junk i⟩
  Jmv := ⟨d.nu, d.ph, fun i _ => junk i⟩
  Je := 0

/-- `Constraints::onInit` (Constraints.hpp:63-80); tolerances are uninitialised members -/
def Constraints.init {d : Dims} {K : Type} [Zero K] (junk : Nat → K) : Constraints d K where
  ieqUser := none
  eqUser := none
  ieqTol := junk 0
  eqTol := junk 0
  x0 := ⟨d.nx, junk⟩
  Xmat := ⟨d.ph + 1, d.nx, fun i _ => junk i⟩
  Umat := ⟨d.ph + 1, d.nu, fun i _ => junk i⟩
  e := 0
  ceq := ⟨d.ph * d.nx, junk⟩
  Jceq := ⟨d.nZ, d.ph * d.nx, fun i _ => junk i⟩
  cineqUser := ⟨d.ineq, junk⟩
  JcineqUser := ⟨d.nZ, d.ineq, fun i _ => junk i⟩
  ceqUser := ⟨d.eq, junk⟩
  JceqUser := ⟨d.nZ, d.eq, fun i _ => junk i⟩

/-- Operations on the four objects. User functions which fill a vector are given here by the value they fill it with
(`Spec.FillsI` etc.: functions which leave part of the vector untouched are excluded); the output function may leave
entries untouched. `junk` is the contents of uninitialised locals during the call. -/
inductive NlOp (d : Dims) (K : Type) where
  /-- `Mapping::setInputScaling` -/
  | inputScaling (v : Vec K)
  /-- `Mapping::setStateScaling` -/
  | stateScaling (v : Vec K)
  /-- `Model::setContinuous` -/
  | continuous (b : Bool) (Ts : K)
  /-- `Model::setStateModel` -/
  | stateFn (F : FVec d.nx K → FVec d.nu K → Nat → FVec d.nx K)
  /-- `Model::setOutputModel` -/
  | outFn (g : OutFn d K)
  /-- `Objective::setObjective` -/
  | objFn (f : ObjFn d K)
  /-- `Constraints::setIneqConstraints` -/
  | ineqFn (F : Traj (d.ph + 1) d.nx K → Traj (d.ph + 1) d.ny K → Traj (d.ph + 1) d.nu K → K → FVec d.ineq K)
      (tol : K)
  /-- `Constraints::setEqConstraints` -/
  | eqFn (F : Traj (d.ph + 1) d.nx K → Traj (d.ph + 1) d.nu K → FVec d.eq K) (tol : K)
  /-- `setCurrentState` on objective and constraints (NLMPC.hpp:447-451) -/
  | measure (x : Vec K)
  /-- `Objective::evaluate` -/
  | evalObj (z : Vec K) (hasGradient : Bool)
  /-- `Constraints::evaluateIneq` -/
  | evalIneq (z : Vec K) (junk : Nat → K)
  /-- `Constraints::evaluateEq` -/
  | evalEq (z : Vec K) (junk : Nat → K)
  /-- `Constraints::evaluateStateModelEq` -/
  | evalDyn (z : Vec K) (hasGradient : Bool) (junk : Nat → K)

namespace NlState
variable {d : Dims} {K : Type} [Field K] [LinearOrder K]

/-- creation of the four objects (NLMPC.hpp:402-442) -/
def init (d : Dims) (junk : Nat → K) (cont : Bool) (Ts : K) : Exec (NlState d K) := do
  let mp ← Mapping.init d
  return ⟨mp, ⟨cont, Ts, none, none⟩, Objective.init junk, Constraints.init junk⟩

/-- `Objective::evaluate` (Objective.hpp:89-175) on the connected objects -/
def evalObj (s : NlState d K) (z : Vec K) (g : Bool) : Exec (ObjCost K × NlState d K) := do
  let r ← s.obj.evaluate s.mp s.M z g
  return (r.1, { s with obj := r.2 })

/-- `Constraints::evaluateIneq` (Constraints.hpp:199-310) on the connected objects -/
def evalIneq (s : NlState d K) (z : Vec K) (junk : Nat → K) : Exec (ConCost K × NlState d K) := do
  let r ← s.con.evaluateIneq s.mp s.M junk z
  return (r.1, { s with con := r.2 })

/-- `Constraints::evaluateEq` (Constraints.hpp:365-448) on the connected objects -/
def evalEq (s : NlState d K) (z : Vec K) (junk : Nat → K) : Exec (ConCost K × NlState d K) := do
  let r ← s.con.evaluateEq s.mp junk z
  return (r.1, { s with con := r.2 })

/-- `Constraints::evaluateStateModelEq` (Constraints.hpp:319-356) on the connected objects -/
def evalDyn (s : NlState d K) (z : Vec K) (g : Bool) (junk : Nat → K) : Exec (ConCost K × NlState d K) := do
  let r ← s.con.evaluateStateModelEq s.mp s.M junk z g
  return (r.1, { s with con := r.2 })

/-- one operation: Mapping.hpp:71-91, Model.hpp:106-139, Objective.hpp:75-80, Constraints.hpp:113-137,
Base.hpp:63-67 and the evaluations above -/
def exec (s : NlState d K) : NlOp d K → Exec (NlState d K)
  | .inputScaling v => do
    let mp ← s.mp.setInputScaling v
    return { s with mp := mp }
  | .stateScaling v => .ok { s with mp := s.mp.setStateScaling v }
  | .continuous b Ts => .ok { s with M := s.M.setContinuous b Ts }
  | .stateFn F => .ok { s with M := s.M.setStateModel (some fun _ => F) }
  | .outFn g => .ok { s with M := s.M.setOutputModel (some g) }
  | .objFn f => .ok { s with obj := { s.obj with fuser := some f } }
  | .ineqFn F tol => .ok { s with con := { s.con with ieqUser := some fun _ => F, ieqTol := tol } }
  | .eqFn F tol => .ok { s with con := { s.con with eqUser := some fun _ => F, eqTol := tol } }
  | .measure x => .ok { s with obj := { s.obj with x0 := x }, con := { s.con with x0 := x } }
  | .evalObj z g => do
    let r ← s.evalObj z g
    return r.2
  | .evalIneq z junk => do
    let r ← s.evalIneq z junk
    return r.2
  | .evalEq z junk => do
    let r ← s.evalEq z junk
    return r.2
  | .evalDyn z g junk => do
    let r ← s.evalDyn z g junk
    return r.2

/-- a history of operations on freshly created objects -/
def run (d : Dims) (junk : Nat → K) (cont : Bool) (Ts : K) (ops : List (NlOp d K)) : Exec (NlState d K) :=
  ops.foldl (fun e o => e >>= fun s => s.exec o) (init d junk cont Ts)

end NlState
end Mpc
