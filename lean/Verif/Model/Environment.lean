import Verif.Model.Throwing

/-
User functions of the nonlinear controller which read variables of the program. The controller stores `std::function` objects
(IDimensionable.hpp:94-149; Objective.hpp:259, Constraints.hpp:920-921, Model.hpp:144-147); a lambda may capture variables
by reference which the program changes between calls of the API, as examples/ugv_ex.cpp:74-139 does with the preferred
velocity, or which the functions change themselves, as counters. `E` is the type of the values of these variables (the
environment). A stored function is then a function of the environment, and each evaluation uses the environment there is at
that time. Simplification: the environment does not change during one callback of the solver, and not between the feasibility
check and the computation of the reported outputs.
-/
namespace Mpc
open Exec

/-- the stored functions, as functions of the environment -/
structure Handles (E : Type) (d : Dims) (K : Type) where
  field : Option (E → FVec d.nx K → FVec d.nu K → Nat → FVec d.nx K) := none
  out : Option (E → OutFn d K) := none
  obj : Option (E → ObjFn d K) := none
  ineq : Option (E → Traj (d.ph + 1) d.nx K → Traj (d.ph + 1) d.ny K → Traj (d.ph + 1) d.nu K → K → FVec d.ineq K) := none
  eq : Option (E → Traj (d.ph + 1) d.nx K → Traj (d.ph + 1) d.nu K → FVec d.eq K) := none

/-- The API calls with functions which read the environment; `call` is any call whose functions do not. In `optimize` every
callback of the solver comes with the environment at that time. -/
inductive EnvCall (E : Type) (d : Dims) (K : Type) [Field K] where
  | setObjectiveFunction (f : E → ObjFn d K) (accepted : Bool)
  | setStateSpaceFunction (F : E → FVec d.nx K → FVec d.nu K → Nat → FVec d.nx K) (tol : K) (accepted : Bool)
  | setOutputFunction (g : E → OutFn d K)
  | setIneqConFunction
      (F : E → Traj (d.ph + 1) d.nx K → Traj (d.ph + 1) d.ny K → Traj (d.ph + 1) d.nu K → K → FVec d.ineq K)
      (tol : K) (accepted : Bool)
  | setEqConFunction (F : E → Traj (d.ph + 1) d.nx K → Traj (d.ph + 1) d.nu K → FVec d.eq K) (tol : K) (accepted : Bool)
  | call (op : NlCall d K)
  | optimize (x0 u0 : Vec K) (visits : List (E × NlVisit K)) (ending : NlEnding K) (junk : Nat → K)

namespace EnvCall
variable {E : Type} {d : Dims} {K : Type} [Field K]

/-- the call as it is in an environment which never changes -/
def frozen (e : E) : EnvCall E d K → NlTCall d K
  | .setObjectiveFunction f acc => .call (.setObjectiveFunction (f e) acc)
  | .setStateSpaceFunction F tol acc => .call (.setStateSpaceFunction (F e) tol acc)
  | .setOutputFunction g => .call (.setOutputFunction (g e))
  | .setIneqConFunction F tol acc => .call (.setIneqConFunction (F e) tol acc)
  | .setEqConFunction F tol acc => .call (.setEqConFunction (F e) tol acc)
  | .call op => .call op
  | .optimize x0 u0 vs ending junk => .optimize x0 u0 (vs.map Prod.snd) ending junk

end EnvCall

namespace Handles
variable {E : Type} {d : Dims} {K : Type} [Field K]

/-- the functions stored after a call: the last ones set (Objective.hpp:75-80, Constraints.hpp:113-137, Model.hpp:106-139);
those of `call` do not read the environment -/
def store (h : Handles E d K) : EnvCall E d K → Handles E d K
  | .setObjectiveFunction f _ => { h with obj := some f }
  | .setStateSpaceFunction F _ _ => { h with field := some F }
  | .setOutputFunction g => { h with out := some g }
  | .setIneqConFunction F _ _ => { h with ineq := some F }
  | .setEqConFunction F _ _ => { h with eq := some F }
  | .call (.setObjectiveFunction f _) => { h with obj := some fun _ => f }
  | .call (.setStateSpaceFunction F _ _) => { h with field := some fun _ => F }
  | .call (.setOutputFunction g) => { h with out := some fun _ => g }
  | .call (.setIneqConFunction F _ _) => { h with ineq := some fun _ => F }
  | .call (.setEqConFunction F _ _) => { h with eq := some fun _ => F }
  | _ => h

/-- the evaluation objects as they are in environment `e`: the stored functions (Objective.hpp:259, Constraints.hpp:920-921,
Model.hpp:144-147) read it when they are called -/
def look (h : Handles E d K) (e : E) (s : NlState d K) : NlState d K :=
  { s with
    M := { s.M with vectorField := h.field.map fun F _ => F e, outUser := h.out.map fun g => g e }
    obj := { s.obj with fuser := h.obj.map fun f => f e }
    con := { s.con with ieqUser := h.ineq.map fun F _ => F e, eqUser := h.eq.map fun F _ => F e } }

variable [LinearOrder K]

/-- the callbacks of the solver, each in its environment (NLOptimizer.hpp:500-504, 714-848) -/
def visits (h : Handles E d K) (o : NlOpt K) (s : NlState d K) (vs : List (E × NlVisit K)) : Exec (NlState d K) :=
  vs.foldl (fun r v => r >>= fun s => NlMpc.visit o (h.look v.1 s) v.2) (.ok s)

/-- `IMPC::optimize` (IMPC.hpp:149-168) with `NLOptimizer::run` (NLOptimizer.hpp:409-608), as `NlMpc.optimizeT`; `e` is the
environment after the solver has returned -/
def optimize (h : Handles E d K) (e : E) (m : NlMpc d K) (x0 u0 : Vec K) (vs : List (E × NlVisit K)) (ending : NlEnding K)
    (junk : Nat → K) : Exec (NlMpc d K × NlOut K) := do
  let m ← m.onState (.measure x0)
  let p ← m.o.prepare d m.s.mp junk x0 u0
  let s ← h.visits m.o m.s vs
  NlMpc.conclude { m with s := h.look e s, o := { m.o with optVector := p.1 } } (m.solverCall p.2) x0 junk ending

/-- one API call in environment `e`. (The setters of functions, NLMPC.hpp:139-262, do not call them: for them it does not
matter which environment there is.) -/
def step (h : Handles E d K) (e : E) (m : NlMpc d K) : EnvCall E d K → Exec ((Handles E d K × NlMpc d K) × NlOut K)
  | .optimize x0 u0 vs ending junk => do
    let r ← h.optimize e m x0 u0 vs ending junk
    return ((h, r.1), r.2)
  | op => do
    let r ← NlMpc.stepT { m with s := h.look e m.s } (op.frozen e)
    return ((h.store op, r.1), r.2)

/-- a history of API calls on a new controller, each in its environment -/
def run (d : Dims) (junk : Nat → K) (dynamic : Bool) (ops : List (E × EnvCall E d K)) :
    Exec ((Handles E d K × NlMpc d K) × List (NlOut K)) :=
  ops.foldl (fun r c => r >>= fun q => do
    let r ← q.1.1.step c.1 q.1.2 c.2
    return (r.1, q.2 ++ [r.2])) (do
      let m ← NlMpc.init d junk dynamic
      return (({}, m), []))

end Handles
end Mpc
