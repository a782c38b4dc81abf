import Verif.Model.NLMPC

/-
User functions of the nonlinear controller which throw (exceptions derived from `std::exception`). They are called

* by the callbacks of the solver (NLOptimizer.hpp:714-848): NLopt catches what a callback throws, stops, and `optimize` of
  the NLopt object throws an exception derived from `std::exception` (NLOptimizer.hpp:502), which is caught
  (NLOptimizer.hpp:524-545);
* by the feasibility check, inside the same `try` block (NLOptimizer.hpp:509);
* by the computation of the reported outputs, outside of it (NLOptimizer.hpp:591): such an exception leaves `optimize`.

When an evaluation is left by an exception the members it works on keep whatever they were given so far. This is modelled
by arbitrary contents of these members (`NlWork`), of the sizes given to them at construction: the settings (functions,
scalings, tolerances, measured state) are not written by evaluations.
-/
namespace Mpc
open Exec

/-- contents of the members which evaluations work on: Base.hpp:76-80, Objective.hpp:261-264, Constraints.hpp:908-918 -/
structure NlWork (K : Type) where
  objX : Nat → Nat → K
  objU : Nat → Nat → K
  objE : K
  objJx : Nat → Nat → K
  objJmv : Nat → Nat → K
  objJe : K
  conX : Nat → Nat → K
  conU : Nat → Nat → K
  conE : K
  ceq : Nat → K
  Jceq : Nat → Nat → K
  cineqUser : Nat → K
  JcineqUser : Nat → Nat → K
  ceqUser : Nat → K
  JceqUser : Nat → Nat → K

/-- the evaluation objects after an evaluation which was left by an exception: Objective.hpp:89-257,
Constraints.hpp:147-906 write no other members -/
def NlState.interrupted {d : Dims} {K : Type} (s : NlState d K) (w : NlWork K) : NlState d K :=
  { s with
    obj := { s.obj with
      Xmat := ⟨d.ph + 1, d.nx, w.objX⟩, Umat := ⟨d.ph + 1, d.nu, w.objU⟩, e := w.objE
      Jx := ⟨d.nx, d.ph, w.objJx⟩, Jmv := ⟨d.nu, d.ph, w.objJmv⟩, Je := w.objJe }
    con := { s.con with
      Xmat := ⟨d.ph + 1, d.nx, w.conX⟩, Umat := ⟨d.ph + 1, d.nu, w.conU⟩, e := w.conE
      ceq := ⟨d.ph * d.nx, w.ceq⟩, Jceq := ⟨d.nZ, d.ph * d.nx, w.Jceq⟩
      cineqUser := ⟨d.ineq, w.cineqUser⟩, JcineqUser := ⟨d.nZ, d.ineq, w.JcineqUser⟩
      ceqUser := ⟨d.eq, w.ceqUser⟩, JceqUser := ⟨d.nZ, d.eq, w.JceqUser⟩ } }

/-- a callback of the solver, or one in which a user function throws -/
inductive NlVisit (K : Type) where
  | returns (c : NlCallback K)
  | throws (w : NlWork K)

/-- how the solver and what follows it end (NLOptimizer.hpp:500-591) -/
inductive NlEnding (K : Type) where
  /-- `nlopt::opt::optimize` throws: the solver failed, or one of its callbacks threw -/
  | solverThrows
  /-- the solver returns `z`, and a user function throws in the feasibility check -/
  | checkThrows (z : Vec K) (w : NlWork K)
  /-- the solver returns `z`, the check returns, and the output function throws when the reported outputs are computed -/
  | outputThrows (z : Vec K)
  /-- nothing throws after the solver -/
  | returns (z : Vec K) (value : Ext K) (code : Int)

/-- the API calls, `optimize` with user functions which may throw -/
inductive NlTCall (d : Dims) (K : Type) [Field K] where
  | call (op : NlCall d K)
  | optimize (x0 u0 : Vec K) (visits : List (NlVisit K)) (ending : NlEnding K) (junk : Nat → K)

namespace NlMpc
variable {d : Dims} {K : Type} [Field K] [LinearOrder K]

/-- one callback, returning or not -/
def visit (o : NlOpt K) (s : NlState d K) : NlVisit K → Exec (NlState d K)
  | .returns c => do
    let r ← serve o s c
    return r.2
  | .throws w => .ok (s.interrupted w)

/-- the callbacks of the solver -/
def visits (o : NlOpt K) (s : NlState d K) (vs : List (NlVisit K)) : Exec (NlState d K) :=
  vs.foldl (fun e v => e >>= fun s => visit o s v) (.ok s)

/-- NLOptimizer.hpp:500-591 when the call of the output function at line 591 throws: `opt_vector`, `is_first_iteration`, the
slack and two of the three sequences are written, the result is not -/
def escape (m : NlMpc d K) (x0 : Vec K) (junk : Nat → K) (z : Vec K) : Exec (NlMpc d K) := do
  let f ← m.s.con.isFeasible m.s.mp m.s.M z
  let w ← m.s.mp.unwrapVector z x0 ⟨d.ph + 1, d.nx, fun i _ => junk i⟩ ⟨d.ph + 1, d.nu, fun i _ => junk i⟩
  let st ← w.1.block 0 0 (d.ph + 1) d.nx
  let inp ← w.2.1.block 0 0 (d.ph + 1) d.nu
  return { m with
    s := { m.s with con := f.2 }
    o := { m.o with optVector := z, first := false, currentSlack := w.2.2, seqState := st, seqInput := inp } }

/-- the end of `NLOptimizer::run` (NLOptimizer.hpp:500-608) and of `optimize`; `call` is what the solver was given -/
def conclude (m : NlMpc d K) (call : NlSolverCall K) (x0 : Vec K) (junk : Nat → K) : NlEnding K → Exec (NlMpc d K × NlOut K)
  | .solverThrows => do
    let m ← finish m x0 junk .threw
    return (m, .result m.o.result call)
  | .checkThrows z w => do
    let m ← finish { m with s := m.s.interrupted w } x0 junk (.answered z (.fin 0) 0 true)
    return (m, .result m.o.result call)
  | .returns z value code => do
    let m ← finish m x0 junk (.answered z value code false)
    return (m, .result m.o.result call)
  | .outputThrows z => do
    let m ← escape m x0 junk z
    return (m, .threw)

/-- `IMPC::optimize` (IMPC.hpp:149-168) with `NLOptimizer::run` (NLOptimizer.hpp:409-608), as `NlMpc.optimize`, with user
functions which may throw -/
def optimizeT (m : NlMpc d K) (x0 u0 : Vec K) (vs : List (NlVisit K)) (e : NlEnding K) (junk : Nat → K) :
    Exec (NlMpc d K × NlOut K) := do
  let m ← m.onState (.measure x0)
  let p ← m.o.prepare d m.s.mp junk x0 u0
  let s ← visits m.o m.s vs
  conclude { m with s := s, o := { m.o with optVector := p.1 } } (m.solverCall p.2) x0 junk e

/-- one API call -/
def stepT (m : NlMpc d K) : NlTCall d K → Exec (NlMpc d K × NlOut K)
  | .call op => m.step op
  | .optimize x0 u0 vs e junk => m.optimizeT x0 u0 vs e junk

/-- a history of API calls on a new controller: the state and what the calls returned -/
def runT (d : Dims) (junk : Nat → K) (dynamic : Bool) (ops : List (NlTCall d K)) : Exec (NlMpc d K × List (NlOut K)) :=
  ops.foldl (fun e c => e >>= fun q => do
    let r ← q.1.stepT c
    return (r.1, q.2 ++ [r.2])) (do
      let m ← init d junk dynamic
      return (m, []))

end NlMpc
end Mpc
