import Verif.Model.LMPC
import Verif.Model.NLMPC

/-
Model of the Python module: /repo/python/pybind_export.cpp, with the rules of pybind11 (a dependency which is not part of the
repository) for choosing an overload and converting arguments, as documented there:

* the overloads of a name are tried in the order of their registration, first without implicit conversions, then with them;
  an overload is chosen when the number of arguments is right and all of them can be converted; if there is none, `TypeError`;
* `Eigen::MatrixXd` takes a two-dimensional array, or a one-dimensional one as a single column; `Eigen::VectorXd` takes a
  one-dimensional array, or a two-dimensional one with a single column; arrays of other element types than `float64`, and
  lists, are converted in the second pass only;
* `double` takes a `float`, and in the second pass an `int`; `unsigned int` takes an `int` in its range, no `float`;
* classes which are not exported can neither be passed nor returned.

The module is compiled for run-time dimensions (pybind_export.cpp:129-132). Arguments by keyword, `None`, arrays of other
dimensions and arrays with more than two indices are `other`: nothing takes them. Arrays where finite numbers are expected
are supposed to be finite (`finite`).
-/
namespace Mpc
open Exec

/-- a Python object which is not a function -/
inductive PyData (K : Type) where
  /-- one-dimensional numpy array (`double` tells that the elements are `float64`), or a list of numbers -/
  | array1 (double : Bool) (v : Vec (Ext K))
  /-- two-dimensional numpy array -/
  | array2 (double : Bool) (M : Mat (Ext K))
  | float (x : Ext K)
  | int (n : Int)
  | slice (s : HorizonSlice)
  /-- a `LoggerLevel`, a `str`: which one is not modelled here, see Model/Logger.lean -/
  | level
  | str
  | other

/-- a Python object; functions are called with positional arguments and have no state -/
inductive PyVal (K : Type) where
  | data (v : PyData K)
  | func (f : List (PyData K) → PyData K)

/-- the parameter types of the exported functions -/
inductive CType where
  | matX | vecX | stdVec | uint | dbl | slice | func
  /-- a class which is not exported: `mpc::Parameters` (Types.hpp:95-152) -/
  | params
  | level | str

/-- a converted argument -/
inductive CVal (K : Type) where
  | mat (M : Mat (Ext K))
  | vec (v : Vec (Ext K))
  | uint (n : Nat)
  | dbl (x : Ext K)
  | slice (s : HorizonSlice)
  | level
  | str
  | func (f : List (PyData K) → PyData K)

section
variable {K : Type} [IntCast K]

/-- conversion of one argument by pybind11, with or without implicit conversions -/
def PyData.cast (convert : Bool) : CType → PyData K → Option (CVal K)
  | .matX, .array1 e v => if e || convert then some (.mat ⟨v.size, 1, fun i _ => v.get i⟩) else none
  | .matX, .array2 e M => if e || convert then some (.mat M) else none
  | .vecX, .array1 e v => if e || convert then some (.vec v) else none
  | .vecX, .array2 e M => if (e || convert) && M.cols = 1 then some (.vec ⟨M.rows, fun i => M.get i 0⟩) else none
  | .stdVec, .array1 e v => if e || convert then some (.vec v) else none
  | .uint, .int n => if 0 ≤ n ∧ n < 4294967296 then some (.uint n.toNat) else none
  | .dbl, .float x => some (.dbl x)
  | .dbl, .int n => if convert then some (.dbl (.fin n)) else none
  | .slice, .slice s => some (.slice s)
  | .level, .level => some .level
  | .str, .str => some .str
  | _, _ => none

/-- conversion of one argument by pybind11 -/
def PyVal.cast (convert : Bool) : CType → PyVal K → Option (CVal K)
  | .func, .func f => some (.func f)
  | t, .data v => v.cast convert t
  | _, _ => none

/-- conversion of the arguments; their number has to be right -/
def castAll (convert : Bool) : List CType → List (PyVal K) → Option (List (CVal K))
  | [], [] => some []
  | t :: ts, a :: as => do
    let c ← a.cast convert t
    let cs ← castAll convert ts as
    return c :: cs
  | _, _ => none

/-- one `.def` -/
structure Binding (T : Type) where
  name : String
  sig : List CType
  target : T

/-- the exceptions of Python -/
inductive PyError where
  | attributeError | typeError | runtimeError
  deriving DecidableEq

/-- one pass over the overloads of a name -/
def tryOverloads {T : Type} (convert : Bool) (args : List (PyVal K)) : List (Binding T) → Option (T × List (CVal K))
  | [] => none
  | b :: bs =>
    match castAll convert b.sig args with
    | some cs => some (b.target, cs)
    | none => tryOverloads convert args bs

/-- choice of the overload by pybind11 -/
def dispatch {T : Type} (table : List (Binding T)) (name : String) (args : List (PyVal K)) :
    Except PyError (T × List (CVal K)) :=
  match table.filter fun b => b.name = name with
  | [] => .error .attributeError
  | b :: bs =>
    match tryOverloads false args (b :: bs) with
    | some r => .ok r
    | none =>
      match tryOverloads true args (b :: bs) with
      | some r => .ok r
      | none => .error .typeError

end

/-- the member functions of `LMPC` with their overloads, as they are referred to in pybind_export.cpp:93-123 -/
inductive LFn where
  | setOptimizerParameters | setLoggerLevel | setLoggerPrefix | optimize | getLastResult | getOptimalSequence
  | getExecutionStats | resetStats
  | setStateBounds | setStateBoundsSlice | setInputBounds | setInputBoundsSlice | setOutputBounds | setOutputBoundsSlice
  | setStateSpaceModel | setDisturbances | getSolverWarmStartPrimal | getSolverWarmStartDual | setSolverWarmStart
  | setObjectiveWeights | setObjectiveWeightsSlice | setScalarConstraintAt | setScalarConstraintSlice
  | setExogenousInputs | setExogenousInputsSlice | setReferencesSlice

/-- the `.def`s of the class `LMPC` in their order (pybind_export.cpp:93-123). Note that `setReferences` is bound twice to
the overload with a slice. -/
def lmpcTable : List (Binding LFn) :=
  [⟨"setOptimizerParameters", [.params], .setOptimizerParameters⟩,
   ⟨"setLoggerLevel", [.level], .setLoggerLevel⟩,
   ⟨"setLoggerPrefix", [.str], .setLoggerPrefix⟩,
   ⟨"optimize", [.vecX, .vecX], .optimize⟩,
   ⟨"getLastResult", [], .getLastResult⟩,
   ⟨"getOptimalSequence", [], .getOptimalSequence⟩,
   ⟨"getExecutionStats", [], .getExecutionStats⟩,
   ⟨"resetStats", [], .resetStats⟩,
   ⟨"setStateBounds", [.matX, .matX], .setStateBounds⟩,
   ⟨"setStateBounds", [.vecX, .vecX, .slice], .setStateBoundsSlice⟩,
   ⟨"setInputBounds", [.matX, .matX], .setInputBounds⟩,
   ⟨"setInputBounds", [.vecX, .vecX, .slice], .setInputBoundsSlice⟩,
   ⟨"setOutputBounds", [.matX, .matX], .setOutputBounds⟩,
   ⟨"setOutputBounds", [.vecX, .vecX, .slice], .setOutputBoundsSlice⟩,
   ⟨"setStateSpaceModel", [.matX, .matX, .matX], .setStateSpaceModel⟩,
   ⟨"setDisturbances", [.matX, .matX], .setDisturbances⟩,
   ⟨"getSolverWarmStartPrimal", [], .getSolverWarmStartPrimal⟩,
   ⟨"getSolverWarmStartDual", [], .getSolverWarmStartDual⟩,
   ⟨"setSolverWarmStart", [.stdVec, .stdVec], .setSolverWarmStart⟩,
   ⟨"setObjectiveWeights", [.matX, .matX, .matX], .setObjectiveWeights⟩,
   ⟨"setObjectiveWeights", [.vecX, .vecX, .vecX, .slice], .setObjectiveWeightsSlice⟩,
   ⟨"setScalarConstraint", [.uint, .dbl, .dbl, .vecX, .vecX], .setScalarConstraintAt⟩,
   ⟨"setScalarConstraint", [.dbl, .dbl, .vecX, .vecX, .slice], .setScalarConstraintSlice⟩,
   ⟨"setExogenousInputs", [.matX], .setExogenousInputs⟩,
   ⟨"setExogenousInputs", [.vecX, .slice], .setExogenousInputsSlice⟩,
   ⟨"setReferences", [.vecX, .vecX, .vecX, .slice], .setReferencesSlice⟩,
   ⟨"setReferences", [.vecX, .vecX, .vecX, .slice], .setReferencesSlice⟩]

section
variable {K : Type} [Zero K]

/-- the number of a `double` which is supposed to be finite -/
def Ext.finite : Ext K → K
  | .fin x => x
  | _ => 0

/-- a matrix of finite numbers -/
def Mat.finite (M : Mat (Ext K)) : Mat K := ⟨M.rows, M.cols, fun i j => (M.get i j).finite⟩

/-- a vector of finite numbers -/
def Vec.finite (v : Vec (Ext K)) : Vec K := ⟨v.size, fun i => (v.get i).finite⟩

end

section
variable {K : Type} [Field K]

/-- the C++ call of `LMPC` made with the converted arguments (for the calls which change the controller); `oc` is what OSQP
does during the call -/
def LFn.op (oc : OsqpOutcome K) : LFn → List (CVal K) → Option (LOp K)
  | .optimize, [.vec x, .vec u] => some (.optimize x.finite u.finite oc)
  | .setStateBounds, [.mat a, .mat b] => some (.setStateBounds a b)
  | .setStateBoundsSlice, [.vec a, .vec b, .slice s] => some (.setStateBoundsSlice a b s)
  | .setInputBounds, [.mat a, .mat b] => some (.setInputBounds a b)
  | .setInputBoundsSlice, [.vec a, .vec b, .slice s] => some (.setInputBoundsSlice a b s)
  | .setOutputBounds, [.mat a, .mat b] => some (.setOutputBounds a b)
  | .setOutputBoundsSlice, [.vec a, .vec b, .slice s] => some (.setOutputBoundsSlice a b s)
  | .setStateSpaceModel, [.mat A, .mat B, .mat C] => some (.setStateSpaceModel A.finite B.finite C.finite)
  | .setDisturbances, [.mat B, .mat D] => some (.setDisturbances B.finite D.finite)
  | .setSolverWarmStart, [.vec x, .vec y] => some (.setSolverWarmStart x.finite y.finite)
  | .setObjectiveWeights, [.mat a, .mat b, .mat c] => some (.setObjectiveWeights a.finite b.finite c.finite)
  | .setObjectiveWeightsSlice, [.vec a, .vec b, .vec c, .slice s] =>
    some (.setObjectiveWeightsSlice a.finite b.finite c.finite s)
  | .setScalarConstraintAt, [.uint i, .dbl a, .dbl b, .vec x, .vec u] =>
    some (.setScalarConstraintAt i a b x.finite u.finite)
  | .setScalarConstraintSlice, [.dbl a, .dbl b, .vec x, .vec u, .slice s] =>
    some (.setScalarConstraintSlice a b x.finite u.finite s)
  | .setExogenousInputs, [.mat M] => some (.setExogenousInputs M.finite)
  | .setExogenousInputsSlice, [.vec v, .slice s] => some (.setExogenousInputsSlice v.finite s)
  | .setReferencesSlice, [.vec y, .vec u, .vec du, .slice s] => some (.setReferencesSlice y.finite u.finite du.finite s)
  | _, _ => none

/-- the class `Result` in Python (pybind_export.cpp:143-150; the message is omitted): `is_feasible` is not exported -/
structure PyResult (K : Type) where
  solver_status : Int
  cost : Ext K
  cmd : Vec K
  status : ResultStatus

/-- a `Result` as Python sees it -/
def LResult.toPy (r : LResult K) : PyResult K := ⟨r.solver_status, r.cost, r.cmd, r.status⟩

/-- what a Python call returns or raises -/
inductive PyOut (K : Type) where
  | bool (r : Bool)
  | unit
  | result (r : PyResult K)
  | numbers (v : Vec K)
  /-- the execution statistics, see Model/Interface.lean -/
  | stats
  | raises (e : PyError)

/-- what a call of `LMPC` returns, as Python sees it: `std::runtime_error` becomes `RuntimeError` -/
def LOut.toPy : LOut K → PyOut K
  | .bool r => .bool r
  | .unit => .unit
  | .threw => .raises .runtimeError
  | .result r _ => .result r.toPy

/-- a getter of `LMPC`, or a call to logger or profiler, called from Python: `OptSequence` is not exported, so that its
conversion raises `TypeError` -/
def LFn.get (m : LMpc K) : LFn → PyOut K
  | .getLastResult => .result m.getLastResult.toPy
  | .getOptimalSequence => .raises .typeError
  | .getSolverWarmStartPrimal => .numbers m.getSolverWarmStartPrimal
  | .getSolverWarmStartDual => .numbers m.getSolverWarmStartDual
  | .getExecutionStats => .stats
  | .resetStats => .unit
  | .setLoggerLevel => .bool true
  | .setLoggerPrefix => .bool true
  | _ => .raises .typeError

/-- one Python call of a method of an `LMPC` object -/
def LMpc.pyStep [DecidableEq K] (m : LMpc K) (name : String) (args : List (PyVal K)) (oc : OsqpOutcome K) :
    Exec (LMpc K × PyOut K) :=
  match dispatch lmpcTable name args with
  | .error e => .ok (m, .raises e)
  | .ok (f, cs) =>
    match f.op oc cs with
    | some op => do
      let r ← m.step op
      return (r.1, r.2.toPy)
    | none => .ok (m, f.get m)

/-- a Python program: method calls with what OSQP does during each of them -/
def LMpc.pyExec [DecidableEq K] (m : LMpc K) : List (String × List (PyVal K) × OsqpOutcome K) → Exec (LMpc K × List (PyOut K))
  | [] => .ok (m, [])
  | (name, args, oc) :: cs => do
    let r ← m.pyStep name args oc
    let s ← LMpc.pyExec r.1 cs
    return (s.1, r.2 :: s.2)

end

/-- the member functions of `NLMPC` with their overloads, as they are referred to in pybind_export.cpp:59-84 -/
inductive NFn where
  | setDiscretizationSamplingTime | setInputScale | setStateScale
  | setOptimizerParameters | setLoggerLevel | setLoggerPrefix | optimize | getLastResult | getOptimalSequence
  | getExecutionStats | resetStats
  | setStateBounds | setStateBoundsSlice | setInputBounds | setInputBoundsSlice | setOutputBounds | setOutputBoundsSlice
  | setObjectiveFunction | setStateSpaceFunction | setOutputFunction | setIneqConFunction | setEqConFunction

/-- the `.def`s of the class `NLMPC` in their order (pybind_export.cpp:59-84). Note that no default arguments are exported. -/
def nlmpcTable : List (Binding NFn) :=
  [⟨"setDiscretizationSamplingTime", [.dbl], .setDiscretizationSamplingTime⟩,
   ⟨"setInputScale", [.vecX], .setInputScale⟩,
   ⟨"setStateScale", [.vecX], .setStateScale⟩,
   ⟨"setOptimizerParameters", [.params], .setOptimizerParameters⟩,
   ⟨"setLoggerLevel", [.level], .setLoggerLevel⟩,
   ⟨"setLoggerPrefix", [.str], .setLoggerPrefix⟩,
   ⟨"optimize", [.vecX, .vecX], .optimize⟩,
   ⟨"getLastResult", [], .getLastResult⟩,
   ⟨"getOptimalSequence", [], .getOptimalSequence⟩,
   ⟨"getExecutionStats", [], .getExecutionStats⟩,
   ⟨"resetStats", [], .resetStats⟩,
   ⟨"setStateBounds", [.matX, .matX], .setStateBounds⟩,
   ⟨"setStateBounds", [.vecX, .vecX, .slice], .setStateBoundsSlice⟩,
   ⟨"setInputBounds", [.matX, .matX], .setInputBounds⟩,
   ⟨"setInputBounds", [.vecX, .vecX, .slice], .setInputBoundsSlice⟩,
   ⟨"setOutputBounds", [.matX, .matX], .setOutputBounds⟩,
   ⟨"setOutputBounds", [.vecX, .vecX, .slice], .setOutputBoundsSlice⟩,
   ⟨"setObjectiveFunction", [.func], .setObjectiveFunction⟩,
   ⟨"setStateSpaceFunction", [.func, .dbl], .setStateSpaceFunction⟩,
   ⟨"setOutputFunction", [.func], .setOutputFunction⟩,
   ⟨"setIneqConFunction", [.func, .dbl], .setIneqConFunction⟩,
   ⟨"setEqConFunction", [.func, .dbl], .setEqConFunction⟩]

section
variable {K : Type} [Field K]

/-- a vector of C++ as a Python argument: a one-dimensional array -/
def pyVec {n : Nat} (x : FVec n K) : PyData K := .array1 true ⟨n, fun i => if h : i < n then .fin (x ⟨i, h⟩) else .fin 0⟩

/-- a matrix of C++ as a Python argument: a two-dimensional array -/
def pyMat {r c : Nat} (x : Traj r c K) : PyData K :=
  .array2 true ⟨r, c, fun i j => if h : i < r ∧ j < c then .fin (x ⟨i, h.1⟩ ⟨j, h.2⟩) else .fin 0⟩

/-- the result of a Python function as `Eigen::VectorXd`, with all conversions. Simplifications: a result which cannot be
converted throws (see Model/Throwing.lean), here it is empty; a result of the wrong size is supposed not to occur. -/
def PyData.toVec (v : PyData K) : Vec K :=
  match v.cast true .vecX with
  | some (.vec w) => w.finite
  | _ => ⟨0, fun _ => 0⟩

/-- the result of a Python function as `double` -/
def PyData.toDbl (v : PyData K) : K :=
  match v.cast true .dbl with
  | some (.dbl x) => x.finite
  | _ => 0

variable (d : Dims)

/-- pybind_export.cpp:19-27 -/
def pyStateFn (f : List (PyData K) → PyData K) : FVec d.nx K → FVec d.nu K → Nat → FVec d.nx K :=
  fun x u k i => (f [pyVec x, pyVec u, .int k]).toVec.get i

/-- pybind_export.cpp:29-37 -/
def pyOutFn (f : List (PyData K) → PyData K) : OutFn d K :=
  fun _ x u k i => (f [pyVec x, pyVec u, .int k]).toVec.get i

/-- pybind_export.cpp:39-47 -/
def pyIneqFn (f : List (PyData K) → PyData K) :
    Traj (d.ph + 1) d.nx K → Traj (d.ph + 1) d.ny K → Traj (d.ph + 1) d.nu K → K → FVec d.ineq K :=
  fun x y u e i => (f [pyMat x, pyMat y, pyMat u, .float (.fin e)]).toVec.get i

/-- pybind_export.cpp:49-57 -/
def pyEqFn (f : List (PyData K) → PyData K) : Traj (d.ph + 1) d.nx K → Traj (d.ph + 1) d.nu K → FVec d.eq K :=
  fun x u i => (f [pyMat x, pyMat u]).toVec.get i

/-- a Python function as `ObjFunHandle` (pybind_export.cpp:80) -/
def pyObjFn (f : List (PyData K) → PyData K) : ObjFn d K :=
  fun x y u e => (f [pyMat x, pyMat y, pyMat u, .float (.fin e)]).toDbl

/-- what happens outside of the library during a call: does NLopt accept the bound callback; the callbacks it makes, how it
ends, and the contents of uninitialised memory -/
structure NlSurroundings (K : Type) where
  accepted : Bool
  callbacks : List (NlCallback K)
  outcome : NlOutcome K
  junk : Nat → K

/-- the C++ call of `NLMPC` made with the converted arguments (for the calls which change the controller) -/
def NFn.op (w : NlSurroundings K) : NFn → List (CVal K) → Option (NlCall d K)
  | .setDiscretizationSamplingTime, [.dbl ts] => some (.setDiscretizationSamplingTime ts.finite)
  | .setInputScale, [.vec v] => some (.setInputScale v.finite)
  | .setStateScale, [.vec v] => some (.setStateScale v.finite)
  | .optimize, [.vec x, .vec u] => some (.optimize x.finite u.finite w.callbacks w.outcome w.junk)
  | .setStateBounds, [.mat a, .mat b] => some (.setStateBounds a b)
  | .setStateBoundsSlice, [.vec a, .vec b, .slice s] => some (.setStateBoundsSlice a b s)
  | .setInputBounds, [.mat a, .mat b] => some (.setInputBounds a b)
  | .setInputBoundsSlice, [.vec a, .vec b, .slice s] => some (.setInputBoundsSlice a b s)
  | .setOutputBounds, [.mat a, .mat b] => some (.setOutputBounds a b)
  | .setOutputBoundsSlice, [.vec a, .vec b, .slice s] => some (.setOutputBoundsSlice a b s)
  | .setObjectiveFunction, [.func f] => some (.setObjectiveFunction (pyObjFn d f) w.accepted)
  | .setStateSpaceFunction, [.func f, .dbl tol] => some (.setStateSpaceFunction (pyStateFn d f) tol.finite w.accepted)
  | .setOutputFunction, [.func f] => some (.setOutputFunction (pyOutFn d f))
  | .setIneqConFunction, [.func f, .dbl tol] => some (.setIneqConFunction (pyIneqFn d f) tol.finite w.accepted)
  | .setEqConFunction, [.func f, .dbl tol] => some (.setEqConFunction (pyEqFn d f) tol.finite w.accepted)
  | _, _ => none

/-- what a call of `NLMPC` returns, as Python sees it -/
def NlOut.toPy : NlOut K → PyOut K
  | .bool r => .bool r
  | .unit => .unit
  | .threw => .raises .runtimeError
  | .result r _ => .result r.toPy

variable {d}

/-- a getter of `NLMPC`, or a call to logger or profiler, called from Python -/
def NFn.get (m : NlMpc d K) : NFn → PyOut K
  | .getLastResult => .result m.o.result.toPy
  | .getOptimalSequence => .raises .typeError
  | .getExecutionStats => .stats
  | .resetStats => .unit
  | .setLoggerLevel => .bool true
  | .setLoggerPrefix => .bool true
  | _ => .raises .typeError

/-- one Python call of a method of an `NLMPC` object -/
def NlMpc.pyStep [LinearOrder K] (m : NlMpc d K) (name : String) (args : List (PyVal K)) (w : NlSurroundings K) :
    Exec (NlMpc d K × PyOut K) :=
  match dispatch nlmpcTable name args with
  | .error e => .ok (m, .raises e)
  | .ok (f, cs) =>
    match f.op d w cs with
    | some op => do
      let r ← m.step op
      return (r.1, r.2.toPy)
    | none => .ok (m, f.get m)

/-- a Python program which makes a new `NLMPC` object and calls its methods; Python objects have run-time dimensions
(pybind_export.cpp:129) -/
def NlMpc.pyRun [LinearOrder K] (d : Dims) (junk : Nat → K) (cs : List (String × List (PyVal K) × NlSurroundings K)) :
    Exec (NlMpc d K × List (PyOut K)) :=
  cs.foldl (fun e c => e >>= fun q => do
    let r ← q.1.pyStep c.1 c.2.1 c.2.2
    return (r.1, q.2 ++ [r.2])) (do
      let m ← NlMpc.init d junk true
      return (m, []))

end
end Mpc
