import Mathlib.Data.List.Forall2
import Verif.Model.Python

/-
Specification: how the calls of the C++ API are written in Python.
-/
namespace Mpc.Spec
variable {K : Type}

/-- a matrix of numbers, bounds included, as a two-dimensional array of `float64` -/
def np2 (M : Mat (Ext K)) : PyVal K := .data (.array2 true M)
/-- a vector as a one-dimensional array of `float64` -/
def np1 (v : Vec (Ext K)) : PyVal K := .data (.array1 true v)
/-- a matrix of finite numbers -/
def nums2 (M : Mat K) : PyVal K := np2 ⟨M.rows, M.cols, fun i j => .fin (M.get i j)⟩
/-- a vector of finite numbers -/
def nums1 (v : Vec K) : PyVal K := np1 ⟨v.size, fun i => .fin (v.get i)⟩
/-- a number -/
def num (x : Ext K) : PyVal K := .data (.float x)
/-- a `HorizonSlice` -/
def slc (s : HorizonSlice) : PyVal K := .data (.slice s)

variable [Field K]

/-- The name of the method of a C++ call. -/
def methodOf : LOp K → String
  | .setStateSpaceModel .. => "setStateSpaceModel"
  | .setDisturbances .. => "setDisturbances"
  | .setObjectiveWeights .. => "setObjectiveWeights"
  | .setObjectiveWeightsSlice .. => "setObjectiveWeights"
  | .setStateBounds .. => "setStateBounds"
  | .setStateBoundsSlice .. => "setStateBounds"
  | .setInputBounds .. => "setInputBounds"
  | .setInputBoundsSlice .. => "setInputBounds"
  | .setOutputBounds .. => "setOutputBounds"
  | .setOutputBoundsSlice .. => "setOutputBounds"
  | .setScalarConstraintSlice .. => "setScalarConstraint"
  | .setScalarConstraintAt .. => "setScalarConstraint"
  | .setExogenousInputs .. => "setExogenousInputs"
  | .setExogenousInputsSlice .. => "setExogenousInputs"
  | .setReferences .. => "setReferences"
  | .setReferencesSlice .. => "setReferences"
  | .setOptimizerParameters .. => "setOptimizerParameters"
  | .setSolverWarmStart .. => "setSolverWarmStart"
  | .setDiscretizationSamplingTime .. => "setDiscretizationSamplingTime"
  | .setInputScale .. => "setInputScale"
  | .setStateScale .. => "setStateScale"
  | .optimize .. => "optimize"

/-- `args` are the arguments of the C++ call of the linear controller, in the same order, as Python objects. (For the
parameters of the solver there are no such objects; an index is an `unsigned int`.) -/
def WrittenL : LOp K → List (PyVal K) → Prop
  | .setStateSpaceModel A B C, args => args = [nums2 A, nums2 B, nums2 C]
  | .setDisturbances B D, args => args = [nums2 B, nums2 D]
  | .setObjectiveWeights a b c, args => args = [nums2 a, nums2 b, nums2 c]
  | .setObjectiveWeightsSlice a b c s, args => args = [nums1 a, nums1 b, nums1 c, slc s]
  | .setStateBounds a b, args => args = [np2 a, np2 b]
  | .setStateBoundsSlice a b s, args => args = [np1 a, np1 b, slc s]
  | .setInputBounds a b, args => args = [np2 a, np2 b]
  | .setInputBoundsSlice a b s, args => args = [np1 a, np1 b, slc s]
  | .setOutputBounds a b, args => args = [np2 a, np2 b]
  | .setOutputBoundsSlice a b s, args => args = [np1 a, np1 b, slc s]
  | .setScalarConstraintSlice a b X U s, args => args = [num a, num b, nums1 X, nums1 U, slc s]
  | .setScalarConstraintAt i a b X U, args => args = [.data (.int i), num a, num b, nums1 X, nums1 U] ∧ i < 2 ^ 32
  | .setExogenousInputs M, args => args = [nums2 M]
  | .setExogenousInputsSlice v s, args => args = [nums1 v, slc s]
  | .setReferences Y U D, args => args = [nums2 Y, nums2 U, nums2 D]
  | .setReferencesSlice y u du s, args => args = [nums1 y, nums1 u, nums1 du, slc s]
  | .setOptimizerParameters _, _ => False
  | .setSolverWarmStart x y, args => args = [nums1 x, nums1 y]
  | .setDiscretizationSamplingTime t, args => args = [num (.fin t)]
  | .setInputScale v, args => args = [nums1 v]
  | .setStateScale v, args => args = [nums1 v]
  | .optimize x u _, args => args = [nums1 x, nums1 u]

/-- A C++ argument stands for a Python object: arrays with the same numbers (a column for a one-dimensional array), the same
number, slice or function. -/
def Stands : CVal K → PyVal K → Prop
  | .mat M, .data (.array2 _ M') => M = M'
  | .mat M, .data (.array1 _ v) => M = ⟨v.size, 1, fun i _ => v.get i⟩
  | .vec v, .data (.array1 _ v') => v = v'
  | .vec v, .data (.array2 _ M) => M.cols = 1 ∧ v = ⟨M.rows, fun i => M.get i 0⟩
  | .uint n, .data (.int k) => (n : Int) = k ∧ n < 2 ^ 32
  | .dbl x, .data (.float y) => x = y
  | .dbl x, .data (.int k) => x = .fin k
  | .slice s, .data (.slice s') => s = s'
  | .level, .data .level => True
  | .str, .data .str => True
  | .func f, .func g => f = g
  | _, _ => False

/-- `M` has the numbers of `M'`, where these are finite -/
def SameMat (M : Mat K) (M' : Mat (Ext K)) : Prop :=
  M.rows = M'.rows ∧ M.cols = M'.cols ∧ ∀ i j x, M'.get i j = .fin x → M.get i j = x

/-- `v` has the numbers of `v'`, where these are finite -/
def SameVec (v : Vec K) (v' : Vec (Ext K)) : Prop := v.size = v'.size ∧ ∀ i x, v'.get i = .fin x → v.get i = x

/-- `cs` are the arguments of a C++ call, in their order. -/
def ArgsL : LOp K → List (CVal K) → Prop
  | .setStateSpaceModel A B C, cs => ∃ A' B' C', cs = [.mat A', .mat B', .mat C'] ∧ SameMat A A' ∧ SameMat B B' ∧ SameMat C C'
  | .setDisturbances B D, cs => ∃ B' D', cs = [.mat B', .mat D'] ∧ SameMat B B' ∧ SameMat D D'
  | .setObjectiveWeights a b c, cs => ∃ a' b' c', cs = [.mat a', .mat b', .mat c'] ∧ SameMat a a' ∧ SameMat b b' ∧ SameMat c c'
  | .setObjectiveWeightsSlice a b c s, cs =>
    ∃ a' b' c', cs = [.vec a', .vec b', .vec c', .slice s] ∧ SameVec a a' ∧ SameVec b b' ∧ SameVec c c'
  | .setStateBounds a b, cs => cs = [.mat a, .mat b]
  | .setStateBoundsSlice a b s, cs => cs = [.vec a, .vec b, .slice s]
  | .setInputBounds a b, cs => cs = [.mat a, .mat b]
  | .setInputBoundsSlice a b s, cs => cs = [.vec a, .vec b, .slice s]
  | .setOutputBounds a b, cs => cs = [.mat a, .mat b]
  | .setOutputBoundsSlice a b s, cs => cs = [.vec a, .vec b, .slice s]
  | .setScalarConstraintSlice a b X U s, cs =>
    ∃ X' U', cs = [.dbl a, .dbl b, .vec X', .vec U', .slice s] ∧ SameVec X X' ∧ SameVec U U'
  | .setScalarConstraintAt i a b X U, cs => ∃ X' U', cs = [.uint i, .dbl a, .dbl b, .vec X', .vec U'] ∧ SameVec X X' ∧ SameVec U U'
  | .setExogenousInputs M, cs => ∃ M', cs = [.mat M'] ∧ SameMat M M'
  | .setExogenousInputsSlice v s, cs => ∃ v', cs = [.vec v', .slice s] ∧ SameVec v v'
  | .setReferences Y U D, cs => ∃ Y' U' D', cs = [.mat Y', .mat U', .mat D'] ∧ SameMat Y Y' ∧ SameMat U U' ∧ SameMat D D'
  | .setReferencesSlice y u du s, cs =>
    ∃ y' u' du', cs = [.vec y', .vec u', .vec du', .slice s] ∧ SameVec y y' ∧ SameVec u u' ∧ SameVec du du'
  | .setOptimizerParameters _, _ => False
  | .setSolverWarmStart x y, cs => ∃ x' y', cs = [.vec x', .vec y'] ∧ SameVec x x' ∧ SameVec y y'
  | .setDiscretizationSamplingTime t, cs => cs = [.dbl (.fin t)]
  | .setInputScale v, cs => ∃ v', cs = [.vec v'] ∧ SameVec v v'
  | .setStateScale v, cs => ∃ v', cs = [.vec v'] ∧ SameVec v v'
  | .optimize x u _, cs => ∃ x' u', cs = [.vec x', .vec u'] ∧ SameVec x x' ∧ SameVec u u'

/-- The call has the arguments `args`, as far as Python objects can be converted. -/
def GivenL (op : LOp K) (args : List (PyVal K)) : Prop := ∃ cs, List.Forall₂ Stands cs args ∧ ArgsL op cs

/-- The fields of a result which are exported have in Python the values they have in C++. -/
def SeenResult (r : LResult K) (p : PyResult K) : Prop :=
  p.solver_status = r.solver_status ∧ p.cost = r.cost ∧ p.cmd = r.cmd ∧ p.status = r.status

/-- What a call of the linear controller gives back, seen from Python: the same value, an exception as `RuntimeError`. -/
def SeenL : LOut K → PyOut K → Prop
  | .bool b, .bool c => b = c
  | .unit, .unit => True
  | .threw, .raises e => e = .runtimeError
  | .result r _, .result p => SeenResult r p
  | _, _ => False

/-- as `SeenL`, for the nonlinear controller -/
def SeenN : NlOut K → PyOut K → Prop
  | .bool b, .bool c => b = c
  | .unit, .unit => True
  | .threw, .raises e => e = .runtimeError
  | .result r _, .result p => SeenResult r p
  | _, _ => False

/-- what OSQP does during a call (only `optimize` asks it anything) -/
def SolverDoes : LOp K → OsqpOutcome K → Prop
  | .optimize _ _ oc, oc' => oc' = oc
  | _, _ => True

/-- `a` is a one-dimensional array with the numbers of `x` -/
def IsArray1 {n : Nat} (x : FVec n K) (a : PyData K) : Prop :=
  ∃ b v, a = .array1 b v ∧ v.size = n ∧ ∀ i : Fin n, v.get i = .fin (x i)

/-- `a` is a two-dimensional array with the numbers of `x`, row by row -/
def IsArray2 {r c : Nat} (x : Traj r c K) (a : PyData K) : Prop :=
  ∃ b M, a = .array2 b M ∧ M.rows = r ∧ M.cols = c ∧ ∀ (i : Fin r) (j : Fin c), M.get i j = .fin (x i j)

/-- The Python function `f` computes the C++ function `F`: called with the same arguments, vectors as one-dimensional and
matrices as two-dimensional arrays, it returns an array with the same numbers. -/
def ComputesState (d : Dims) (f : List (PyData K) → PyData K) (F : FVec d.nx K → FVec d.nu K → Nat → FVec d.nx K) : Prop :=
  ∀ x u (k : Nat) a b, IsArray1 x a → IsArray1 u b → IsArray1 (F x u k) (f [a, b, .int k])

/-- as `ComputesState`, for the output function -/
def ComputesOut (d : Dims) (f : List (PyData K) → PyData K) (F : FVec d.nx K → FVec d.nu K → Nat → FVec d.ny K) : Prop :=
  ∀ x u (k : Nat) a b, IsArray1 x a → IsArray1 u b → IsArray1 (F x u k) (f [a, b, .int k])

/-- as `ComputesState`, for the inequality constraints -/
def ComputesIneq (d : Dims) (f : List (PyData K) → PyData K)
    (F : Traj (d.ph + 1) d.nx K → Traj (d.ph + 1) d.ny K → Traj (d.ph + 1) d.nu K → K → FVec d.ineq K) : Prop :=
  ∀ x y u e a b c, IsArray2 x a → IsArray2 y b → IsArray2 u c → IsArray1 (F x y u e) (f [a, b, c, .float (.fin e)])

/-- as `ComputesState`, for the equality constraints -/
def ComputesEq (d : Dims) (f : List (PyData K) → PyData K)
    (F : Traj (d.ph + 1) d.nx K → Traj (d.ph + 1) d.nu K → FVec d.eq K) : Prop :=
  ∀ x u a b, IsArray2 x a → IsArray2 u b → IsArray1 (F x u) (f [a, b])

/-- as `ComputesState`, for the objective, which returns a `float` or an `int` -/
def ComputesObj (d : Dims) (f : List (PyData K) → PyData K) (F : ObjFn d K) : Prop :=
  ∀ x y u e a b c, IsArray2 x a → IsArray2 y b → IsArray2 u c →
    f [a, b, c, .float (.fin e)] = .float (.fin (F x y u e)) ∨
    ∃ n : Int, f [a, b, c, .float (.fin e)] = .int n ∧ F x y u e = n

/-- The name of the method of a C++ call of the nonlinear controller. -/
def nlMethodOf {d : Dims} : NlCall d K → String
  | .setDiscretizationSamplingTime .. => "setDiscretizationSamplingTime"
  | .setOptimizerParameters .. => "setOptimizerParameters"
  | .setInputScale .. => "setInputScale"
  | .setStateScale .. => "setStateScale"
  | .setObjectiveFunction .. => "setObjectiveFunction"
  | .setStateSpaceFunction .. => "setStateSpaceFunction"
  | .setOutputFunction .. => "setOutputFunction"
  | .setIneqConFunction .. => "setIneqConFunction"
  | .setEqConFunction .. => "setEqConFunction"
  | .setStateBounds .. => "setStateBounds"
  | .setInputBounds .. => "setInputBounds"
  | .setOutputBounds .. => "setOutputBounds"
  | .setStateBoundsSlice .. => "setStateBounds"
  | .setInputBoundsSlice .. => "setInputBounds"
  | .setOutputBoundsSlice .. => "setOutputBounds"
  | .optimize .. => "optimize"

/-- `args` are the arguments of the C++ call of the nonlinear controller, as Python objects. -/
def WrittenN {d : Dims} : NlCall d K → List (PyVal K) → Prop
  | .setDiscretizationSamplingTime t, args => args = [num (.fin t)]
  | .setOptimizerParameters _, _ => False
  | .setInputScale v, args => args = [nums1 v]
  | .setStateScale v, args => args = [nums1 v]
  | .setObjectiveFunction F _, args => ∃ f, ComputesObj d f F ∧ args = [.func f]
  | .setStateSpaceFunction F tol _, args => ∃ f, ComputesState d f F ∧ args = [.func f, num (.fin tol)]
  | .setOutputFunction G, args => ∃ f F, ComputesOut d f F ∧ G = (fun _ => F) ∧ args = [.func f]
  | .setIneqConFunction F tol _, args => ∃ f, ComputesIneq d f F ∧ args = [.func f, num (.fin tol)]
  | .setEqConFunction F tol _, args => ∃ f, ComputesEq d f F ∧ args = [.func f, num (.fin tol)]
  | .setStateBounds a b, args => args = [np2 a, np2 b]
  | .setStateBoundsSlice a b s, args => args = [np1 a, np1 b, slc s]
  | .setInputBounds a b, args => args = [np2 a, np2 b]
  | .setInputBoundsSlice a b s, args => args = [np1 a, np1 b, slc s]
  | .setOutputBounds a b, args => args = [np2 a, np2 b]
  | .setOutputBoundsSlice a b s, args => args = [np1 a, np1 b, slc s]
  | .optimize x u _ _ _, args => args = [nums1 x, nums1 u]

/-- `cs` are the arguments of a C++ call of the nonlinear controller, in their order. -/
def ArgsN {d : Dims} : NlCall d K → List (CVal K) → Prop
  | .setDiscretizationSamplingTime t, cs => ∃ t', cs = [.dbl t'] ∧ ∀ x, t' = .fin x → t = x
  | .setOptimizerParameters _, _ => False
  | .setInputScale v, cs => ∃ v', cs = [.vec v'] ∧ SameVec v v'
  | .setStateScale v, cs => ∃ v', cs = [.vec v'] ∧ SameVec v v'
  | .setObjectiveFunction F _, cs => ∃ f, cs = [.func f] ∧ ∀ F', ComputesObj d f F' → F = F'
  | .setStateSpaceFunction F tol _, cs =>
    ∃ f t, cs = [.func f, .dbl t] ∧ (∀ F', ComputesState d f F' → F = F') ∧ ∀ x, t = .fin x → tol = x
  | .setOutputFunction G, cs => ∃ f, cs = [.func f] ∧ ∀ F', ComputesOut d f F' → G = fun _ => F'
  | .setIneqConFunction F tol _, cs =>
    ∃ f t, cs = [.func f, .dbl t] ∧ (∀ F', ComputesIneq d f F' → F = F') ∧ ∀ x, t = .fin x → tol = x
  | .setEqConFunction F tol _, cs =>
    ∃ f t, cs = [.func f, .dbl t] ∧ (∀ F', ComputesEq d f F' → F = F') ∧ ∀ x, t = .fin x → tol = x
  | .setStateBounds a b, cs => cs = [.mat a, .mat b]
  | .setStateBoundsSlice a b s, cs => cs = [.vec a, .vec b, .slice s]
  | .setInputBounds a b, cs => cs = [.mat a, .mat b]
  | .setInputBoundsSlice a b s, cs => cs = [.vec a, .vec b, .slice s]
  | .setOutputBounds a b, cs => cs = [.mat a, .mat b]
  | .setOutputBoundsSlice a b s, cs => cs = [.vec a, .vec b, .slice s]
  | .optimize x u _ _ _, cs => ∃ x' u', cs = [.vec x', .vec u'] ∧ SameVec x x' ∧ SameVec u u'

/-- The call has the arguments `args`, as far as Python objects can be converted. -/
def GivenN {d : Dims} (op : NlCall d K) (args : List (PyVal K)) : Prop := ∃ cs, List.Forall₂ Stands cs args ∧ ArgsN op cs

/-- what happens outside of the library during a call of the nonlinear controller -/
def NloptDoes {d : Dims} : NlCall d K → NlSurroundings K → Prop
  | .setObjectiveFunction _ acc, w => w.accepted = acc
  | .setStateSpaceFunction _ _ acc, w => w.accepted = acc
  | .setIneqConFunction _ _ acc, w => w.accepted = acc
  | .setEqConFunction _ _ acc, w => w.accepted = acc
  | .optimize _ _ cs out junk, w => w.callbacks = cs ∧ w.outcome = out ∧ w.junk = junk
  | _, _ => True

end Mpc.Spec
