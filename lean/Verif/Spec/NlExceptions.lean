import Verif.Model.Throwing
import Verif.Spec.NlApi

/-
Specification: what a caller can observe of the nonlinear controller, and what of a history decides it when user functions
may throw.
-/
namespace Mpc.NlSpec
variable {d : Dims} {K : Type}

/-- equal sizes and entries -/
def SameVec {α : Type} (v w : Vec α) : Prop := v.size = w.size ∧ ∀ i, i < v.size → v.get i = w.get i

/-- equal sizes and entries -/
def SameMat {α : Type} (A B : Mat α) : Prop :=
  A.rows = B.rows ∧ A.cols = B.cols ∧ ∀ i j, i < A.rows → j < A.cols → A.get i j = B.get i j

/-- the same result -/
structure SameResult (r s : LResult K) : Prop where
  code : r.solver_status = s.solver_status
  feasible : r.is_feasible = s.is_feasible
  cost : r.cost = s.cost
  status : r.status = s.status
  cmd : SameVec r.cmd s.cmd

/-- the solver is given the same problem settings and the same initial point -/
structure SameTask (p q : NlSolverCall K) : Prop where
  guess : SameVec p.guess q.guess
  lb : SameVec p.lb q.lb
  ub : SameVec p.ub q.ub
  limits : p.limits = q.limits
  objective : p.objective = q.objective
  groups : p.groups = q.groups

/-- two calls return the same, with the solver given the same -/
def SameOut : NlOut K → NlOut K → Prop
  | .bool a, .bool b => a = b
  | .unit, .unit => True
  | .threw, .threw => True
  | .result r p, .result s q => SameResult r s ∧ SameTask p q
  | _, _ => False

/-- `getLastResult` and `getOptimalSequence` return the same -/
structure SameReport (o p : NlOpt K) : Prop where
  result : SameResult o.result p.result
  states : SameMat o.seqState p.seqState
  inputs : SameMat o.seqInput p.seqInput
  outputs : SameMat o.seqOutput p.seqOutput

/-- the solver reads the same after a callback -/
def SameReply : Option (NlReply K) → Option (NlReply K) → Prop
  | none, none => True
  | some (.obj v g), some (.obj w h) => v = w ∧ SameVec g h
  | some (.con b), some (.con c) => SameVec b.value c.value ∧
      match b.grad, c.grad with
      | none, none => True
      | some g, some h => SameVec g h
      | _, _ => False
  | _, _ => False

variable [Field K]

/-- the callbacks have decision vectors of the right size -/
def VisitFits (d : Dims) : NlVisit K → Prop
  | .returns c => CallbackFits d c
  | .throws _ => True

/-- arguments have the sizes their parameter types prescribe, and NLopt returns a vector of the size it was given -/
def TCallFits (d : Dims) : NlTCall d K → Prop
  | .call op => CallFits d op
  | .optimize x0 u0 vs e _ => x0.size = d.nx ∧ u0.size = d.nu ∧ (∀ v ∈ vs, VisitFits d v) ∧
      match e with
      | .solverThrows => True
      | .checkThrows z _ | .outputThrows z | .returns z _ _ => z.size = d.ph * d.nx + d.nu * d.ch + 1

/-- no contents in particular -/
def noWork : NlWork K :=
  ⟨fun _ _ => 0, fun _ _ => 0, 0, fun _ _ => 0, fun _ _ => 0, 0, fun _ _ => 0, fun _ _ => 0, 0, fun _ => 0, fun _ _ => 0,
    fun _ => 0, fun _ _ => 0, fun _ => 0, fun _ _ => 0⟩

/-- What decides the further course: the call, its arguments and how the solver ended. Forgotten are which callbacks the
solver made, which of them threw, what they left behind, and the contents of uninitialised memory. -/
def course : NlTCall d K → NlTCall d K
  | .call (.optimize x0 u0 _ .threw _) => .optimize x0 u0 [] .solverThrows fun _ => 0
  | .call (.optimize x0 u0 _ (.answered z _ _ true) _) => .optimize x0 u0 [] (.checkThrows z noWork) fun _ => 0
  | .call (.optimize x0 u0 _ (.answered z value code false) _) => .optimize x0 u0 [] (.returns z value code) fun _ => 0
  | .call op => .call op
  | .optimize x0 u0 _ .solverThrows _ => .optimize x0 u0 [] .solverThrows fun _ => 0
  | .optimize x0 u0 _ (.checkThrows z _) _ => .optimize x0 u0 [] (.checkThrows z noWork) fun _ => 0
  | .optimize x0 u0 _ (.outputThrows z) _ => .optimize x0 u0 [] (.outputThrows z) fun _ => 0
  | .optimize x0 u0 _ (.returns z value code) _ => .optimize x0 u0 [] (.returns z value code) fun _ => 0

/-- the setters among the calls -/
def settings (ops : List (NlTCall d K)) : List (NlCall d K) :=
  ops.filterMap fun
    | .call op => some op
    | .optimize _ _ _ _ _ => none

/-- the call as one in which no user function throws: the solver fails, or the check of its answer does -/
def ordinary : NlTCall d K → NlCall d K
  | .call op => op
  | .optimize x0 u0 _ .solverThrows j => .optimize x0 u0 [] .threw j
  | .optimize x0 u0 _ (.checkThrows z _) j => .optimize x0 u0 [] (.answered z (.fin 0) 0 true) j
  | .optimize x0 u0 _ (.outputThrows z) j => .optimize x0 u0 [] (.answered z (.fin 0) 0 false) j
  | .optimize x0 u0 _ (.returns z value code) j => .optimize x0 u0 [] (.answered z value code false) j

/-- an exception leaves the call -/
def escapes : NlTCall d K → Bool
  | .optimize _ _ _ (.outputThrows _) _ => true
  | _ => false

/-- well-formed use, as `Admissible` -/
def TAdmissible (d : Dims) (dynamic : Bool) : NlTCall d K → Prop
  | .call op => Admissible d dynamic [] op
  | .optimize _ _ _ _ _ => True

end Mpc.NlSpec
