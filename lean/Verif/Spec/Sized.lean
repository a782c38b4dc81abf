import Verif.Model.Sized

/-
User functions with results of any length: what the properties say, in terms of the calls made.
-/
namespace Mpc.SizedSpec
variable {d : Dims} {K : Type} [Field K]

/-- The two calls are the same, the user function of the first returning the list of the entries which the one of the second
fills in. -/
def Same : SizedCall d K → NlCall d K → Prop
  | .setStateSpaceFunction f tol acc, c => ∃ F, (∀ x u k, f x u k = List.ofFn (F x u k)) ∧ c = .setStateSpaceFunction F tol acc
  | .setOutputFunction f, c => ∃ F : FVec d.nx K → FVec d.nu K → Nat → FVec d.ny K,
      (∀ x u k, f x u k = List.ofFn (F x u k)) ∧ c = .setOutputFunction fun _ => F
  | .setIneqConFunction f tol acc, c =>
    ∃ F, (∀ x y u e, f x y u e = List.ofFn (F x y u e)) ∧ c = .setIneqConFunction F tol acc
  | .optimize x0 u0 cs out junk, c => c = .optimize x0 u0 cs out junk
  | .other c _, c' => c' = c

/-- the inequality function after the calls: the one given last -/
def ineqFn (ops : List (SizedCall d K)) :
    Option (Traj (d.ph + 1) d.nx K → Traj (d.ph + 1) d.ny K → Traj (d.ph + 1) d.nu K → K → List K) :=
  ops.reverse.findSome? fun | .setIneqConFunction f _ _ => some f | _ => none

/-- the state function after the calls -/
def stateFn (ops : List (SizedCall d K)) : Option (FVec d.nx K → FVec d.nu K → Nat → List K) :=
  ops.reverse.findSome? fun | .setStateSpaceFunction f _ _ => some f | _ => none

/-- the output function after the calls -/
def outputFn (ops : List (SizedCall d K)) : Option (FVec d.nx K → FVec d.nu K → Nat → List K) :=
  ops.reverse.findSome? fun | .setOutputFunction f => some f | _ => none

/-- the constraints which the solver accepted, in the order in which they were given -/
def constraints (ops : List (SizedCall d K)) : List NlGroupKind :=
  ops.filterMap fun
    | .setStateSpaceFunction _ _ true => some .dynamics
    | .setIneqConFunction _ _ true => some .userIneq
    | _ => none

/-- an objective was given and the solver accepted it -/
def hasObjective (ops : List (SizedCall d K)) : Bool :=
  ops.any fun | .other (.setObjectiveFunction _ true) _ => true | _ => false

/-- The solver asks for the values of the constraints of kind `k`. -/
def AsksFor (ops : List (SizedCall d K)) (cs : List (NlCallback K)) (k : NlGroupKind) : Prop :=
  ∃ i z g junk, NlCallback.con i z g junk ∈ cs ∧ (constraints ops)[i]? = some k

/-- The solver asks for the value of the objective. -/
def AsksObjective (ops : List (SizedCall d K)) (cs : List (NlCallback K)) : Prop :=
  ∃ z g junk, NlCallback.obj z g junk ∈ cs ∧ hasObjective ops = true

/-- Every length that function returns is wrong. -/
def WrongState (d : Dims) (f : FVec d.nx K → FVec d.nu K → Nat → List K) : Prop := ∀ x u k, (f x u k).length ≠ d.nx
/-- see `WrongState` -/
def WrongOutput (d : Dims) (f : FVec d.nx K → FVec d.nu K → Nat → List K) : Prop := ∀ x u k, (f x u k).length ≠ d.ny
/-- see `WrongState` -/
def WrongIneq (d : Dims)
    (f : Traj (d.ph + 1) d.nx K → Traj (d.ph + 1) d.ny K → Traj (d.ph + 1) d.nu K → K → List K) : Prop :=
  ∀ x y u e, (f x y u e).length ≠ d.ineq

/-- After the calls, `optimize` has to evaluate a function whose results have the wrong length: the solver asks for a
constraint or an objective which needs it, or it returns a solution, whose outputs are to be reported. -/
def Needs (d : Dims) (ops : List (SizedCall d K)) (cs : List (NlCallback K)) (out : NlOutcome K) : Prop :=
  (∃ f, ineqFn ops = some f ∧ WrongIneq d f ∧ AsksFor ops cs .userIneq) ∨
  (∃ f, stateFn ops = some f ∧ WrongState d f ∧ AsksFor ops cs .dynamics) ∨
  (∃ f, outputFn ops = some f ∧ WrongOutput d f ∧
    (AsksObjective ops cs ∨ (∃ g, ineqFn ops = some g ∧ AsksFor ops cs .userIneq) ∨
      ∃ z v c, out = .answered z v c false))

end Mpc.SizedSpec
