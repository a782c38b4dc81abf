import Verif.Basic.Exec
import Verif.Model.Types

/-
Model of /repo/include/mpc/IDimensionable.hpp and /repo/include/mpc/IComponent.hpp, and of which public operations of the
components (Mapping, Model, Base, Objective, Constraints, NLOptimizer, LOptimizer, ProblemBuilder) check that the component
was initialised. The body of an operation is abstracted to the dimensions it reads. Log output is omitted.
-/
namespace Mpc
open Exec

/-- Arguments of `initialize` / `setDimension` (IDimensionable.hpp:52-54), `int`s. -/
structure DimArgs where
  nx : Int
  nu : Int
  ndu : Int
  ny : Int
  ph : Int
  ch : Int
  ineq : Int
  eq : Int

/-- the assertion of `setDimension` (IDimensionable.hpp:56) -/
def DimArgs.Asserted (a : DimArgs) : Prop :=
  a.nx ≥ 0 ∧ a.nu ≥ 0 ∧ a.ndu ≥ 0 ∧ a.ny ≥ 0 ∧ a.ph > 0 ∧ a.ch > 0 ∧ a.ineq ≥ 0 ∧ a.eq ≥ 0

instance (a : DimArgs) : Decidable a.Asserted := by unfold DimArgs.Asserted; infer_instance

/-- the stored `size_t` members (IDimensionable.hpp:58-65) -/
def DimArgs.stored (a : DimArgs) : Dims where
  nx := toSizeT a.nx
  nu := toSizeT a.nu
  ndu := toSizeT a.ndu
  ny := toSizeT a.ny
  ph := toSizeT a.ph
  ch := toSizeT a.ch
  ineq := toSizeT a.ineq
  eq := toSizeT a.eq

/-- State of a component: `isInitialized` (IComponent.hpp:82) and the dimension members (IDimensionable.hpp:152-159), which
are not initialised by the constructor (`none`). -/
structure Comp where
  initialized : Bool
  dims : Option Dims

/-- Public operations of the components: methods and the two checking destructors. -/
inductive CompOp where
  -- Mapping.hpp
  | mapSetInputScaling | mapSetStateScaling | mapIz2u | mapIu2z | mapSz2u | mapSu2z | mapStateScaling
  | mapStateInverseScaling | mapInputScaling | mapUnwrapVector
  -- Model.hpp
  | modHasOutputModel | modGetOutput | modSetContinuous | modSetStateModel | modSetOutputModel
  -- Base.hpp (inherited by Objective and Constraints)
  | baseSetModel | baseSetCurrentState
  -- Objective.hpp
  | objSetObjective | objEvaluate
  -- Constraints.hpp
  | conHasIneq | conHasEq | conSetIneq | conSetEq | conIsFeasible | conEvaluateIneq | conEvaluateStateModelEq | conEvaluateEq
  -- NLOptimizer.hpp
  | nlDestroy | nlSetModel | nlSetCostAndConstraints | nlSetParameters | nlBindObjective | nlBindEq | nlBindUserIneq
  | nlBindUserEq | nlSetStateBounds | nlSetInputBounds | nlRun | nlGetLowerBound | nlGetUpperBound
  -- LOptimizer.hpp
  | lDestroy | lSetBuilder | lSetParameters | lSetReferences | lSetReferencesAt | lSetExogenousInputs | lSetExogenousInputsAt
  | lRun
  -- ProblemBuilder.hpp
  | pbSetStateModel | pbSetExogenousInput | pbSetObjective | pbSetObjectiveAt | pbSetScalarConstraintAt | pbSetScalarConstraint
  | pbSetStateBounds | pbSetInputBounds | pbSetOutputBounds | pbSetStateBoundsAt | pbSetInputBoundsAt | pbSetOutputBoundsAt
  | pbMapToOutput | pbGet
  deriving DecidableEq, Repr

/-- The operation begins with `checkOrQuit()`. Mapping.hpp:71, 82 (no), 95-181 (yes); Model.hpp:61, 76, 123, 137 (yes), 106
(no); Base.hpp:52, 63 (no); Objective.hpp:78, 93; Constraints.hpp:90-369; NLOptimizer.hpp:53-413 (yes), 615, 625 (no);
LOptimizer.hpp:50, 91, 102, 193 (yes), 119, 141, 161, 175 (no); ProblemBuilder.hpp:188-489 (yes), 514, 528 (no). -/
def CompOp.guarded : CompOp → Bool
  | .mapSetInputScaling | .mapSetStateScaling => false
  | .modSetContinuous => false
  | .baseSetModel | .baseSetCurrentState => false
  | .nlGetLowerBound | .nlGetUpperBound => false
  | .lSetReferences | .lSetReferencesAt | .lSetExogenousInputs | .lSetExogenousInputsAt => false
  | .pbMapToOutput | .pbGet => false
  | _ => true

/-- The operation (or a function it calls on the same object) reads the dimension members, or an Eigen member which `onInit`
sizes by them and the operation indexes: Mapping.hpp:225-261 (`computeMapping`), 174-215; Model.hpp:72-95;
Objective.hpp:89-175; Constraints.hpp:145-448; NLOptimizer.hpp:126-192, 228-333 (no: sizes come from the arguments), 343-401,
409-608; LOptimizer.hpp:141, 175 (columns of members), 193-372; ProblemBuilder.hpp:184-630. The accessors
Mapping.hpp:93-165 and NLOptimizer.hpp:615-628 return such members whole. -/
def CompOp.needsDims : CompOp → Bool
  | .mapSetStateScaling | .modHasOutputModel | .modSetContinuous | .modSetStateModel | .modSetOutputModel => false
  | .baseSetModel | .baseSetCurrentState => false
  | .objSetObjective | .conHasIneq | .conHasEq | .conSetIneq | .conSetEq => false
  | .nlDestroy | .nlSetModel | .nlSetCostAndConstraints | .nlBindObjective | .nlBindEq | .nlBindUserIneq | .nlBindUserEq => false
  | .lDestroy | .lSetBuilder | .lSetParameters | .lSetReferences | .lSetExogenousInputs => false
  | _ => true

/-- What can happen to a component from outside. -/
inductive CompEvent where
  /-- `initialize` (IComponent.hpp:46-52) -/
  | init (a : DimArgs)
  /-- the hook `onInit`, public in the components (e.g. Mapping.hpp:48) -/
  | onInit
  | op (o : CompOp)

/-- What an event did: nothing with dimensions, or it computed with the dimension members as they are (`none`: never set). -/
inductive CompOut where
  | done
  | computed (with_ : Option Dims)

namespace Comp

/-- construction (IComponent.hpp:30-33, IDimensionable.hpp:29-31) -/
def new : Comp := ⟨false, none⟩

/-- `checkOrQuit` (IComponent.hpp:71-78) -/
def checkOrQuit (c : Comp) : Exec Unit := if c.initialized then .ok () else .error .exitCall

/-- `initialize` with `setDimension` (IComponent.hpp:46-52, IDimensionable.hpp:52-68) -/
def initialise (c : Comp) (a : DimArgs) : Exec Comp := do
  let c := { c with initialized := true }
  require a.Asserted .assertion
  return { c with dims := some a.stored }

/-- one event -/
def step (c : Comp) : CompEvent → Exec (Comp × CompOut)
  | .init a => do
    let c ← c.initialise a
    return (c, .computed c.dims)
  | .onInit => .ok (c, .computed c.dims)
  | .op o => do
    if o.guarded then c.checkOrQuit
    return (c, if o.needsDims then .computed c.dims else .done)

/-- a history of events on a new component -/
def run : Comp → List CompEvent → Exec (Comp × List CompOut)
  | c, [] => .ok (c, [])
  | c, e :: l => do
    let r ← c.step e
    let s ← run r.1 l
    return (s.1, r.2 :: s.2)

end Comp
end Mpc
