import Verif.Model.LOptimizer

/-
Model of the front end /repo/include/mpc/LMPC.hpp and of the slice checks of /repo/include/mpc/IMPC.hpp
as a state machine over API calls.
-/
namespace Mpc
open Exec

/-- `int` addition; overflow is undefined behaviour. -/
def addInt (a b : Int) : Exec Int := do
  require (-2 ^ 31 ≤ a + b ∧ a + b < 2 ^ 31) .signedOverflow
  return a + b

/-- `isSliceUnset` (IMPC.hpp:244-247) -/
def isSliceUnset (s : HorizonSlice) : Bool := s.start = -1 && s.stop = -1

/-- `isPredictionHorizonSliceValid` and `isControlHorizonSliceValid` (IMPC.hpp:256-283), for horizon `h`. -/
def isSliceValid (h : Nat) (s : HorizonSlice) : Exec Bool := do
  if s.start ≥ s.stop ∨ s.start > (h : Int) ∨ s.stop > (h : Int) then return false
  else
    let t ← addInt s.start s.stop
    if t > (h : Int) then return false else return true

/-- The loop `for (size_t i = (size_t)slice.start; i < (size_t)slice.end; i++) ret = ret && f(i, ...)`
(e.g. LMPC.hpp:178-184). -/
def sliceLoop {σ : Type} (sl : HorizonSlice) (s : σ) (f : Nat → σ → Exec (σ × Bool)) : Exec (σ × Bool) :=
  forFrom (toSizeT sl.start) (toSizeT sl.stop - toSizeT sl.start) (s, true) fun i (s, ret) =>
    if ret then f i s else .ok (s, false)

/-- The local matrix filled column by column with one vector (e.g. LMPC.hpp:158-167). -/
def replicateCols {α : Type} (rows cols : Nat) (uninit : Nat → Nat → α) (v : Vec α) : Exec (Mat α) :=
  forRange cols ⟨rows, cols, uninit⟩ fun i m => m.setCol i v

/-- `Min.row(i) << min` for each row (LMPC.hpp:369-373). -/
def replicateVec {α : Type} (n : Nat) (uninit : Nat → α) (a : α) : Exec (Vec α) :=
  forRange n ⟨n, uninit⟩ fun i v => v.set i a

/-- An `LMPC` object: dimensions, problem builder and optimizer (LMPC.hpp:752, IMPC.hpp:292). -/
structure LMpc (K : Type) [Zero K] [One K] [Div K] [NatCast K] where
  d : Dims
  b : Builder K
  o : LOpt K

/-- The API calls of `LMPC`. -/
inductive LOp (K : Type) [Zero K] [One K] [Div K] [NatCast K] where
  | setStateSpaceModel (A B C : Mat K)
  | setDisturbances (Bd Dd : Mat K)
  | setObjectiveWeights (OW UW DW : Mat K)
  | setObjectiveWeightsSlice (OW UW DW : Vec K) (slice : HorizonSlice)
  | setStateBounds (mn mx : Mat (Ext K))
  | setStateBoundsSlice (mn mx : Vec (Ext K)) (slice : HorizonSlice)
  | setInputBounds (mn mx : Mat (Ext K))
  | setInputBoundsSlice (mn mx : Vec (Ext K)) (slice : HorizonSlice)
  | setOutputBounds (mn mx : Mat (Ext K))
  | setOutputBoundsSlice (mn mx : Vec (Ext K)) (slice : HorizonSlice)
  | setScalarConstraintSlice (mn mx : Ext K) (X U : Vec K) (slice : HorizonSlice)
  | setScalarConstraintAt (index : Nat) (mn mx : Ext K) (X U : Vec K)
  | setExogenousInputs (M : Mat K)
  | setExogenousInputsSlice (v : Vec K) (slice : HorizonSlice)
  | setReferences (Y U D : Mat K)
  | setReferencesSlice (y u du : Vec K) (slice : HorizonSlice)
  | setOptimizerParameters (p : AnyParams K)
  | setSolverWarmStart (x y : Vec K)
  | setDiscretizationSamplingTime (ts : K)
  | setInputScale (s : Vec K)
  | setStateScale (s : Vec K)
  | optimize (x0 u0 : Vec K) (oc : OsqpOutcome K)

/-- What a call returns (or that it threw); for `optimize` also what OSQP was given. -/
inductive LOut (K : Type) where
  | bool (r : Bool)
  | unit
  | threw
  | result (r : LResult K) (call : OsqpCall K)

namespace LMpc
variable {K : Type} [Zero K] [One K] [Add K] [Mul K] [Neg K] [Div K] [NatCast K]

/-- junk of a local matrix of bounds -/
def junkE (m : LMpc K) : Nat → Nat → Ext K := fun i j => .fin (m.b.uninit i j)

/-- run a builder operation -/
def onBuilder (m : LMpc K) (f : Builder K → Exec (Builder K × Bool)) : Exec (LMpc K × LOut K) := do
  let (b, r) ← f m.b
  return ({ m with b := b }, .bool r)

/-- run an optimizer operation -/
def onOptimizer (m : LMpc K) (f : LOpt K → Exec (LOpt K × Bool)) : Exec (LMpc K × LOut K) := do
  let (o, r) ← f m.o
  return ({ m with o := o }, .bool r)

/-- `setObjectiveWeights` on a slice (LMPC.hpp:436-481) -/
def setObjectiveWeightsSlice (m : LMpc K) (OW UW DW : Vec K) (sl : HorizonSlice) : Exec (LMpc K × LOut K) := do
  let d := m.d
  if isSliceUnset sl then
    let OM ← replicateCols d.ny d.ph m.b.uninit OW
    let UM ← replicateCols d.nu d.ph m.b.uninit UW
    let DM ← replicateCols d.nu d.ph m.b.uninit DW
    m.onBuilder fun b => b.setObjective OM UM DM
  else
    let v ← isSliceValid d.ph sl
    if v then m.onBuilder fun b => sliceLoop sl b fun i b => b.setObjectiveAt (toUnsigned i) OW UW DW
    else return (m, .bool false)

/-- `setStateBounds` on a slice (LMPC.hpp:153-193) -/
def setStateBoundsSlice (m : LMpc K) (mn mx : Vec (Ext K)) (sl : HorizonSlice) : Exec (LMpc K × LOut K) := do
  let d := m.d
  if isSliceUnset sl then
    let a ← replicateCols d.nx d.ph m.junkE mn
    let c ← replicateCols d.nx d.ph m.junkE mx
    m.onBuilder fun b => b.setStateBounds a c
  else
    let v ← isSliceValid d.ph sl
    if v then m.onBuilder fun b => sliceLoop sl b fun i b => b.setStateBoundsAt (toUnsigned i) mn mx
    else return (m, .bool false)

/-- `setInputBounds` on a slice (LMPC.hpp:207-247), checked against the control horizon -/
def setInputBoundsSlice (m : LMpc K) (mn mx : Vec (Ext K)) (sl : HorizonSlice) : Exec (LMpc K × LOut K) := do
  let d := m.d
  if isSliceUnset sl then
    let a ← replicateCols d.nu d.ch m.junkE mn
    let c ← replicateCols d.nu d.ch m.junkE mx
    m.onBuilder fun b => b.setInputBounds a c
  else
    let v ← isSliceValid d.ch sl
    if v then m.onBuilder fun b => sliceLoop sl b fun i b => b.setInputBoundsAt (toUnsigned i) mn mx
    else return (m, .bool false)

/-- `setOutputBounds` on a slice (LMPC.hpp:252-292) -/
def setOutputBoundsSlice (m : LMpc K) (mn mx : Vec (Ext K)) (sl : HorizonSlice) : Exec (LMpc K × LOut K) := do
  let d := m.d
  if isSliceUnset sl then
    let a ← replicateCols d.ny d.ph m.junkE mn
    let c ← replicateCols d.ny d.ph m.junkE mx
    m.onBuilder fun b => b.setOutputBounds a c
  else
    let v ← isSliceValid d.ph sl
    if v then m.onBuilder fun b => sliceLoop sl b fun i b => b.setOutputBoundsAt (toUnsigned i) mn mx
    else return (m, .bool false)

/-- `setScalarConstraint` on a slice (LMPC.hpp:355-396) -/
def setScalarConstraintSlice (m : LMpc K) (mn mx : Ext K) (X U : Vec K) (sl : HorizonSlice) :
    Exec (LMpc K × LOut K) := do
  let d := m.d
  if isSliceUnset sl then
    let a ← replicateVec d.ph (fun i => m.junkE i 0) mn
    let c ← replicateVec d.ph (fun i => m.junkE i 0) mx
    m.onBuilder fun b => b.setScalarConstraint a c X U
  else
    let v ← isSliceValid d.ph sl
    if v then m.onBuilder fun b => sliceLoop sl b fun i b => b.setScalarConstraintAt (toUnsigned i) mn mx X U
    else return (m, .bool false)

/-- `setScalarConstraint` on one step (LMPC.hpp:409-422) -/
def setScalarConstraintAt (m : LMpc K) (index : Nat) (mn mx : Ext K) (X U : Vec K) :
    Exec (LMpc K × LOut K) := do
  if index ≥ m.d.ph then return (m, .bool false)
  else m.onBuilder fun b => b.setScalarConstraintAt index mn mx X U

/-- `setExogenousInputs` on a slice (LMPC.hpp:550-585), checked against the *control* horizon -/
def setExogenousInputsSlice (m : LMpc K) (v : Vec K) (sl : HorizonSlice) : Exec (LMpc K × LOut K) := do
  let d := m.d
  if isSliceUnset sl then
    let M ← replicateCols d.ndu d.ph m.b.uninit v
    m.onOptimizer fun o => .ok (o.setExogenousInputs M)
  else
    let ok ← isSliceValid d.ch sl
    if ok then m.onOptimizer fun o => sliceLoop sl o fun i o => o.setExogenousInputsAt (toUnsigned i) v
    else return (m, .bool false)

/-- `setReferences` on a slice (LMPC.hpp:616-660) -/
def setReferencesSlice (m : LMpc K) (y u du : Vec K) (sl : HorizonSlice) : Exec (LMpc K × LOut K) := do
  let d := m.d
  if isSliceUnset sl then
    let Y ← replicateCols d.ny d.ph m.b.uninit y
    let U ← replicateCols d.nu d.ph m.b.uninit u
    let D ← replicateCols d.nu d.ph m.b.uninit du
    m.onOptimizer fun o => .ok (o.setReferences Y U D)
  else
    let ok ← isSliceValid d.ph sl
    if ok then m.onOptimizer fun o => sliceLoop sl o fun i o => o.setReferencesAt (toUnsigned i) y u du
    else return (m, .bool false)

/-- One API call. The setters not listed above are one-line forwards (LMPC.hpp:111-141, 306-313, 493-538,
596-602, 715-722); the three unsupported ones throw (LMPC.hpp:68-101); `optimize` is IMPC.hpp:149-166 (the
profiler is modelled in Profiler.lean). -/
def step [DecidableEq K] (m : LMpc K) : LOp K → Exec (LMpc K × LOut K)
  | .setStateSpaceModel A B C => m.onBuilder fun b => b.setStateModel A B C
  | .setDisturbances Bd Dd => m.onBuilder fun b => b.setExogenousInput Bd Dd
  | .setObjectiveWeights OW UW DW => m.onBuilder fun b => b.setObjective OW UW DW
  | .setObjectiveWeightsSlice OW UW DW sl => m.setObjectiveWeightsSlice OW UW DW sl
  | .setStateBounds mn mx => m.onBuilder fun b => b.setStateBounds mn mx
  | .setStateBoundsSlice mn mx sl => m.setStateBoundsSlice mn mx sl
  | .setInputBounds mn mx => m.onBuilder fun b => b.setInputBounds mn mx
  | .setInputBoundsSlice mn mx sl => m.setInputBoundsSlice mn mx sl
  | .setOutputBounds mn mx => m.onBuilder fun b => b.setOutputBounds mn mx
  | .setOutputBoundsSlice mn mx sl => m.setOutputBoundsSlice mn mx sl
  | .setScalarConstraintSlice mn mx X U sl => m.setScalarConstraintSlice mn mx X U sl
  | .setScalarConstraintAt i mn mx X U => m.setScalarConstraintAt i mn mx X U
  | .setExogenousInputs M => m.onOptimizer fun o => .ok (o.setExogenousInputs M)
  | .setExogenousInputsSlice v sl => m.setExogenousInputsSlice v sl
  | .setReferences Y U D => m.onOptimizer fun o => .ok (o.setReferences Y U D)
  | .setReferencesSlice y u du sl => m.setReferencesSlice y u du sl
  | .setOptimizerParameters p => do
    let o ← m.o.setParameters p
    return ({ m with o := o }, .unit)
  | .setSolverWarmStart x y => .ok ({ m with o := { m.o with prevX := x, prevY := y } }, .unit)
  | .setDiscretizationSamplingTime _ => .ok (m, .threw)
  | .setInputScale _ => .ok (m, .threw)
  | .setStateScale _ => .ok (m, .threw)
  | .optimize x0 u0 oc => do
    let (o, b, call) ← m.o.run m.b x0 u0 oc
    return ({ m with o := o, b := b }, .result o.result call)

/-- `getLastResult` (IMPC.hpp:173-176) -/
def getLastResult (m : LMpc K) : LResult K := m.o.result

/-- `getOptimalSequence` (IMPC.hpp:183-186): states, inputs, outputs -/
def getOptimalSequence (m : LMpc K) : Mat K × Mat K × Mat K := (m.o.seqState, m.o.seqInput, m.o.seqOutput)

/-- `getSolverWarmStartPrimal` (LMPC.hpp:677-680) -/
def getSolverWarmStartPrimal (m : LMpc K) : Vec K := m.o.prevX

/-- `getSolverWarmStartDual` (LMPC.hpp:697-700) -/
def getSolverWarmStartDual (m : LMpc K) : Vec K := m.o.prevY

/-- Construction (LMPC.hpp:51-61 and `onSetup`, LMPC.hpp:728-735). -/
def new (d : Dims) (uninit : Nat → Nat → K) (junk : Nat → Nat) : Exec (LMpc K) := do
  let b ← Builder.onInit d uninit
  return ⟨d, b, LOpt.onInit d junk⟩

/-- A history of API calls, oldest first, with everything the calls returned. -/
def exec [DecidableEq K] (m : LMpc K) : List (LOp K) → Exec (LMpc K × List (LOut K))
  | [] => .ok (m, [])
  | op :: ops => do
    let (m, out) ← m.step op
    let (m, outs) ← exec m ops
    return (m, out :: outs)

end LMpc
end Mpc
