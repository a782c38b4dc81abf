import Verif.Model.Feasible
import Verif.Model.NlWrappers
import Verif.Model.LMPC

/-
Model of /repo/include/mpc/NLMPC/NLOptimizer.hpp and /repo/include/mpc/NLMPC.hpp (with the parts of IMPC.hpp they use).

NLopt is an oracle: each `optimize` consumes the list of callbacks the solver makes and its outcome (`NlOutcome`); what
the code hands to it is recorded (`NlSolverCall`). Whether NLopt accepts a callback that is bound to it is an oracle as
well. Logging and the messages of results are in Messages.lean. `checkOrQuit` always passes here (components are initialised by
the constructor, see `Verif.Model.Component`). The box handed to NLopt is stored as given (NLopt itself merges bounds
which are closer than its tolerance).
-/
namespace Mpc
open Exec

/-- `NLParameters` including the inherited `Parameters` (Types.hpp:98-139), default values included. -/
structure NlParams (K : Type) [Field K] where
  maximum_iteration : Int := 100
  time_limit : K := 0
  enable_warm_start : Bool := false
  relative_ftol : K := -1
  relative_xtol : K := -1
  absolute_ftol : K := -1
  absolute_xtol : K := -1
  hard_constraints : Bool := true

/-- A `const Parameters &`: its dynamic type may or may not be `NLParameters`. -/
inductive AnyNlParams (K : Type) [Field K] where
  | nonlinear (p : NlParams K)
  | other

/-- stopping criteria held by the NLopt object; a `maxtime` of zero is no limit -/
structure NlLimits (K : Type) where
  ftolRel : K
  xtolRel : K
  ftolAbs : K
  xtolAbs : K
  maxtime : K
  maxeval : Int

/-- one vector-valued constraint added to the solver: callback and tolerances -/
structure NlGroup (K : Type) where
  kind : NlGroupKind
  tol : Vec K

/-- what NLopt is given when `optimize` is called: the members of the `nlopt::opt` object and the initial point -/
structure NlSolverCall (K : Type) where
  guess : Vec K
  lb : Vec (Ext K)
  ub : Vec (Ext K)
  limits : NlLimits K
  /-- an objective has been set -/
  objective : Bool
  groups : List (NlGroup K)

/-- What the solver does on one call. -/
inductive NlOutcome (K : Type) where
  /-- `nlopt::opt::optimize` throws (NLOptimizer.hpp:519-541) -/
  | threw
  /-- it returns a vector, with `last_optimum_value` and `last_optimize_result`; `checkThrows` tells that a user function
  throws when the feasibility of the vector is checked (NLOptimizer.hpp:504) -/
  | answered (z : Vec K) (value : Ext K) (code : Int) (checkThrows : Bool)

/-- A callback made by the solver (NLOptimizer.hpp:714-848): of the objective or of the `i`-th constraint that was added.
`junk` is the former content of the memory the results are copied to and of memory the evaluation does not initialise. -/
inductive NlCallback (K : Type) where
  | obj (z : Vec K) (hasGradient : Bool) (junk : Nat → K)
  | con (i : Nat) (z : Vec K) (hasGradient : Bool) (junk : Nat → K)

/-- what the solver reads after a callback -/
inductive NlReply (K : Type) where
  | obj (value : K) (grad : Vec K)
  | con (b : NlBuffers K)

/-- State of an `NLOptimizer` (NLOptimizer.hpp:850-861) with the inherited members of `IOptimizer` it uses and the
settings of the NLopt object. -/
structure NlOpt (K : Type) where
  lb : Vec (Ext K)
  ub : Vec (Ext K)
  solverLb : Vec (Ext K)
  solverUb : Vec (Ext K)
  limits : NlLimits K
  objective : Bool
  groups : List (NlGroup K)
  optVector : Vec K
  first : Bool
  warm : Bool
  currentSlack : K
  result : LResult K
  seqState : Mat K
  seqInput : Mat K
  seqOutput : Mat K

namespace NlOpt
variable {K : Type} [Field K] [LinearOrder K]

/-- `updateBounds` (NLOptimizer.hpp:634-670) -/
def updateBounds (o : NlOpt K) : NlOpt K := { o with solverLb := o.lb, solverUb := o.ub }

/-- NLOptimizer.hpp:132-146: the settings of the NLopt object; the time limit is set only when it is positive -/
def setLimits (l : NlLimits K) (p : NlParams K) : NlLimits K where
  ftolRel := p.relative_ftol
  xtolRel := p.relative_xtol
  ftolAbs := p.absolute_ftol
  xtolAbs := p.absolute_xtol
  maxtime := if p.time_limit > 0 then p.time_limit else l.maxtime
  maxeval := p.maximum_iteration

/-- NLOptimizer.hpp:179-183 -/
def pinSlack (o : NlOpt K) (d : Dims) (hard : Bool) : Exec (NlOpt K) := do
  if hard then
    let lb ← o.lb.set (d.ph * d.nx + d.nu * d.ch + 1 - 1) (.fin 0)
    let ub ← o.ub.set (d.ph * d.nx + d.nu * d.ch + 1 - 1) (.fin 0)
    return { o with lb := lb, ub := ub }
  else
    return o

/-- `NLOptimizer::setParameters` (NLOptimizer.hpp:126-192): the result of the `dynamic_cast` is dereferenced unchecked -/
def setParameters (o : NlOpt K) (d : Dims) : AnyNlParams K → Exec (NlOpt K)
  | .other => .error .danglingUse
  | .nonlinear p => do
    let o ← pinSlack { o with limits := setLimits o.limits p } d p.hard_constraints
    return updateBounds { o with warm := p.enable_warm_start }

/-- `NLOptimizer::onInit` (NLOptimizer.hpp:62-89); a new NLopt object has zero limits. The bounds are `±inf` of type
`float`, converted to `double`. -/
def init (d : Dims) : Exec (NlOpt K) := do
  let n := d.ph * d.nx + d.nu * d.ch + 1
  let o : NlOpt K :=
    { lb := Vec.const n .negInf, ub := Vec.const n .posInf
      solverLb := Vec.const n .negInf, solverUb := Vec.const n .posInf
      limits := ⟨0, 0, 0, 0, 0, 0⟩, objective := false, groups := []
      optVector := Vec.const n 0, first := true, warm := false, currentSlack := 0
      result := { cost := .fin 0, cmd := Vec.const d.nu 0 }
      seqState := Mat.const (d.ph + 1) d.nx 0
      seqInput := Mat.const (d.ph + 1) d.nu 0
      seqOutput := Mat.const (d.ph + 1) d.ny 0 }
  o.setParameters d (.nonlinear {})

/-- `bindObjective`, `bindEq`, `bindUserIneq`, `bindUserEq` (NLOptimizer.hpp:201-333): a failure of NLopt is reported by
the returned flag -/
def bindObjective (o : NlOpt K) (accepted : Bool) : NlOpt K × Bool :=
  if accepted then ({ o with objective := true }, true) else (o, false)

/-- see `bindObjective`; NLopt appends the constraint to those it has -/
def bindGroup (o : NlOpt K) (g : NlGroup K) (accepted : Bool) : NlOpt K × Bool :=
  if accepted then ({ o with groups := o.groups ++ [g] }, true) else (o, false)

/-- the index `off + i * n + j`, computed with `size_t` (NLOptimizer.hpp:359-360, 393-394) -/
def boundIx (off n i j : Nat) : Nat := (off + (i * n + j)) % 2 ^ 64

/-- the loop `for i in [start, end) for j < n` of NLOptimizer.hpp:355-362, 389-396; `off` is the first decision variable -/
def fillBounds (lo up : Vec (Ext K)) (off n start stop : Nat) (b : Vec (Ext K) × Vec (Ext K)) :
    Exec (Vec (Ext K) × Vec (Ext K)) :=
  forFrom start (stop - start) b fun i b =>
    forRange n b fun j b => do
      let l ← lo.at? j
      let u ← up.at? j
      let x ← b.1.set (boundIx off n i j) l
      let y ← b.2.set (boundIx off n i j) u
      return (x, y)

/-- `slice.start == -1 ? 0 : slice.start` (NLOptimizer.hpp:351, 385), converted to `size_t` -/
def sliceStart (s : HorizonSlice) : Nat := if s.start = -1 then 0 else toSizeT s.start

/-- `slice.end == -1 ? h : slice.end` (NLOptimizer.hpp:352, 386), converted to `size_t` -/
def sliceStop (h : Nat) (s : HorizonSlice) : Nat := if s.stop = -1 then h else toSizeT s.stop

/-- `NLOptimizer::setStateBounds` (NLOptimizer.hpp:343-367) -/
def setStateBounds (o : NlOpt K) (d : Dims) (lo up : Vec (Ext K)) (s : HorizonSlice) : Exec (NlOpt K × Bool) := do
  let b ← fillBounds lo up 0 d.nx (sliceStart s) (sliceStop d.ph s) (o.lb, o.ub)
  return (updateBounds { o with lb := b.1, ub := b.2 }, true)

/-- `NLOptimizer::setInputBounds` (NLOptimizer.hpp:377-401) -/
def setInputBounds (o : NlOpt K) (d : Dims) (lo up : Vec (Ext K)) (s : HorizonSlice) : Exec (NlOpt K × Bool) := do
  let b ← fillBounds lo up (d.ph * d.nx) d.nu (sliceStart s) (sliceStop d.ch s) (o.lb, o.ub)
  return (updateBounds { o with lb := b.1, ub := b.2 }, true)

/-- NLOptimizer.hpp:425-439: the decision vector filled with the measured state and the last input -/
def coldFill (d : Dims) (x0 u0 : Vec K) (v : Vec K) : Exec (Vec K) := do
  let v ← forRange d.ph v fun i v => forRange d.nx v fun j v => do
    let x ← x0.at? j
    v.set (i * d.nx + j) x
  forRange d.ch v fun i v => forRange d.nu v fun j v => do
    let u ← u0.at? j
    v.set (d.ph * d.nx + (i * d.nu + j)) u

/-- `n` blocks of size `s` shifted by one block, the last one repeated: NLOptimizer.hpp:445-458 and 472-485; written
into `dst` from `src` -/
def shiftInto (n s : Nat) (src dst : Vec K) : Exec (Vec K) :=
  forRange n dst fun i dst => forRange s dst fun j dst => do
    if i = n - 1 then
      let a ← src.at? (i * s + j)
      dst.set (i * s + j) a
    else
      let a ← src.at? ((i + 1) * s + j)
      dst.set (i * s + j) a

/-- NLOptimizer.hpp:415-500: the initial point handed to the solver, from the decision vector `v` -/
def shifted (d : Dims) (mp : Mapping K) (junk : Nat → K) (slack : K) (v : Vec K) : Exec (Vec K) := do
  let g := Vec.const (d.ph * d.nx + d.nu * d.ch + 1) (0 : K)
  let g ← shiftInto d.ph d.nx v g
  let zu ← v.seg (d.ph * d.nx) (d.nu * d.ch)
  let tmp ← mp.Iz2u.mulVec zu
  let umv ← shiftInto d.ph d.nu tmp ⟨d.ph * d.nu, junk⟩
  let res ← mp.Iu2z.mulVec umv
  let g ← forRange (d.nu * d.ch) g fun i g => do
    let a ← res.at? i
    g.set (d.ph * d.nx + i) a
  g.set (d.ph * d.nx + d.nu * d.ch + 1 - 1) slack

/-- NLOptimizer.hpp:418-500: new contents of `opt_vector` and the initial point -/
def prepare (o : NlOpt K) (d : Dims) (mp : Mapping K) (junk : Nat → K) (x0 u0 : Vec K) : Exec (Vec K × Vec K) := do
  let v ← if o.first || !o.warm then coldFill d x0 u0 o.optVector else .ok o.optVector
  let g ← shifted d mp junk o.currentSlack v
  return (v, g)

/-- `convertToResultStatus` (NLOptimizer.hpp:683-704) with the codes of `nlopt_result` -/
def convertStatus (c : Int) : ResultStatus :=
  if c = -1 ∨ c = -2 ∨ c = -3 ∨ c = -4 ∨ c = -5 then .ERROR
  else if c = 1 ∨ c = 2 ∨ c = 3 ∨ c = 4 then .SUCCESS
  else if c = 5 ∨ c = 6 then .MAX_ITERATION
  else .UNKNOWN

/-- NLOptimizer.hpp:592-608: result and sequence when no solution was obtained -/
def failed (o : NlOpt K) (d : Dims) : NlOpt K :=
  { o with
    result := { solver_status := -1, is_feasible := false, cost := .posInf, status := .ERROR, cmd := o.result.cmd }
    seqState := Mat.const (d.ph + 1) d.nx 0
    seqInput := Mat.const (d.ph + 1) d.nu 0
    seqOutput := Mat.const (d.ph + 1) d.ny 0 }

end NlOpt

/-- An `NLMPC` object: the evaluation objects and the optimizer (NLMPC.hpp:461-464, IMPC.hpp:292). `dynamic` tells that
the dimensions are given at run time (template arguments `Eigen::Dynamic`). -/
structure NlMpc (d : Dims) (K : Type) where
  s : NlState d K
  o : NlOpt K
  dynamic : Bool

/-- The API calls of `NLMPC`. `accepted` tells whether NLopt accepts the bound callback. `junk` is the contents of
uninitialised locals during the call. -/
inductive NlCall (d : Dims) (K : Type) [Field K] where
  | setDiscretizationSamplingTime (ts : K)
  | setOptimizerParameters (p : AnyNlParams K)
  | setInputScale (v : Vec K)
  | setStateScale (v : Vec K)
  | setObjectiveFunction (f : ObjFn d K) (accepted : Bool)
  | setStateSpaceFunction (F : FVec d.nx K → FVec d.nu K → Nat → FVec d.nx K) (tol : K) (accepted : Bool)
  | setOutputFunction (g : OutFn d K)
  | setIneqConFunction (F : Traj (d.ph + 1) d.nx K → Traj (d.ph + 1) d.ny K → Traj (d.ph + 1) d.nu K → K → FVec d.ineq K)
      (tol : K) (accepted : Bool)
  | setEqConFunction (F : Traj (d.ph + 1) d.nx K → Traj (d.ph + 1) d.nu K → FVec d.eq K) (tol : K) (accepted : Bool)
  | setStateBounds (mn mx : Mat (Ext K))
  | setInputBounds (mn mx : Mat (Ext K))
  | setOutputBounds (mn mx : Mat (Ext K))
  | setStateBoundsSlice (mn mx : Vec (Ext K)) (slice : HorizonSlice)
  | setInputBoundsSlice (mn mx : Vec (Ext K)) (slice : HorizonSlice)
  | setOutputBoundsSlice (mn mx : Vec (Ext K)) (slice : HorizonSlice)
  | optimize (x0 u0 : Vec K) (callbacks : List (NlCallback K)) (out : NlOutcome K) (junk : Nat → K)

/-- What a call returns (or that it threw); for `optimize` also what the solver was given. -/
inductive NlOut (K : Type) where
  | bool (r : Bool)
  | unit
  | threw
  | result (r : LResult K) (call : NlSolverCall K)

namespace NlMpc
variable {d : Dims} {K : Type} [Field K] [LinearOrder K]

/-- construction (NLMPC.hpp:56-70, 402-442); the model is discrete until a sampling time is set (Model.hpp: `isContinuous`) -/
def init (d : Dims) (junk : Nat → K) (dynamic : Bool) : Exec (NlMpc d K) := do
  let s ← NlState.init d junk false 0
  let o ← NlOpt.init d
  return ⟨s, o, dynamic⟩

/-- an operation on the evaluation objects -/
def onState (m : NlMpc d K) (op : NlOp d K) : Exec (NlMpc d K) := do
  let s ← m.s.exec op
  return { m with s := s }

/-- one of the slice setters of the bounds (NLMPC.hpp:340-376) -/
def sliceBounds (m : NlMpc d K) (h : Nat) (sl : HorizonSlice)
    (set : NlOpt K → Exec (NlOpt K × Bool)) : Exec (NlMpc d K × NlOut K) := do
  let v ← if isSliceUnset sl then Except.ok true else isSliceValid h sl
  if v then
    let r ← set m.o
    return ({ m with o := r.1 }, .bool (true && r.2))
  else
    return (m, .bool false)

/-- one of the matrix setters of the bounds (NLMPC.hpp:270-309): column `i` for the slice `{i, i + 1}` -/
def matrixBounds (m : NlMpc d K) (h : Nat) (mn mx : Mat (Ext K))
    (set : NlOpt K → Vec (Ext K) → Vec (Ext K) → HorizonSlice → Exec (NlOpt K × Bool)) :
    Exec (NlMpc d K × NlOut K) := do
  let r ← forRange h (m.o, true) fun i q => do
    let l ← mn.col i
    let u ← mx.col i
    let r ← set q.1 l u ⟨(i : Int), (i : Int) + 1⟩
    return (r.1, q.2 && r.2)
  return ({ m with o := r.1 }, .bool r.2)

/-- NLOptimizer.hpp:545-591: result and sequence from the decision vector of the solver; `feas` is the result of the
feasibility check -/
def accept (m : NlMpc d K) (x0 : Vec K) (value : Ext K) (code : Int) (feas : Bool) (junk : Nat → K) :
    Exec (NlMpc d K) := do
  let w ← m.s.mp.unwrapVector m.o.optVector x0 ⟨d.ph + 1, d.nx, fun i _ => junk i⟩ ⟨d.ph + 1, d.nu, fun i _ => junk i⟩
  let cmd ← w.2.1.row 0
  let st ← w.1.block 0 0 (d.ph + 1) d.nx
  let inp ← w.2.1.block 0 0 (d.ph + 1) d.nu
  let Y ← m.s.M.getOutput w.1 w.2.1
  let out ← Y.block 0 0 (d.ph + 1) d.ny
  return { m with o := { m.o with
    currentSlack := w.2.2
    result := { solver_status := code, is_feasible := feas, cost := value, status := NlOpt.convertStatus code, cmd := cmd }
    seqState := st, seqInput := inp, seqOutput := out } }

/-- NLOptimizer.hpp:496-608: what follows the solver -/
def finish (m : NlMpc d K) (x0 : Vec K) (junk : Nat → K) : NlOutcome K → Exec (NlMpc d K)
  | .threw => .ok { m with o := m.o.failed d }
  | .answered z value code checkThrows => do
    let m := { m with o := { m.o with optVector := z, first := false } }
    if checkThrows then
      return { m with o := m.o.failed d }
    else
      let f ← m.s.con.isFeasible m.s.mp m.s.M z
      let m := { m with s := { m.s with con := f.2 } }
      m.accept x0 value code f.1 junk

/-- what the solver is given -/
def solverCall (m : NlMpc d K) (guess : Vec K) : NlSolverCall K :=
  ⟨guess, m.o.solverLb, m.o.solverUb, m.o.limits, m.o.objective, m.o.groups⟩

/-- one callback, with memory of the sizes which NLopt allocates: one number per tolerance (NLOptimizer.hpp:238-243), and one
per tolerance and variable for the gradient. NLopt calls only what has been bound to it. -/
def serve (o : NlOpt K) (s : NlState d K) : NlCallback K → Exec (Option (NlReply K) × NlState d K)
  | .obj z g junk =>
    if o.objective then do
      let r ← s.objWrapper ⟨if g then d.nZ else 0, junk⟩ z
      return (some (.obj r.1.1 r.1.2), r.2)
    else .ok (none, s)
  | .con i z g junk =>
    match o.groups[i]? with
    | none => .ok (none, s)
    | some grp => do
      let r ← s.conWrapper grp.kind ⟨⟨grp.tol.size, junk⟩, if g then some ⟨grp.tol.size * d.nZ, junk⟩ else none⟩ z junk
      return (some (.con r.1), r.2)

/-- the callbacks of the solver, one after the other -/
def callbacks (o : NlOpt K) (s : NlState d K) (cs : List (NlCallback K)) : Exec (NlState d K) :=
  cs.foldl (fun e c => e >>= fun s => do
    let r ← serve o s c
    return r.2) (.ok s)

/-- `IMPC::optimize` (IMPC.hpp:149-168) with `NLMPC::onModelUpdate` (NLMPC.hpp:447-451) and `NLOptimizer::run`
(NLOptimizer.hpp:409-608) -/
def optimize (m : NlMpc d K) (x0 u0 : Vec K) (cs : List (NlCallback K)) (out : NlOutcome K) (junk : Nat → K) :
    Exec (NlMpc d K × NlOut K) := do
  let m ← m.onState (.measure x0)
  let p ← m.o.prepare d m.s.mp junk x0 u0
  let call := m.solverCall p.2
  let s ← callbacks m.o m.s cs
  let m ← finish { m with s := s, o := { m.o with optVector := p.1 } } x0 junk out
  return (m, .result m.o.result call)

/-- one API call (NLMPC.hpp:81-395) -/
def step (m : NlMpc d K) : NlCall d K → Exec (NlMpc d K × NlOut K)
  | .setDiscretizationSamplingTime ts => do
    let m ← m.onState (.continuous true ts)
    return (m, .bool true)
  | .setOptimizerParameters p => do
    let o ← m.o.setParameters d p
    return ({ m with o := o }, .unit)
  | .setInputScale v => do
    let m ← m.onState (.inputScaling v)
    return (m, .unit)
  | .setStateScale v => do
    let m ← m.onState (.stateScaling v)
    return (m, .unit)
  | .setObjectiveFunction f acc => do
    let m ← m.onState (.objFn f)
    return ({ m with o := (m.o.bindObjective acc).1 }, .bool true)
  | .setStateSpaceFunction F tol acc => do
    let m ← m.onState (.stateFn F)
    let r := m.o.bindGroup ⟨.dynamics, Vec.const (d.ph * d.nx) tol⟩ acc
    return ({ m with o := r.1 }, .bool (true && r.2))
  | .setOutputFunction g => do
    let m ← m.onState (.outFn g)
    return (m, .bool true)
  | .setIneqConFunction F tol acc => do
    let m ← m.onState (.ineqFn F tol)
    return ({ m with o := (m.o.bindGroup ⟨.userIneq, Vec.const d.ineq tol⟩ acc).1 }, .bool true)
  | .setEqConFunction F tol acc => do
    -- `cvec<Teq>::Ones(Size(Teq))`: a negative size in dynamic mode (NLMPC.hpp:253)
    require (m.dynamic = false) .assertion
    let m ← m.onState (.eqFn F tol)
    return ({ m with o := (m.o.bindGroup ⟨.userEq, Vec.const d.eq tol⟩ acc).1 }, .bool true)
  | .setStateBounds mn mx => m.matrixBounds d.ph mn mx fun o l u s => o.setStateBounds d l u s
  | .setInputBounds mn mx => m.matrixBounds d.ch mn mx fun o l u s => o.setInputBounds d l u s
  | .setOutputBounds _ _ => .ok (m, .threw)
  | .setStateBoundsSlice l u s => m.sliceBounds d.ph s fun o => o.setStateBounds d l u s
  | .setInputBoundsSlice l u s => m.sliceBounds d.ch s fun o => o.setInputBounds d l u s
  | .setOutputBoundsSlice _ _ _ => .ok (m, .threw)
  | .optimize x0 u0 cs out junk => m.optimize x0 u0 cs out junk

/-- a history of API calls on a new controller: the state and what the calls returned -/
def run (d : Dims) (junk : Nat → K) (dynamic : Bool) (ops : List (NlCall d K)) : Exec (NlMpc d K × List (NlOut K)) :=
  ops.foldl (fun e c => e >>= fun q => do
    let r ← q.1.step c
    return (r.1, q.2 ++ [r.2])) (do
      let m ← init d junk dynamic
      return (m, []))

end NlMpc
end Mpc
