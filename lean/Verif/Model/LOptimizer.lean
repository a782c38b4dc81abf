import Mathlib.Algebra.Field.Defs
import Verif.Model.ProblemBuilder
import Verif.Model.Sparse

/-
Model of /repo/include/mpc/LMPC/LOptimizer.hpp.

OSQP is an oracle: each `run` consumes an `OsqpOutcome`. What the code hands to OSQP is recorded as an
`OsqpCall`. Pointers are modelled by their life-cycle state only; using a null or freed one is a fault.
Logging is in Messages.lean. `exitflag` is write-only in the code (it is only logged) and omitted.
-/
namespace Mpc
open Exec

/-- `LParameters` including the inherited `Parameters` (Types.hpp:98-113, 144-159), default values included. -/
structure LParams (K : Type) [Zero K] [One K] [Div K] [NatCast K] where
  maximum_iteration : Int := 100
  time_limit : K := 0
  enable_warm_start : Bool := false
  alpha : K := 16 / 10
  rho : K := 1 / 1000000
  eps_rel : K := 1 / 10000
  eps_abs : K := 1 / 10000
  eps_prim_inf : K := 1 / 1000
  eps_dual_inf : K := 1 / 1000
  verbose : Bool := false
  adaptive_rho : Bool := true
  polish : Bool := true

/-- A `const Parameters &`: its dynamic type may or may not be `LParameters`. -/
inductive AnyParams (K : Type) [Zero K] [One K] [Div K] [NatCast K] where
  | linear (p : LParams K)
  | other

/-- The fields of `OSQPSettings` written by `run` (LOptimizer.hpp:247-258); the remaining ones have OSQP's
defaults and are not modelled. -/
structure OsqpSettings (K : Type) where
  alpha : K
  verbose : Int
  rho : K
  adaptive_rho : Int
  eps_rel : K
  eps_abs : K
  eps_prim_inf : K
  eps_dual_inf : K
  max_iter : Int
  polish : Int
  time_limit : K
  warm_start : Int

/-- LOptimizer.hpp:243-259 -/
def LParams.toSettings {K : Type} [Zero K] [One K] [Div K] [NatCast K] (p : LParams K) : OsqpSettings K where
  alpha := p.alpha
  verbose := if p.verbose then 1 else 0
  rho := p.rho
  adaptive_rho := if p.adaptive_rho then 1 else 0
  eps_rel := p.eps_rel
  eps_abs := p.eps_abs
  eps_prim_inf := p.eps_prim_inf
  eps_dual_inf := p.eps_dual_inf
  max_iter := p.maximum_iteration
  polish := if p.polish then 1 else 0
  time_limit := p.time_limit
  warm_start := if p.enable_warm_start then 1 else 0

/-- Life cycle of a raw pointer. -/
inductive Ptr where
  | null | live | freed
  deriving DecidableEq, Repr

/-- `Result<nu>` (Types.hpp:166-180); the message string is omitted. -/
structure LResult (K : Type) where
  solver_status : Int := 0
  is_feasible : Bool := false
  cost : Ext K
  status : ResultStatus := .UNKNOWN
  cmd : Vec K

/-- One complete problem as handed to `osqp_setup` / `osqp_warm_start` (LOptimizer.hpp:217-284). -/
structure OsqpCall (K : Type) where
  n : Nat
  m : Nat
  P : Csc K
  q : Vec K
  A : Csc K
  l : Vec (Ext K)
  u : Vec (Ext K)
  settings : OsqpSettings K
  /-- vectors given to `osqp_warm_start`; `none` when `osqp_update_warm_start(work, 0)` is called instead -/
  warm : Option (Vec K × Vec K)

/-- What OSQP does on one call. -/
inductive OsqpOutcome (K : Type) where
  /-- `osqp_setup` refuses the problem (returns an error before creating the workspace) -/
  | rejected
  /-- the solver returns: status code, objective value, primal and dual vectors; `none` is the
  `work->solution->x == NULL` case -/
  | answered (status : Int) (obj : K) (sol : Option ((Nat → K) × (Nat → K)))

/-- State of an `LOptimizer` (LOptimizer.hpp:43, 372, 518-527) with the inherited members of `IOptimizer`
it uses (IOptimizer.hpp: `result`, `sequence`). `leaked` counts overwritten live allocations; `junk` stands
for the contents of freshly allocated index arrays. -/
structure LOpt (K : Type) [Zero K] [One K] [Div K] [NatCast K] where
  d : Dims
  params : LParams K := {}
  outSysRef : Mat K
  cmdSysRef : Mat K
  deltaCmdSysRef : Mat K
  extInputMeas : Mat K
  result : LResult K
  seqState : Mat K
  seqInput : Mat K
  seqOutput : Mat K
  prevX : Vec K
  prevY : Vec K
  work : Ptr := .null
  settings : Ptr := .null
  data : Ptr := .null
  dataP : Ptr := .null
  dataA : Ptr := .null
  leaked : Nat := 0
  junk : Nat → Nat

namespace LOpt
variable {K : Type} [Zero K] [One K] [Add K] [Mul K] [Neg K] [Div K] [NatCast K]

/-- Value-initialised object followed by `onInit` (LOptimizer.hpp:59-82; `new LOptimizer<...>()` in
LMPC.hpp:731 zero-initialises the raw pointers because the default constructor is defaulted). -/
def onInit (d : Dims) (junk : Nat → Nat) : LOpt K where
  d := d
  outSysRef := Mat.const d.ny d.ph 0
  cmdSysRef := Mat.const d.nu d.ph 0
  deltaCmdSysRef := Mat.const d.nu d.ph 0
  extInputMeas := Mat.const d.ndu d.ph 0
  result := { cost := .fin 0, cmd := Vec.const d.nu 0 }
  seqState := Mat.const (d.ph + 1) d.nx 0
  seqInput := Mat.const (d.ph + 1) d.nu 0
  seqOutput := Mat.const (d.ph + 1) d.ny 0
  prevX := Vec.const 0 0
  prevY := Vec.const 0 0
  junk := junk

/-- `setParameters` (LOptimizer.hpp:100-108): the result of the `dynamic_cast` is dereferenced unchecked. -/
def setParameters (o : LOpt K) : AnyParams K → Exec (LOpt K)
  | .linear p => .ok { o with params := p }
  | .other => .error .danglingUse

/-- `setReferences`, whole horizon (LOptimizer.hpp:119-129) -/
def setReferences (o : LOpt K) (Y U D : Mat K) : LOpt K × Bool :=
  ({ o with outSysRef := Y, cmdSysRef := U, deltaCmdSysRef := D }, true)

/-- `setReferences`, one step (LOptimizer.hpp:141-152) -/
def setReferencesAt (o : LOpt K) (index : Nat) (y u du : Vec K) : Exec (LOpt K × Bool) := do
  let Y ← o.outSysRef.setCol index y
  let U ← o.cmdSysRef.setCol index u
  let D ← o.deltaCmdSysRef.setCol index du
  return ({ o with outSysRef := Y, cmdSysRef := U, deltaCmdSysRef := D }, true)

/-- `setExogenousInputs`, whole horizon (LOptimizer.hpp:161-165) -/
def setExogenousInputs (o : LOpt K) (M : Mat K) : LOpt K × Bool := ({ o with extInputMeas := M }, true)

/-- `setExogenousInputs`, one step (LOptimizer.hpp:175-181) -/
def setExogenousInputsAt (o : LOpt K) (index : Nat) (v : Vec K) : Exec (LOpt K × Bool) := do
  let M ← o.extInputMeas.setCol index v
  return ({ o with extInputMeas := M }, true)

/-- Overwriting a pointer: a live target is leaked. -/
def leak (p : Ptr) : Nat := if p = .live then 1 else 0

/-- `initData` (LOptimizer.hpp:509-516) -/
def initData (o : LOpt K) : LOpt K :=
  { o with
    leaked := o.leaked + leak o.settings + leak o.data
    settings := .live, data := .live, dataP := .null, dataA := .null }

/-- `free` of a pointer whose null-ness has been tested by the caller. -/
def free (p : Ptr) : Exec Ptr :=
  match p with
  | .null => .ok .null
  | .live => .ok .freed
  | .freed => .error .doubleFree

/-- `clearData` (LOptimizer.hpp:483-504): nothing is set to null after being freed. `osqp_cleanup` ignores a
null workspace; `csc_spfree` ignores a null matrix. -/
def clearData (o : LOpt K) : Exec (LOpt K) := do
  let work ← free o.work
  -- `data->A`, `data->P` are read through `data`
  let (data, dataA, dataP) ← (match o.data with
    | .null => (.ok (.null, o.dataA, o.dataP) : Exec (Ptr × Ptr × Ptr))
    | .freed => .error .danglingUse
    | .live => do
      let a ← free o.dataA
      let p ← free o.dataP
      return (.freed, a, p))
  let settings ← free o.settings
  return { o with work := work, data := data, dataA := dataA, dataP := dataP, settings := settings }

/-- The destructor (LOptimizer.hpp:48-52) -/
def destroy (o : LOpt K) : Exec Unit := do
  let _ ← o.clearData
  return ()

end LOpt

/-- `convertToResultStatus` (LOptimizer.hpp:386-415) with the numeric codes of OSQP 0.6
(`osqp/constants.h`). -/
def convertOsqpStatus (status : Int) : ResultStatus :=
  if status = 1 then .SUCCESS              -- OSQP_SOLVED
  else if status = -2 then .MAX_ITERATION  -- OSQP_MAX_ITER_REACHED
  else if status = -3 then .INFEASIBLE     -- OSQP_PRIMAL_INFEASIBLE
  else if status = -4 then .INFEASIBLE     -- OSQP_DUAL_INFEASIBLE
  else if status = 2 then .SUCCESS         -- OSQP_SOLVED_INACCURATE
  else if status = 3 then .SUCCESS         -- OSQP_PRIMAL_INFEASIBLE_INACCURATE
  else if status = 4 then .SUCCESS         -- OSQP_DUAL_INFEASIBLE_INACCURATE
  else if status = -5 then .ERROR          -- OSQP_SIGINT
  else if status = -6 then .UNKNOWN        -- OSQP_TIME_LIMIT_REACHED
  else if status = -7 then .ERROR          -- OSQP_NON_CVX
  else if status = -10 then .UNKNOWN       -- OSQP_UNSOLVED
  else .UNKNOWN

/-- `r.is_feasible = ...` (LOptimizer.hpp:340) -/
def osqpFeasible (status : Int) : Bool := status = 1 || status = 2 || status = -2

namespace LOpt
variable {K : Type} [Zero K] [One K] [Add K] [Mul K] [Neg K] [Div K] [NatCast K]

/-- The extraction of the optimal sequences from the solver's vector (LOptimizer.hpp:301-334). -/
def extract (o : LOpt K) (b : Builder K) (x : Vec K) : Exec (Mat K × Mat K × Mat K) :=
  let d := o.d
  forRange (d.ph + 1) (o.seqState, o.seqInput, o.seqOutput) fun i (S, U, Y) => do
    let S ← forRange d.nx S fun j S => do
      let v ← x.at? (i * (d.nx + d.nu) + j)
      S.set i j v
    let U ← forFrom d.nx d.nu U fun j U => do
      if i + 1 < d.ph + 1 then
        let v ← x.at? ((i + 1) * (d.nx + d.nu) + j)
        U.set i (j - d.nx) v
      else
        let v ← x.at? (i * (d.nx + d.nu) + j)
        U.set i (j - d.nx) v
    let xr ← S.row i
    let dc ← o.extInputMeas.col (if i = 0 then 0 else i - 1)
    let y ← b.mapToOutput xr dc
    let Y ← Y.setRow i y
    return (S, U, Y)

/-- `run` (LOptimizer.hpp:189-368). Returns the new optimizer and builder and what OSQP was given. -/
def run [DecidableEq K] (o : LOpt K) (b : Builder K) (x0 u0 : Vec K) (oc : OsqpOutcome K) :
    Exec (LOpt K × Builder K × OsqpCall K) := do
  let b ← b.get x0 u0 o.outSysRef o.cmdSysRef o.deltaCmdSysRef o.extInputMeas
  let (P, A) := getSparse b.P b.A
  let numVars := P.rows
  let numConstraints := A.rows
  let o := o.initData
  let cP ← createOsqpSparseMatrix P (o.dataP ≠ .null) o.junk o.junk (fun k => b.uninit k 3)
  let cA ← createOsqpSparseMatrix A (o.dataA ≠ .null) o.junk o.junk (fun k => b.uninit k 4)
  match cP, cA with
  | some cP, some cA => do
    let o : LOpt K := { o with dataP := .live, dataA := .live }
    let settings := o.params.toSettings
    -- osqp_setup
    let o : LOpt K := (match oc with
      | .rejected => o
      | .answered _ _ _ => { o with leaked := o.leaked + leak o.work, work := .live })
    -- warm start
    require (o.work ≠ .freed) .danglingUse
    let useWarm := settings.warm_start ≠ 0 ∧ 0 < o.prevX.size ∧ 0 < o.prevY.size
    let warm : Option (Vec K × Vec K) := if useWarm then some (o.prevX, o.prevY) else none
    require (¬ (useWarm ∧ o.work = .live) ∨ (numVars ≤ o.prevX.size ∧ numConstraints ≤ o.prevY.size))
      .outOfBounds
    -- osqp_solve; then `work->solution->x` is read
    require (o.work = .live) .danglingUse
    let call : OsqpCall K := ⟨numVars, numConstraints, cP, b.q, cA, b.l, b.u, settings, warm⟩
    let o ← (match oc with
      | .rejected => .ok o
      | .answered status obj (some (x, y)) => do
        let o : LOpt K := { o with prevX := ⟨numVars, x⟩, prevY := ⟨numConstraints, y⟩ }
        let (S, U, Y) ← o.extract b ⟨numVars, x⟩
        let cmd ← U.row 0
        return { o with
          seqState := S, seqInput := U, seqOutput := Y
          result := { solver_status := status, is_feasible := osqpFeasible status, cost := .fin obj,
                      status := convertOsqpStatus status, cmd := cmd } }
      | .answered _ _ none =>
        return { o with
          seqState := Mat.const o.seqState.rows o.seqState.cols 0
          seqInput := Mat.const o.seqInput.rows o.seqInput.cols 0
          seqOutput := Mat.const o.seqOutput.rows o.seqOutput.cols 0
          result := { solver_status := -1, is_feasible := false, cost := .posInf, status := .ERROR,
                      cmd := o.result.cmd } })
    let o ← o.clearData
    return (o, b, call)
  | _, _ => .error .danglingUse

end LOpt
end Mpc
