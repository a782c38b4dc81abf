import Verif.Spec.NlLast
import Verif.Spec.NlDiff
import Verif.Spec.Qp

/-
Specification: the optimal control problem configured on a nonlinear controller, in terms of the sequences of states and
inputs and of the slack, and the problem as the solver sees it.
(Of the model: the types of calls, and for the solver's side the evaluations it may call back.)
-/
namespace Mpc.NlSpec
open Mpc.Spec (within)
variable {K : Type} {d : Dims}

/-- a candidate: states of steps `0..ph`, inputs of steps `0..ph` (the last one is the one after the horizon), slack -/
structure Plan (d : Dims) (K : Type) where
  X : Traj (d.ph + 1) d.nx K
  U : Traj (d.ph + 1) d.nu K
  e : K

/-- bounds of state component `a` of step `k + 1` in force after a history -/
def stateLimits [Field K] (ops : List (NlCall d K)) (outs : List (NlOut K)) (k a : Nat) : Ext K × Ext K :=
  (last (stateBox k a) (ops.zip outs)).getD (.negInf, .posInf)

/-- bounds of component `b` of input `j` in force after a history -/
def inputLimits [Field K] (ops : List (NlCall d K)) (outs : List (NlOut K)) (j b : Nat) : Ext K × Ext K :=
  (last (inputBox j b) (ops.zip outs)).getD (.negInf, .posInf)

/-- the model and tolerance set by a call -/
def modelTolOf [Field K] : NlCall d K → Option ((FVec d.nx K → FVec d.nu K → Nat → FVec d.nx K) × K)
  | .setStateSpaceFunction F tol _ => some (F, tol)
  | _ => none

/-- by how much step `k` of the plan misses the model -/
def modelError [Field K] (cont : Bool) (Ts : K) (F : FVec d.nx K → FVec d.nu K → Nat → FVec d.nx K) (p : Plan d K)
    (k : Fin d.ph) (a : Fin d.nx) : K :=
  if cont then p.X k.succ a - (p.X k.castSucc a
    + Ts / 2 * (F (p.X k.castSucc) (p.U k.castSucc) k a + F (p.X k.succ) (p.U k.castSucc) k a))
  else p.X k.succ a - F (p.X k.castSucc) (p.U k.castSucc) k a

/-- The plans a history of calls allows from measured state `x0` with hard constraints: physical states and inputs within
the bounds set last, inputs constant from the control horizon on, model and user constraints within the tolerances given
with them. -/
structure Allowed [Field K] [LinearOrder K] (ops : List (NlCall d K)) (outs : List (NlOut K)) (x0 : Nat → K) (p : Plan d K) :
    Prop where
  start : ∀ a : Fin d.nx, p.X 0 a = x0 a
  blocked : ∀ (k j : Fin (d.ph + 1)) (b : Fin d.nu), (j : Nat) = min (k : Nat) (d.ch - 1) → p.U k b = p.U j b
  states : ∀ (k : Fin d.ph) (a : Fin d.nx), within (stateLimits ops outs k a).1 (stateLimits ops outs k a).2 (p.X k.succ a)
  inputs : ∀ (j : Fin (d.ph + 1)) (b : Fin d.nu), (j : Nat) < d.ch →
    within (inputLimits ops outs j b).1 (inputLimits ops outs j b).2 (p.U j b)
  hard : p.e = 0
  model : ∀ F tol, last modelTolOf ops = some (F, tol) → ∀ k a,
    |modelError (last samplingOf ops).isSome ((last samplingOf ops).getD 0) F p k a| ≤ tol
  ineq : ∀ F tol, last ineqConOf ops = some (F, tol) → ∀ i, F p.X (outputs (last outputOf ops) p.X p.U) p.U p.e i ≤ tol
  eq : ∀ F tol, last eqConOf ops = some (F, tol) → ∀ i, |F p.X p.U i| ≤ tol

/-- cost of a plan: the objective set last -/
def planCost [Field K] (f : ObjFn d K) (ops : List (NlCall d K)) (p : Plan d K) : K :=
  f p.X (outputs (last outputOf ops) p.X p.U) p.U p.e

/-- every function was accepted by the solver, and each kind was set at most once -/
structure SetOnce [Field K] (ops : List (NlCall d K)) : Prop where
  accepted : ∀ op ∈ ops, acceptedOf op ≠ some false
  once : ((ops.filterMap groupOf).map (·.kind)).Nodup

end Mpc.NlSpec

namespace Mpc.NlSpec
variable {K : Type} {d : Dims} [Field K] [LinearOrder K]

/-- the values `v` satisfy a group of constraints within its tolerances: inequalities at most, equalities up to, the tolerance -/
def Satisfies (g : NlGroup K) (v : Vec K) : Prop :=
  ∀ p, p < g.tol.size → match g.kind with
    | .userIneq => v.get p ≤ g.tol.get p
    | .userEq => |v.get p| ≤ g.tol.get p
    | .dynamics => |v.get p| ≤ g.tol.get p

/-- `z` satisfies what the solver was given in `call`: the box, and every group of constraints within its tolerances, with
the values which the solver reads after its callbacks (made on the controller with optimizer `o` in state `s`) -/
structure SolverFeasible (o : NlOpt K) (s : NlState d K) (call : NlSolverCall K) (z : Vec K) : Prop where
  size : z.size = d.ph * d.nx + d.nu * d.ch + 1
  box : ∀ p, p < z.size → Spec.within (call.lb.get p) (call.ub.get p) (z.get p)
  groups : ∀ i g, call.groups[i]? = some g → ∀ wanted junk b s',
    NlMpc.serve o s (.con i z wanted junk) = .ok (some (.con b), s') → Satisfies g b.value

/-- `z` is a best feasible vector for the solver: for no feasible vector it is given a smaller value of the objective -/
structure SolverBest (o : NlOpt K) (s : NlState d K) (call : NlSolverCall K) (z : Vec K) : Prop where
  feasible : SolverFeasible o s call z
  best : ∀ z', SolverFeasible o s call z' → ∀ w w' j j' v v' G G' s1 s2, NlMpc.serve o s (.obj z w j) = .ok (some (.obj v G), s1) →
    NlMpc.serve o s (.obj z' w' j') = .ok (some (.obj v' G'), s2) → v ≤ v'

end Mpc.NlSpec
