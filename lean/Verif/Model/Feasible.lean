import Verif.Basic.Flt
import Verif.Model.Constraints

/-
Model of `Constraints::isFeasible` (/repo/include/mpc/NLMPC/Constraints.hpp:145-190).

The constraint values are `double`s which may be NaN or infinite (`Flt`). The function is written for an arbitrary type
`V` of constraint values with a map to `Flt`: the controller of `Verif.Model.NLMPC` uses it with `V = K`, the
statements about NaN use it with `V = Flt K`.
-/
namespace Mpc
open Exec

/-- `(c.array() > tol).any()` (Constraints.hpp:164) -/
def anyGreater {K : Type} [LE K] [DecidableLE K] (c : Vec (Flt K)) (tol : K) : Bool :=
  (List.range c.size).any fun i => (c.get i).gt (Flt.fin tol)

/-- largest of the first `n` values and `m`; `none` when one of them is NaN -/
def maxUpTo {K : Type} [LE K] [DecidableLE K] (c : Nat → Flt K) : Nat → Flt K → Option (Ext K)
  | 0, .nan => none
  | 0, .num m => some m
  | n + 1, m =>
    match maxUpTo c n m, c n with
    | some a, .num b => some (a.max b)
    | _, _ => none

/-- `c.maxCoeff()` (Constraints.hpp:183): asserts that there is an entry; with a NaN among the entries Eigen leaves the
result unspecified (`none`). -/
def maxCoeff {K : Type} [LE K] [DecidableLE K] (c : Vec (Flt K)) : Exec (Option (Ext K)) := do
  require (0 < c.size) .assertion
  return maxUpTo c.get (c.size - 1) (c.get (c.size - 1))

/-- `c.array().abs().maxCoeff() > tol` (Constraints.hpp:183). `nanCmp` is the outcome of the comparison when the
left-hand side is unspecified. -/
def maxAbsGreater {K : Type} [Lattice K] [AddGroup K] [DecidableLE K] (nanCmp : Bool) (c : Vec (Flt K)) (tol : K) :
    Exec Bool := do
  let m ← maxCoeff ⟨c.size, fun i => (c.get i).abs⟩
  match m with
  | none => return nanCmp
  | some m => return !decide (m ≤ Ext.fin tol)

namespace Constraints
variable {d : Dims} {K V : Type} [Field K] [LinearOrder K] [Zero V]

/-- what `isFeasible` leaves behind: the answer and the new contents of `Xmat`, `Umat`, `e`, `cineq_user`, `ceq_user` -/
structure Feas (K V : Type) where
  flag : Bool
  X : Mat K
  U : Mat K
  e : K
  ci : Vec V
  ce : Vec V

/-- Constraints.hpp:151-168: inequality part; the flag is true when the check passes -/
def feasIneq (toF : V → Flt K) (tol : K) (M : NlModel d K) (f : Option (FVec d.ineq V → Traj (d.ph + 1) d.nx K →
      Traj (d.ph + 1) d.ny K → Traj (d.ph + 1) d.nu K → K → FVec d.ineq V))
    (buf : Vec V) (X U : Mat K) (e : K) : Exec (Bool × Vec V) := do
  match f with
  | none => return (true, buf)
  | some f => do
    let Y ← M.getOutput X U
    let x ← X.view (d.ph + 1) d.nx
    let y ← Y.view (d.ph + 1) d.ny
    let u ← U.view (d.ph + 1) d.nu
    let c : Vec V := Vec.ofF (f (buf.viewF d.ineq) x y u e)
    return (!anyGreater ⟨c.size, fun i => toF (c.get i)⟩ tol, c)

/-- Constraints.hpp:170-187: equality part -/
def feasEq (toF : V → Flt K) (tol : K) (nanCmp : Bool) (f : Option (FVec d.eq V → Traj (d.ph + 1) d.nx K →
      Traj (d.ph + 1) d.nu K → FVec d.eq V))
    (buf : Vec V) (X U : Mat K) : Exec (Bool × Vec V) := do
  match f with
  | none => return (true, buf)
  | some f => do
    let x ← X.view (d.ph + 1) d.nx
    let u ← U.view (d.ph + 1) d.nu
    let c : Vec V := Vec.ofF (f (buf.viewF d.eq) x u)
    let g ← maxAbsGreater nanCmp ⟨c.size, fun i => toF (c.get i)⟩ tol
    return (!g, c)

/-- `Constraints::isFeasible` (Constraints.hpp:145-190) with user functions `fi`, `fe` and tolerances `ti`, `te`;
the equality constraints are not looked at when an inequality is violated. -/
def feasible (toF : V → Flt K) (mp : Mapping K) (M : NlModel d K) (x0 : Vec K) (Xb Ub : Mat K)
    (fi : Option (FVec d.ineq V → Traj (d.ph + 1) d.nx K → Traj (d.ph + 1) d.ny K → Traj (d.ph + 1) d.nu K → K →
      FVec d.ineq V)) (ti : K)
    (fe : Option (FVec d.eq V → Traj (d.ph + 1) d.nx K → Traj (d.ph + 1) d.nu K → FVec d.eq V)) (te : K)
    (bi be : Vec V) (nanCmp : Bool) (z : Vec K) : Exec (Feas K V) := do
  let w ← mp.unwrapVector z x0 Xb Ub
  let i ← feasIneq toF ti M fi bi w.1 w.2.1 w.2.2
  if i.1 then
    let e ← feasEq toF te nanCmp fe be w.1 w.2.1
    return ⟨e.1, w.1, w.2.1, w.2.2, i.2, e.2⟩
  else
    return ⟨false, w.1, w.2.1, w.2.2, i.2, be⟩

/-- `isFeasible` on the members of the object, for user functions which return ordinary numbers -/
def isFeasible (o : Constraints d K) (mp : Mapping K) (M : NlModel d K) (z : Vec K) :
    Exec (Bool × Constraints d K) := do
  let r ← feasible (V := K) Flt.fin mp M o.x0 o.Xmat o.Umat o.ieqUser o.ieqTol o.eqUser o.eqTol o.cineqUser o.ceqUser
    false z
  return (r.flag, { o with Xmat := r.X, Umat := r.U, e := r.e, cineqUser := r.ci, ceqUser := r.ce })

end Constraints
end Mpc
