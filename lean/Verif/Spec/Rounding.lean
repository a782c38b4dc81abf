import Verif.Model.Rounding
import Verif.Spec.Accuracy

/-
Specification: what a controller computing with floating-point numbers was asked, and what it handed to OSQP, read as exact
numbers, so that the exact specification of the control problem applies; and how large the rounding errors may be.
-/
namespace Mpc

/-- the same bound, read in another number type -/
def Ext.map {K L : Type} (f : K → L) : Ext K → Ext L
  | .negInf => .negInf
  | .fin x => .fin (f x)
  | .posInf => .posInf

/-- the same vector, read in another number type -/
def Vec.map {K L : Type} (f : K → L) (v : Vec K) : Vec L := ⟨v.size, fun i => f (v.get i)⟩

/-- the same compressed matrix, read in another number type -/
def Csc.map {K L : Type} (f : K → L) (a : Csc K) : Csc L := ⟨a.m, a.n, a.nzmax, a.p, a.i, a.x.map f⟩

/-- the same solver settings, read in another number type -/
def OsqpSettings.map {K L : Type} (f : K → L) (s : OsqpSettings K) : OsqpSettings L where
  alpha := f s.alpha
  verbose := s.verbose
  rho := f s.rho
  adaptive_rho := s.adaptive_rho
  eps_rel := f s.eps_rel
  eps_abs := f s.eps_abs
  eps_prim_inf := f s.eps_prim_inf
  eps_dual_inf := f s.eps_dual_inf
  max_iter := s.max_iter
  polish := s.polish
  time_limit := f s.time_limit
  warm_start := s.warm_start

/-- the same problem, read in another number type -/
def OsqpCall.map {K L : Type} (f : K → L) (q : OsqpCall K) : OsqpCall L where
  n := q.n
  m := q.m
  P := q.P.map f
  q := q.q.map f
  A := q.A.map f
  l := q.l.map (Ext.map f)
  u := q.u.map (Ext.map f)
  settings := q.settings.map f
  warm := q.warm.map fun w => (w.1.map f, w.2.map f)

namespace Spec

/-- the same configuration, read in another number type -/
def LinConfig.map {K L : Type} (f : K → L) (c : LinConfig K) : LinConfig L where
  modelSet := c.modelSet
  A := fun a e => f (c.A a e)
  B := fun a e => f (c.B a e)
  C := fun a e => f (c.C a e)
  Bd := fun a e => f (c.Bd a e)
  Dd := fun a e => f (c.Dd a e)
  wY := fun k a => f (c.wY k a)
  wU := fun k a => f (c.wU k a)
  wDu := fun k a => f (c.wDu k a)
  xMin := fun k a => (c.xMin k a).map f
  xMax := fun k a => (c.xMax k a).map f
  uMin := fun k a => (c.uMin k a).map f
  uMax := fun k a => (c.uMax k a).map f
  yMin := fun k a => (c.yMin k a).map f
  yMax := fun k a => (c.yMax k a).map f
  sMin := fun k => (c.sMin k).map f
  sMax := fun k => (c.sMax k).map f
  sX := fun a => f (c.sX a)
  sU := fun a => f (c.sU a)
  yRef := fun k a => f (c.yRef k a)
  uRef := fun k a => f (c.uRef k a)
  duRef := fun k a => f (c.duRef k a)
  dist := fun k a => f (c.dist k a)

section
variable {K : Type} [Field K] [LinearOrder K] [IsStrictOrderedRing K] {R : Rounding K}

/-- the configured numbers, as exact numbers -/
def LinConfig.exact (c : LinConfig (Fl R)) : LinConfig K := c.map Fl.val

/-- the problem handed to OSQP, as exact numbers -/
def _root_.Mpc.OsqpCall.exact (q : OsqpCall (Fl R)) : OsqpCall K := q.map Fl.val

/-- a vector, as exact numbers -/
def exactly (v : Vec (Fl R)) : Nat → K := fun i => (v.get i).val

/-- the relative error `n` rounded operations can accumulate -/
def _root_.Mpc.Rounding.gamma (R : Rounding K) (n : Nat) : K := (1 + R.eps) ^ n - 1

end

section
variable {K : Type} [Field K] [LinearOrder K]

/-- no disturbance enters the prediction: none is announced, or none has an effect -/
def Undisturbed (d : Dims) (c : LinConfig K) : Prop :=
  (∀ k e, k < d.ph → e < d.ndu → c.dist k e = 0) ∨
  ((∀ a e, a < d.nx → e < d.ndu → c.Bd a e = 0) ∧ ∀ a e, a < d.ny → e < d.ndu → c.Dd a e = 0)

/-- `B` is at least as large as the disturbance terms of the prediction, and as the output limits together with the
disturbance terms of the outputs; magnitudes are added, so that nothing cancels -/
structure DisturbanceScale (d : Dims) (c : LinConfig K) (B : K) : Prop where
  state : ∀ k a, k < d.ph → a < d.nx → dot d.ndu (fun e => |c.Bd a e|) (fun e => |c.dist k e|) ≤ B
  lower : ∀ k a l, k < d.ph → a < d.ny → c.yMin k a = .fin l → |l| + dot d.ndu (fun e => |c.Dd a e|) (fun e => |c.dist k e|) ≤ B
  upper : ∀ k a l, k < d.ph → a < d.ny → c.yMax k a = .fin l → |l| + dot d.ndu (fun e => |c.Dd a e|) (fun e => |c.dist k e|) ≤ B

/-- The configuration in which nothing cancels: every coefficient, weight and disturbance is replaced by its magnitude, every
reference by its negative magnitude. -/
def LinConfig.magnitudes (c : LinConfig K) : LinConfig K :=
  { c.map (fun x => |x|) with
    yRef := fun k a => -|c.yRef k a|
    uRef := fun k a => -|c.uRef k a|
    duRef := fun k a => -|c.duRef k a| }

/-- The cost with which rounding errors are compared: the cost of the magnitudes of a plan in the configuration in which nothing
cancels, the terms of the measured state included. -/
def costScale (d : Dims) (c : LinConfig K) (z : Nat → K) : K :=
  initialCost d c.magnitudes (fun i => |z i|) +
    trackingCost d c.magnitudes (fun k => c.magnitudes.duRef (k - 1)) (fun i => |z i|)

/-- The quadratic part of `costScale`, twice: with which rounding errors of the Hessian are compared. -/
def curvatureScale (d : Dims) (c : LinConfig K) (z : Nat → K) : K :=
  (∑ k ∈ Finset.range (d.ph + 1),
    (∑ a ∈ Finset.range d.ny, |c.wY (k - 1) a| * dot d.nx (fun e => |c.C a e|) (fun e => |stateAt d z k e|) ^ 2 +
     ∑ a ∈ Finset.range d.nu, |c.wU (k - 1) a| * |heldAt d z k a| ^ 2)) +
  ∑ k ∈ Finset.range d.ph, ∑ a ∈ Finset.range d.nu, |c.wDu k a| * |incrementAt d z k a| ^ 2

end
end Spec
end Mpc
