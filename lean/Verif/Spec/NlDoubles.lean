import Verif.Model.NlDoubles
import Verif.Spec.NlDiff

/-
What the solver of the nonlinear controller is given when user functions return values which are not numbers: which of the values
and derivatives are numbers, and which.
-/
namespace Mpc.NlSpec
open Mpc
variable {K : Type} [Field K] [LinearOrder K] {d : Dims}

/-- an ordinary number: neither NaN nor infinite -/
def IsNumber (x : Flt K) : Prop := ∃ y, x = .fin y

/-- `q` stands for a result computed from the `double`s of the family `xs`: if they all are numbers it is the number `val` computes
from them, if one of them is NaN it is NaN, and if one of them is not a number it is not a number. -/
structure From {ι : Type} (xs : ι → Flt K) (val : (ι → K) → K) (q : Flt K) : Prop where
  number : ∀ v : ι → K, (∀ i, xs i = .fin (v i)) → q = .fin (val v)
  spoiled : ∀ i, ¬ IsNumber (xs i) → ¬ IsNumber q
  nan : ∀ i, xs i = .nan → q = .nan

/-- `q` is the difference quotient `(a - b) / h` -/
def IsQuotient (a b : Flt K) (h : K) (q : Flt K) : Prop :=
  From (fun i : Bool => if i then a else b) (fun v => (v true - v false) / h) q

/-- the outputs along the horizon, as `double`s -/
def outputsF (F : DoubleFns d K) (X : Traj (d.ph + 1) d.nx K) (U : Traj (d.ph + 1) d.nu K) : Traj (d.ph + 1) d.ny (Flt K) :=
  match F.out with
  | none => fun _ _ => 0
  | some g => fun k => g (fun _ => 0) (X k) (U k) k

/-- the objective for given states and inputs -/
def costF (F : DoubleFns d K) (X : Traj (d.ph + 1) d.nx K) (U : Traj (d.ph + 1) d.nu K) (e : K) : Flt K :=
  F.obj X (outputsF F X U) U e

/-- the inequality constraints for given states and inputs -/
def ineqF (F : DoubleFns d K) (X : Traj (d.ph + 1) d.nx K) (U : Traj (d.ph + 1) d.nu K) (e : K) : FVec d.ineq (Flt K) :=
  F.ineq X (outputsF F X U) U e

/-- Difference quotients of the objective: `gx k a` with respect to component `a` of the state of step `k + 1`, `gu k b` with respect
to component `b` of the input of step `k` (the last one moves two steps), `ge` with respect to the slack. -/
structure ObjDiffF (d : Dims) (φ : Traj (d.ph + 1) d.nx K → Traj (d.ph + 1) d.nu K → K → Flt K)
    (X : Traj (d.ph + 1) d.nx K) (U : Traj (d.ph + 1) d.nu K) (e : K) (hx hu : Nat → K) (he : K)
    (gx gu : Nat → Nat → Flt K) (ge : Flt K) : Prop where
  posx : ∀ a, 0 < hx a
  states : ∀ k a, k < d.ph → a < d.nx → IsQuotient (φ (bump X (k + 1) a (hx a)) U e) (φ X U e) (hx a) (gx k a)
  posu : ∀ b, 0 < hu b
  inputs : ∀ k b, k + 1 < d.ph → b < d.nu → IsQuotient (φ X (bump U k b (hu b)) e) (φ X U e) (hu b) (gu k b)
  last : ∀ b, b < d.nu →
    IsQuotient (φ X (bump (bump U (d.ph - 1) b (hu b)) d.ph b (hu b)) e) (φ X U e) (hu b) (gu (d.ph - 1) b)
  pose : 0 < he
  slack : IsQuotient (φ X U (e + he)) (φ X U (e - he)) (2 * he) ge

/-- Central difference quotients of `n` constraints with respect to states and inputs; `last = true`: the last input moves two steps. -/
structure ConDiffF (d : Dims) (n : Nat) (φ : Traj (d.ph + 1) d.nx K → Traj (d.ph + 1) d.nu K → K → FVec n (Flt K))
    (X : Traj (d.ph + 1) d.nx K) (U : Traj (d.ph + 1) d.nu K) (e : K) (hx hu : Nat → Nat → K) (last : Bool)
    (gx gu : Nat → Nat → Nat → Flt K) : Prop where
  posx : ∀ k a, 0 < hx k a
  states : ∀ (c : Fin n) (k a : Nat), k < d.ph → a < d.nx →
    IsQuotient (φ (bump X (k + 1) a (hx k a)) U e c) (φ (bump X (k + 1) a (-hx k a)) U e c) (2 * hx k a) (gx c k a)
  posu : ∀ k b, 0 < hu k b
  inputs : ∀ (c : Fin n) (k b : Nat), k + 1 < d.ph → b < d.nu →
    IsQuotient (φ X (bump U k b (hu k b)) e c) (φ X (bump U k b (-hu k b)) e c) (2 * hu k b) (gu c k b)
  lastInput : ∀ (c : Fin n) (b : Nat), b < d.nu →
    IsQuotient
      (if last then φ X (bump (bump U (d.ph - 1) b (hu (d.ph - 1) b)) d.ph b (hu (d.ph - 1) b)) e c
        else φ X (bump U (d.ph - 1) b (hu (d.ph - 1) b)) e c)
      (if last then φ X (bump (bump U (d.ph - 1) b (-hu (d.ph - 1) b)) d.ph b (-hu (d.ph - 1) b)) e c
        else φ X (bump U (d.ph - 1) b (-hu (d.ph - 1) b)) e c)
      (2 * hu (d.ph - 1) b) (gu c (d.ph - 1) b)

/-- How the quotients of one function become the derivatives handed to the solver. The derivative with respect to a state or to the
slack comes from its own quotient; the derivative with respect to *any* input variable from the quotients of *all* inputs of the
horizon. `sx`: factor of the state part. -/
structure RowF (d : Dims) (sx su : Nat → K) (gx gu : Nat → Nat → Flt K) (ge : Flt K) (g : Nat → Flt K) : Prop where
  states : ∀ k a, k < d.ph → a < d.nx → From (fun _ : Unit => gx k a) (fun v => v () * sx a) (g (stateIx d k a))
  inputs : ∀ (j : Nat) (b : Fin d.nu), j < d.ch → From (fun i : Fin d.ph × Fin d.nu => gu i.1 i.2)
    (fun v => su b * ∑ k : Fin d.ph, if min (k : Nat) (d.ch - 1) = j then v (k, b) else 0) (g (inputIx d j b))
  slack : g (slackIx d) = ge

/-- The quotients of the state equation at the point `(x, u)` with step numbered `k`: `qx r a` is the one of component `r` with
respect to component `a` of the state, `qu r b` with respect to component `b` of the input. -/
structure StateDiffF (d : Dims) (t : K) (F : FVec d.nx K → FVec d.nu K → Nat → FVec d.nx (Flt K)) (x : FVec d.nx K) (u : FVec d.nu K)
    (k : Nat) (qx : Fin d.nx → Fin d.nx → Flt K) (qu : Fin d.nx → Fin d.nu → Flt K) : Prop where
  states : ∀ r a : Fin d.nx, IsQuotient (F (bumpV x a (stepOf t (x a))) u k r) (F (bumpV x a (-stepOf t (x a))) u k r)
    (2 * stepOf t (x a)) (qx r a)
  inputs : ∀ (r : Fin d.nx) (b : Fin d.nu), IsQuotient (F x (bumpV u b (stepOf t (u b))) k r) (F x (bumpV u b (-stepOf t (u b))) k r)
    (2 * stepOf t (u b)) (qu r b)

/-- The row of component `r` of the state equation of step `k`, discrete time. `qx`, `qu`: the quotients at step `k`. The derivative
with respect to *any* component of the state before the step comes from *all* quotients `qx` (of all components of the equation), and
the one with respect to *any* input variable from *all* quotients `qu`. -/
structure DiscreteRowF (d : Dims) (s su : Nat → K) (qx : Fin d.nx → Fin d.nx → Flt K) (qu : Fin d.nx → Fin d.nu → Flt K)
    (k : Fin d.ph) (r : Fin d.nx) (g : Nat → Flt K) : Prop where
  next : ∀ a : Fin d.nx, g (stateIx d k a) = .fin (if r = a then 1 else 0)
  prev : ∀ (k' : Nat) (a : Fin d.nx), k' + 1 = k → From (fun i : Fin d.nx × Fin d.nx => qx i.1 i.2)
    (fun v => -(1 / s r * v (r, a) * s a)) (g (stateIx d k' a))
  other : ∀ (k' : Nat) (a : Fin d.nx), k' < d.ph → k' ≠ k → k' + 1 ≠ k → g (stateIx d k' a) = .fin 0
  inputs : ∀ (j : Nat) (b : Fin d.nu), j < d.ch → From (fun i : Fin d.nx × Fin d.nu => qu i.1 i.2)
    (fun v => su b * if min (k : Nat) (d.ch - 1) = j then -(1 / s r * v (r, b)) else 0) (g (inputIx d j b))
  slack : g (slackIx d) = .fin 0

/-- The same for continuous time: `qx`, `qu` are the quotients at the state before the step, `qx'`, `qu'` those at the state after
it. -/
structure ContinuousRowF (d : Dims) (Ts : K) (s su : Nat → K) (qx qx' : Fin d.nx → Fin d.nx → Flt K)
    (qu qu' : Fin d.nx → Fin d.nu → Flt K) (k : Fin d.ph) (r : Fin d.nx) (g : Nat → Flt K) : Prop where
  next : ∀ a : Fin d.nx, From (fun i : Fin d.nx × Fin d.nx => qx' i.1 i.2)
    (fun v => -(if r = a then 1 else 0) + Ts / 2 * (1 / s r) * v (r, a) * s a) (g (stateIx d k a))
  prev : ∀ (k' : Nat) (a : Fin d.nx), k' + 1 = k → From (fun i : Fin d.nx × Fin d.nx => qx i.1 i.2)
    (fun v => (if r = a then 1 else 0) + Ts / 2 * (1 / s r) * v (r, a) * s a) (g (stateIx d k' a))
  other : ∀ (k' : Nat) (a : Fin d.nx), k' < d.ph → k' ≠ k → k' + 1 ≠ k → g (stateIx d k' a) = .fin 0
  inputs : ∀ (j : Nat) (b : Fin d.nu), j < d.ch →
    From (fun i : Bool × Fin d.nx × Fin d.nu => if i.1 then qu i.2.1 i.2.2 else qu' i.2.1 i.2.2)
      (fun v => su b * if min (k : Nat) (d.ch - 1) = j then Ts / 2 * (1 / s r) * (v (true, r, b) + v (false, r, b)) else 0)
      (g (inputIx d j b))
  slack : g (slackIx d) = .fin 0

end Mpc.NlSpec
