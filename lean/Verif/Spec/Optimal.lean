import Verif.Spec.Plan

/-
Specification: the optimal control problem in terms of the commands `u 0, ..., u (ph-1)` alone. The predicted states are
obtained by simulating the configured plant; no decision vector and no matrix of the code appears.
-/
namespace Mpc.Spec
variable {K : Type} [Field K]

/-- state after `k` steps of the plant from `x0` under the commands `u` -/
def predict (d : Dims) (c : LinConfig K) (x0 : Nat → K) (u : Nat → Nat → K) : Nat → Nat → K
  | 0 => x0
  | k + 1 => fun a => dot d.nx (c.A a) (predict d c x0 u k) + dot d.nu (c.B a) (u k) + dot d.ndu (c.Bd a) (c.dist k)

/-- the command in force before step `k`: the last applied one before step 0 -/
def before (u0 : Nat → K) (u : Nat → Nat → K) : Nat → Nat → K
  | 0 => u0
  | k + 1 => u k

/-- One half of the weighted squared errors of the outputs after steps `0..ph-1`, of the commands, and of their
increments against `duRef`. -/
def planCost (d : Dims) (c : LinConfig K) (x0 u0 : Nat → K) (duRef : Nat → Nat → K) (u : Nat → Nat → K) : K :=
  (∑ k ∈ Finset.range d.ph,
    (sqErr d.ny (c.wY k) (outputOf d c (predict d c x0 u (k + 1)) (c.dist k)) (c.yRef k) +
     sqErr d.nu (c.wU k) (u k) (c.uRef k) +
     sqErr d.nu (c.wDu k) (fun a => u k a - before u0 u k a) (duRef k))) / 2

/-- The documented constraints on the commands: index `k` of the state and output bounds is about step `k + 1`, index `k`
of the input bounds about `u_k`, the scalar constraint relates `x_k` and `u_k`, and the command does not change from the
control horizon on. -/
structure PlanAllowed [LE K] (d : Dims) (c : LinConfig K) (x0 : Nat → K) (u : Nat → Nat → K) : Prop where
  states : ∀ k a, k < d.ph → a < d.nx → within (c.xMin k a) (c.xMax k a) (predict d c x0 u (k + 1) a)
  inputs : ∀ k a, k < d.ph → a < d.nu → within (c.uMin k a) (c.uMax k a) (u k a)
  outputs : ∀ k a, k < d.ph → a < d.ny →
    within (c.yMin k a) (c.yMax k a) (outputOf d c (predict d c x0 u (k + 1)) (c.dist k) a)
  frozen : ∀ k a, d.ch ≤ k → k < d.ph → a < d.nu → u k a = u (d.ch - 1) a
  scalar : ∀ k, k < d.ph → within (c.sMin k) (c.sMax k) (dot d.nx c.sX (predict d c x0 u k) + dot d.nu c.sU (u k))

/-- The constraints as the code pairs them (see C05, C07, C08 for the differences): steps `0..ph` with the measured state
and the last command included. -/
structure PlanCoded [LE K] (d : Dims) (c : LinConfig K) (x0 u0 : Nat → K) (u : Nat → Nat → K) : Prop where
  states : ∀ k a, k ≤ d.ph → a < d.nx → within (c.xMin (k - 1) a) (c.xMax (k - 1) a) (predict d c x0 u k a)
  held : ∀ k a, k ≤ d.ph → a < d.nu →
    within (c.uMin (min k (d.ph - 1)) a) (c.uMax (min k (d.ph - 1)) a) (before u0 u k a)
  outputs : ∀ k a, k ≤ d.ph → a < d.ny →
    within (c.yMin (k - 1) a) (c.yMax (k - 1) a) (outputOf d c (predict d c x0 u k) (c.dist (k - 1)) a)
  frozen : ∀ k a, d.ch < k → k < d.ph → a < d.nu → u k a = u (k - 1) a
  scalar : ∀ k, k ≤ d.ph → within (c.sMin (k - 1)) (c.sMax (k - 1))
    (dot d.nx c.sX (predict d c x0 u k) + dot d.nu c.sU (before u0 u k))

/-- `u` is allowed and no allowed plan is cheaper -/
def IsBest [LE K] {α : Type} (Allowed : α → Prop) (cost : α → K) (u : α) : Prop :=
  Allowed u ∧ ∀ v, Allowed v → cost u ≤ cost v

/-- `z` solves the problem handed to OSQP -/
def qpOptimal [LE K] (q : OsqpCall K) (z : Nat → K) : Prop := IsBest (qpFeasible q) (qpObjective q) z

end Mpc.Spec
