import Mathlib.Algebra.Order.Group.Abs
import Verif.Spec.Optimal

/-
Specification: answers of OSQP which satisfy the constraints only up to a residual, or whose cost is only nearly the least.
-/
namespace Mpc.Spec
variable {K : Type} [Field K]

/-- `lo - ε ≤ v ≤ hi + ε` -/
def nearly [LE K] (ε : K) (lo hi : Ext K) (v : K) : Prop := lo ≤ .fin (v + ε) ∧ .fin (v - ε) ≤ hi

/-- `z` satisfies every row of the problem handed to OSQP up to the residual `ε` -/
def qpNearFeasible [LE K] (ε : K) (q : OsqpCall K) (z : Nat → K) : Prop :=
  ∀ r, r < q.m → nearly ε (q.l.get r) (q.u.get r) (rowValue q z r)

/-- Everything asked of a decision vector (compare `PlanOk`), each with an error of at most `ε` in its own physical unit. -/
structure PlanNear [LinearOrder K] (d : Dims) (c : LinConfig K) (ε : K) (x0 u0 : Nat → K) (z : Nat → K) : Prop where
  state0 : ∀ a, a < d.nx → |stateAt d z 0 a - x0 a| ≤ ε
  input0 : ∀ a, a < d.nu → |heldAt d z 0 a - u0 a| ≤ ε
  state : ∀ k a, k < d.ph → a < d.nx → |stateAt d z (k + 1) a - (dot d.nx (c.A a) (stateAt d z k) +
    dot d.nu (c.B a) (fun e => heldAt d z k e + incrementAt d z k e) + dot d.ndu (c.Bd a) (c.dist k))| ≤ ε
  input : ∀ k a, k < d.ph → a < d.nu → |inputAt d z k a - (heldAt d z k a + incrementAt d z k a)| ≤ ε
  states : ∀ k a, k ≤ d.ph → a < d.nx → nearly ε (c.xMin (k - 1) a) (c.xMax (k - 1) a) (stateAt d z k a)
  held : ∀ k a, k ≤ d.ph → a < d.nu →
    nearly ε (c.uMin (min k (d.ph - 1)) a) (c.uMax (min k (d.ph - 1)) a) (heldAt d z k a)
  outputs : ∀ k a, k ≤ d.ph → a < d.ny →
    nearly ε (c.yMin (k - 1) a) (c.yMax (k - 1) a) (outputOf d c (stateAt d z k) (c.dist (k - 1)) a)
  frozen : ∀ k a, d.ch < k → k < d.ph → a < d.nu → |incrementAt d z k a| ≤ ε
  scalar : ∀ k, k ≤ d.ph → nearly ε (c.sMin (k - 1)) (c.sMax (k - 1))
    (dot d.nx c.sX (stateAt d z k) + dot d.nu c.sU (heldAt d z k))

/-- bound on the difference between the plant and the reported states after `k` steps, when every coefficient row of `A`
sums up to at most `α` and of `B` to at most `β` in magnitude -/
def drift (α β ε : K) : Nat → K
  | 0 => ε
  | k + 1 => α * drift α β ε k + (1 + β) * ε

/-- the magnitudes of the first `n` coefficients add up to at most `bound` -/
def RowSum [LinearOrder K] (n : Nat) (M : Nat → K) (bound : K) : Prop := ∑ e ∈ Finset.range n, |M e| ≤ bound

/-- `z` is feasible and at most `ε` worse than any other feasible vector -/
def qpNearOptimal [LE K] (ε : K) (q : OsqpCall K) (z : Nat → K) : Prop :=
  qpFeasible q z ∧ ∀ w, qpFeasible q w → qpObjective q z ≤ qpObjective q w + ε

end Mpc.Spec
