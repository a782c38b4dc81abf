import Mathlib.Algebra.BigOperators.Intervals
import Verif.Spec.Csc
import Verif.Spec.LinConfig

/-
Specification: what the problem handed to OSQP says about a decision vector, how a decision vector is read as
a trajectory, and the control problem a user has configured.

OSQP solves   minimise 1/2 z'Pz + q'z   subject to   l <= A z <= u.
-/
namespace Mpc.Spec
variable {K : Type}

/-! ### The problem as OSQP reads it -/
section
variable [Field K]

/-- Row `r` of the constraint matrix, applied to `z`. -/
def rowValue (q : OsqpCall K) (z : Nat → K) (r : Nat) : K :=
  ∑ c ∈ Finset.range q.n, cscEntry q.A r c * z c

/-- OSQP reads the upper triangle of the Hessian and mirrors it. -/
def hessian (q : OsqpCall K) (i j : Nat) : K := cscEntry q.P (min i j) (max i j)

/-- The objective OSQP minimises. -/
def qpObjective (q : OsqpCall K) (z : Nat → K) : K :=
  (∑ i ∈ Finset.range q.n, ∑ j ∈ Finset.range q.n, z i * hessian q i j * z j) / 2 +
    ∑ i ∈ Finset.range q.n, q.q.get i * z i

/-- `z` satisfies row `r`. -/
def rowOk [LE K] (q : OsqpCall K) (z : Nat → K) (r : Nat) : Prop :=
  q.l.get r ≤ .fin (rowValue q z r) ∧ .fin (rowValue q z r) ≤ q.u.get r

/-- `z` satisfies all rows. -/
def qpFeasible [LE K] (q : OsqpCall K) (z : Nat → K) : Prop := ∀ r, r < q.m → rowOk q z r

end

/-- Two problems handed to OSQP are the same: sizes, Hessian, linear cost, constraint matrix and bounds. -/
structure SameProblem [Zero K] [One K] [Add K] [Div K] [NatCast K] (p p' : OsqpCall K) : Prop where
  n : p'.n = p.n
  m : p'.m = p.m
  P : ∀ i j, i < p.n → j < p.n → cscEntry p'.P i j = cscEntry p.P i j
  q : ∀ i, i < p.n → p'.q.get i = p.q.get i
  A : ∀ i j, i < p.m → j < p.n → cscEntry p'.A i j = cscEntry p.A i j
  l : ∀ i, i < p.m → p'.l.get i = p.l.get i
  u : ∀ i, i < p.m → p'.u.get i = p.u.get i

/-! ### Reading a decision vector as a trajectory

`z = (x_0, v_0, ..., x_ph, v_ph, du_0, ..., du_{ph-1})` where `v_k` is the input in force just before step `k`. -/

/-- predicted state at step `k` -/
def stateAt (d : Dims) (z : Nat → K) (k a : Nat) : K := z (k * (d.nx + d.nu) + a)
/-- input held before step `k` (the last applied command for `k = 0`) -/
def heldAt (d : Dims) (z : Nat → K) (k a : Nat) : K := z (k * (d.nx + d.nu) + d.nx + a)
/-- input increment of step `k` -/
def incrementAt (d : Dims) (z : Nat → K) (k a : Nat) : K := z ((d.ph + 1) * (d.nx + d.nu) + k * d.nu + a)
/-- input applied at step `k`: the one held before step `k + 1` -/
def inputAt (d : Dims) (z : Nat → K) (k a : Nat) : K := heldAt d z (k + 1) a

/-! ### The configured control problem -/
section
variable [Field K]

/-- product of row `a` of an `.. x n` matrix with a vector -/
def dot (n : Nat) (M : Nat → K) (v : Nat → K) : K := ∑ e ∈ Finset.range n, M e * v e

/-- output at a state with disturbance `dist` fed through -/
def outputOf (d : Dims) (c : LinConfig K) (x dist : Nat → K) (a : Nat) : K :=
  dot d.nx (c.C a) x + dot d.ndu (c.Dd a) dist

/-- `z` is the trajectory of the plant from the measured state `x0` and last command `u0`. -/
structure Trajectory (d : Dims) (c : LinConfig K) (x0 u0 : Nat → K) (z : Nat → K) : Prop where
  state0 : ∀ a, a < d.nx → stateAt d z 0 a = x0 a
  input0 : ∀ a, a < d.nu → heldAt d z 0 a = u0 a
  input : ∀ k a, k < d.ph → a < d.nu → inputAt d z k a = heldAt d z k a + incrementAt d z k a
  state : ∀ k a, k < d.ph → a < d.nx → stateAt d z (k + 1) a =
    dot d.nx (c.A a) (stateAt d z k) + dot d.nu (c.B a) (inputAt d z k) + dot d.ndu (c.Bd a) (c.dist k)

end

/-- `lo ≤ v ≤ hi` -/
def within [LE K] (lo hi : Ext K) (v : K) : Prop := lo ≤ .fin v ∧ .fin v ≤ hi

/-! ### Row groups of the QP -/

/-- first row of the state/held-input rows -/
def boundRow (d : Dims) : Nat := (d.ph + 1) * (d.nx + d.nu)
/-- first row of the output rows -/
def outputRow (d : Dims) : Nat := boundRow d + (d.ph + 1) * (d.nx + d.nu)
/-- first row of the increment rows -/
def incrementRow (d : Dims) : Nat := outputRow d + (d.ph + 1) * d.ny
/-- first row of the scalar-constraint rows -/
def scalarRow (d : Dims) : Nat := incrementRow d + d.ph * d.nu
/-- number of rows -/
def rowCount (d : Dims) : Nat := scalarRow d + (d.ph + 1)
/-- number of decision variables -/
def varCount (d : Dims) : Nat := (d.ph + 1) * (d.nx + d.nu) + d.ph * d.nu

/-! ### A controller that was configured and asked -/
section
variable [Zero K] [One K] [Add K] [Mul K] [Neg K] [Div K] [NatCast K]

/-- `m` is a controller with dimensions `d` on which the API calls `ops` have been made (and have returned
`outs`). Every argument has the size its C++ type prescribes; no slice starts at a negative step except the
whole-horizon slice. -/
structure Configured [DecidableEq K] (d : Dims) (ops : List (LOp K)) (outs : List (LOut K)) (m : LMpc K) : Prop where
  valid : d.Valid
  sized : ∀ op ∈ ops, Sized d op ∧ SliceNonneg op
  built : ∃ uninit junk m0, LMpc.new d uninit junk = .ok m0 ∧ m0.exec ops = .ok (m, outs)

/-- ... and then `optimize(x0, u0)` has been called, OSQP behaving as `oc`: it was handed `call`, the caller
got `r` and the controller became `m'`. -/
structure Asked [DecidableEq K] (d : Dims) (ops : List (LOp K)) (outs : List (LOut K)) (x0 u0 : Vec K)
    (oc : OsqpOutcome K) (m m' : LMpc K) (r : LResult K) (call : OsqpCall K) : Prop
    extends Configured d ops outs m where
  x0Size : x0.size = d.nx
  u0Size : u0.size = d.nu
  optimized : m.step (.optimize x0 u0 oc) = .ok (m', .result r call)

/-- The configuration a history leaves: the accepted calls, in order, on top of the defaults. -/
def configOf (ops : List (LOp K)) (outs : List (LOut K)) : LinConfig K := LinConfig.default.after ops outs

end

/-- Two configurations say the same about a problem with dimensions `d` (they may differ outside it). -/
structure LinConfig.Agree (d : Dims) (c c' : LinConfig K) : Prop where
  modelSet : c'.modelSet = c.modelSet
  A : ∀ a e, a < d.nx → e < d.nx → c'.A a e = c.A a e
  B : ∀ a e, a < d.nx → e < d.nu → c'.B a e = c.B a e
  C : ∀ a e, a < d.ny → e < d.nx → c'.C a e = c.C a e
  Bd : ∀ a e, a < d.nx → e < d.ndu → c'.Bd a e = c.Bd a e
  Dd : ∀ a e, a < d.ny → e < d.ndu → c'.Dd a e = c.Dd a e
  wY : ∀ k a, k < d.ph → a < d.ny → c'.wY k a = c.wY k a
  wU : ∀ k a, k < d.ph → a < d.nu → c'.wU k a = c.wU k a
  wDu : ∀ k a, k < d.ph → a < d.nu → c'.wDu k a = c.wDu k a
  xMin : ∀ k a, k < d.ph → a < d.nx → c'.xMin k a = c.xMin k a
  xMax : ∀ k a, k < d.ph → a < d.nx → c'.xMax k a = c.xMax k a
  uMin : ∀ k a, k < d.ph → a < d.nu → c'.uMin k a = c.uMin k a
  uMax : ∀ k a, k < d.ph → a < d.nu → c'.uMax k a = c.uMax k a
  yMin : ∀ k a, k < d.ph → a < d.ny → c'.yMin k a = c.yMin k a
  yMax : ∀ k a, k < d.ph → a < d.ny → c'.yMax k a = c.yMax k a
  sMin : ∀ k, k < d.ph → c'.sMin k = c.sMin k
  sMax : ∀ k, k < d.ph → c'.sMax k = c.sMax k
  sX : ∀ a, a < d.nx → c'.sX a = c.sX a
  sU : ∀ a, a < d.nu → c'.sU a = c.sU a
  yRef : ∀ k a, k < d.ph → a < d.ny → c'.yRef k a = c.yRef k a
  uRef : ∀ k a, k < d.ph → a < d.nu → c'.uRef k a = c.uRef k a
  duRef : ∀ k a, k < d.ph → a < d.nu → c'.duRef k a = c.duRef k a
  dist : ∀ k a, k < d.ph → a < d.ndu → c'.dist k a = c.dist k a

end Mpc.Spec
