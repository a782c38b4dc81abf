import Verif.Spec.ClosedLoop

/-
Specification: conditions on a configuration of the linear controller under which a closed loop keeps finding plans and
approaches its references.
-/
namespace Mpc.Spec
variable {K : Type} [Field K]

/-- the plant one step later, under the command `w` and the disturbance of the first step -/
def oneStep (d : Dims) (c : LinConfig K) (x w : Nat → K) : Nat → K := fun a =>
  dot d.nx (c.A a) x + dot d.nu (c.B a) w + dot d.ndu (c.Bd a) (c.dist 0)

/-- The limits do not get looser along the horizon, and the announced disturbance is constant. -/
structure Tightening [LE K] (d : Dims) (c : LinConfig K) : Prop where
  x : ∀ k a v, k + 1 < d.ph → a < d.nx → within (c.xMin (k + 1) a) (c.xMax (k + 1) a) v → within (c.xMin k a) (c.xMax k a) v
  u : ∀ k a v, k + 1 < d.ph → a < d.nu → within (c.uMin (k + 1) a) (c.uMax (k + 1) a) v → within (c.uMin k a) (c.uMax k a) v
  y : ∀ k a v, k + 1 < d.ph → a < d.ny → within (c.yMin (k + 1) a) (c.yMax (k + 1) a) v → within (c.yMin k a) (c.yMax k a) v
  s : ∀ k v, k + 1 < d.ph → within (c.sMin (k + 1)) (c.sMax (k + 1)) v → within (c.sMin k) (c.sMax k) v
  dist : ∀ k a, k < d.ph → a < d.ndu → c.dist k a = c.dist 0 a

/-- the state `x`, reached with the command `w`, respects the limits of the last step of the horizon -/
structure EndOk [LE K] (d : Dims) (c : LinConfig K) (x w : Nat → K) : Prop where
  state : ∀ a, a < d.nx → within (c.xMin (d.ph - 1) a) (c.xMax (d.ph - 1) a) (x a)
  input : ∀ a, a < d.nu → within (c.uMin (d.ph - 1) a) (c.uMax (d.ph - 1) a) (w a)
  output : ∀ a, a < d.ny → within (c.yMin (d.ph - 1) a) (c.yMax (d.ph - 1) a) (outputOf d c x (c.dist (d.ph - 1)) a)
  scalar : within (c.sMin (d.ph - 1)) (c.sMax (d.ph - 1)) (dot d.nx c.sX x + dot d.nu c.sU w)

/-- cost of one step of the horizon: the command `w` after the command `v` leads to the state `x` -/
def stepCost (d : Dims) (c : LinConfig K) (k : Nat) (x v w : Nat → K) : K :=
  (sqErr d.ny (c.wY k) (outputOf d c x (c.dist k)) (c.yRef k) + sqErr d.nu (c.wU k) w (c.uRef k) +
    sqErr d.nu (c.wDu k) (fun a => w a - v a) (c.duRef k)) / 2

/-- Once the limits of the last step are respected they can be respected one step longer (with the same command when the
horizon freezes the last one). -/
def EndKept [LE K] (d : Dims) (c : LinConfig K) : Prop :=
  ∀ x v, EndOk d c x v → ∃ w, EndOk d c (oneStep d c x w) w ∧ (d.ch + 1 < d.ph → ∀ a, a < d.nu → w a = v a)

/-- ... and at no cost. -/
def EndFree [LE K] (d : Dims) (c : LinConfig K) : Prop :=
  ∀ x v, EndOk d c x v → ∃ w, EndOk d c (oneStep d c x w) w ∧ (d.ch + 1 < d.ph → ∀ a, a < d.nu → w a = v a) ∧
    stepCost d c (d.ph - 1) (oneStep d c x w) v w = 0

/-- Weights do not decrease along the horizon and references are constant. -/
structure Rising [LE K] (d : Dims) (c : LinConfig K) : Prop where
  wY : ∀ k a, k + 1 < d.ph → a < d.ny → c.wY k a ≤ c.wY (k + 1) a
  wU : ∀ k a, k + 1 < d.ph → a < d.nu → c.wU k a ≤ c.wU (k + 1) a
  wDu : ∀ k a, k + 1 < d.ph → a < d.nu → c.wDu k a ≤ c.wDu (k + 1) a
  yRef : ∀ k a, k < d.ph → a < d.ny → c.yRef k a = c.yRef 0 a
  uRef : ∀ k a, k < d.ph → a < d.nu → c.uRef k a = c.uRef 0 a
  duRef : ∀ k a, k < d.ph → a < d.nu → c.duRef k a = c.duRef 0 a

/-- The usual way to meet `EndKept`: the limits of the last step leave only the state `xe`, which the command `ue` keeps and
which respects every limit. -/
structure Pinned [LE K] (d : Dims) (c : LinConfig K) (xe ue : Nat → K) : Prop where
  only : ∀ a v, a < d.nx → within (c.xMin (d.ph - 1) a) (c.xMax (d.ph - 1) a) v → v = xe a
  kept : ∀ a, a < d.nx → oneStep d c xe ue a = xe a
  ok : EndOk d c xe ue

/-- a solver which solves exactly every problem that can be satisfied -/
def SolvesFeasible [LE K] (oc : Nat → OsqpOutcome K) (call : Nat → OsqpCall K) (N : Nat) : Prop :=
  ∀ t, t < N → (∃ z, qpFeasible (call t) z) → ∃ st obj z y, oc t = .answered st obj (some (z, y)) ∧ qpOptimal (call t) z

end Mpc.Spec
