import Verif.Spec.Optimal

/-
Specification: conditions on a configuration of the linear controller under which the best plan is unique, known in
advance, or comparable with that of another configuration.
-/
namespace Mpc.Spec
variable {K : Type} [Field K]

/-- no weight is negative -/
structure WeightsNonneg [LE K] (d : Dims) (c : LinConfig K) : Prop where
  wY : ∀ k a, k < d.ph → a < d.ny → 0 ≤ c.wY k a
  wU : ∀ k a, k < d.ph → a < d.nu → 0 ≤ c.wU k a
  wDu : ∀ k a, k < d.ph → a < d.nu → 0 ≤ c.wDu k a

/-- every command, or its increment, has a positive weight (steps after the control horizon need none) -/
def CommandsWeighted [LT K] (d : Dims) (c : LinConfig K) : Prop :=
  ∀ k a, k < d.ph → k ≤ d.ch → a < d.nu → 0 < c.wU k a ∨ 0 < c.wDu k a

/-- Holding the command `u0` keeps the plant at `x0`, all limits are respected there and there is nothing to gain: every
weighted output and command is at its reference and the references of the increments are zero. -/
structure AtRest [LE K] (d : Dims) (c : LinConfig K) (x0 u0 : Nat → K) : Prop where
  rest : ∀ k a, k < d.ph → a < d.nx → dot d.nx (c.A a) x0 + dot d.nu (c.B a) u0 + dot d.ndu (c.Bd a) (c.dist k) = x0 a
  states : ∀ k a, k < d.ph → a < d.nx → within (c.xMin k a) (c.xMax k a) (x0 a)
  inputs : ∀ k a, k < d.ph → a < d.nu → within (c.uMin k a) (c.uMax k a) (u0 a)
  outputs : ∀ k a, k < d.ph → a < d.ny → within (c.yMin k a) (c.yMax k a) (outputOf d c x0 (c.dist k) a)
  scalar : ∀ k, k < d.ph → within (c.sMin k) (c.sMax k) (dot d.nx c.sX x0 + dot d.nu c.sU u0)
  yRef : ∀ k a, k < d.ph → a < d.ny → c.wY k a = 0 ∨ c.yRef k a = outputOf d c x0 (c.dist k) a
  uRef : ∀ k a, k < d.ph → a < d.nu → c.wU k a = 0 ∨ c.uRef k a = u0 a
  duRef : ∀ k a, k < d.ph → a < d.nu → c.duRef k a = 0

/-- the same configuration with all weights multiplied by `s` -/
def LinConfig.scaleWeights (s : K) (c : LinConfig K) : LinConfig K :=
  { c with wY := fun k a => s * c.wY k a, wU := fun k a => s * c.wU k a, wDu := fun k a => s * c.wDu k a }

/-- `c'` differs from `c` in its limits only, and every limit of `c'` allows what that of `c` allows -/
structure LinConfig.Relaxes [LE K] (c c' : LinConfig K) : Prop where
  same : c' = { c with xMin := c'.xMin, xMax := c'.xMax, uMin := c'.uMin, uMax := c'.uMax, yMin := c'.yMin, yMax := c'.yMax,
                       sMin := c'.sMin, sMax := c'.sMax }
  x : ∀ k a v, within (c.xMin k a) (c.xMax k a) v → within (c'.xMin k a) (c'.xMax k a) v
  u : ∀ k a v, within (c.uMin k a) (c.uMax k a) v → within (c'.uMin k a) (c'.uMax k a) v
  y : ∀ k a v, within (c.yMin k a) (c.yMax k a) v → within (c'.yMin k a) (c'.yMax k a) v
  s : ∀ k v, within (c.sMin k) (c.sMax k) v → within (c'.sMin k) (c'.sMax k) v

/-- The cost in the manual (docs/source/manual/manual.rst), halved as in OSQP's objective: outputs of steps `0..ph`,
commands and increments of steps `0..ph-1`. -/
def documentedCost (d : Dims) (c : LinConfig K) (x0 u0 : Nat → K) (u : Nat → Nat → K) : K :=
  sqErr d.ny (c.wY 0) (outputOf d c x0 (c.dist 0)) (c.yRef 0) / 2 + planCost d c x0 u0 c.duRef u

end Mpc.Spec
