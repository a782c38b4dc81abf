import Verif.Spec.Qp

/-
Specification of the tracking cost of the linear controller.
-/
namespace Mpc.Spec
variable {K : Type} [Field K]

/-- Weighted squared error `w (v - ref)^2` summed over `n` components. -/
def sqErr (n : Nat) (w v ref : Nat → K) : K := ∑ a ∈ Finset.range n, w a * (v a - ref a) ^ 2

/-- One half of: outputs of steps `1..ph` against their references, inputs of steps `0..ph-1` against theirs, and
input increments of steps `0..ph-1` against `duRef k`. API step `k` configures `y_{k+1}`, `u_k` and `du_k`. -/
def trackingCost (d : Dims) (c : LinConfig K) (duRef : Nat → Nat → K) (z : Nat → K) : K :=
  (∑ k ∈ Finset.range d.ph,
    (sqErr d.ny (c.wY k) (outputOf d c (stateAt d z (k + 1)) (c.dist k)) (c.yRef k) +
     sqErr d.nu (c.wU k) (inputAt d z k) (c.uRef k) +
     sqErr d.nu (c.wDu k) (incrementAt d z k) (duRef k))) / 2

/-- The terms of the measured state and the last command, which no decision can change; the code adds them
with the weights and references of step 0. -/
def initialCost (d : Dims) (c : LinConfig K) (z : Nat → K) : K :=
  (sqErr d.ny (c.wY 0) (outputOf d c (stateAt d z 0) (c.dist 0)) (c.yRef 0) +
   sqErr d.nu (c.wU 0) (heldAt d z 0) (c.uRef 0)) / 2

end Mpc.Spec
