import Mathlib.Analysis.Normed.Algebra.MatrixExponential
import Mathlib.Data.Matrix.ColumnRowPartitioned

/-
Model of include/mpc/Utils.hpp over the real numbers.

Simplifications: the matrix exponential of Eigen (`exp`, a Padé approximation) is the exact exponential. Indices
`0 .. nx-1` and `nx .. nx+nu-1` of the stacked matrices are the two sides of `Fin nx ⊕ Fin nu`, so that `block(0, 0, nx, nx)` is
the upper left and `block(0, nx, nx, nu)` the upper right block.
-/
namespace Mpc
noncomputable section
open Matrix NormedSpace

variable {nx nu nud ny : Nat}

/-- `discretization` (Utils.hpp:23-47): the pair `(Ad, Bd)` -/
def discretize (A : Matrix (Fin nx) (Fin nx) ℝ) (B : Matrix (Fin nx) (Fin nu) ℝ) (Ts : ℝ) :
    Matrix (Fin nx) (Fin nx) ℝ × Matrix (Fin nx) (Fin nu) ℝ :=
  -- AB.block(0, 0) = A, AB.block(0, nx) = B; AB = AB * Ts
  let AB : Matrix (Fin nx) (Fin nx ⊕ Fin nu) ℝ := Ts • fromCols A B
  -- res.setZero(); res.block(0, 0, nx, nx + nu) = AB
  let res : Matrix (Fin nx ⊕ Fin nu) (Fin nx ⊕ Fin nu) ℝ := fromRows AB 0
  let res := exp res
  (res.toBlocks₁₁, res.toBlocks₁₂)

/-- `discretization` with disturbances (Utils.hpp:63-89): `(Ad, Bd, Bed)` -/
def discretizeDist (A : Matrix (Fin nx) (Fin nx) ℝ) (B : Matrix (Fin nx) (Fin nu) ℝ) (Be : Matrix (Fin nx) (Fin nud) ℝ)
    (Ts : ℝ) : Matrix (Fin nx) (Fin nx) ℝ × Matrix (Fin nx) (Fin nu) ℝ × Matrix (Fin nx) (Fin nud) ℝ :=
  let ABBe : Matrix (Fin nx) (Fin nx ⊕ (Fin nu ⊕ Fin nud)) ℝ := Ts • fromCols A (fromCols B Be)
  let res : Matrix (Fin nx ⊕ (Fin nu ⊕ Fin nud)) (Fin nx ⊕ (Fin nu ⊕ Fin nud)) ℝ := fromRows ABBe 0
  let res := exp res
  (res.toBlocks₁₁, toCols₁ res.toBlocks₁₂, toCols₂ res.toBlocks₁₂)

/-- `discretization` with the output map (Utils.hpp:108-118): `(Ad, Bd, Cd, Dd)`. The parameter `Dd` is declared
`mat<nx, nu>` and assigned a `mat<ny, nu>`, which compiles only for `ny = nx`: the model has `ny = nx`. -/
def discretizeOutput (A : Matrix (Fin nx) (Fin nx) ℝ) (B : Matrix (Fin nx) (Fin nu) ℝ) (C : Matrix (Fin nx) (Fin nx) ℝ)
    (D : Matrix (Fin nx) (Fin nu) ℝ) (Ts : ℝ) : Matrix (Fin nx) (Fin nx) ℝ × Matrix (Fin nx) (Fin nu) ℝ ×
      Matrix (Fin nx) (Fin nx) ℝ × Matrix (Fin nx) (Fin nu) ℝ :=
  let AdBd := discretize A B Ts
  (AdBd.1, AdBd.2, C, D)

end
end Mpc
