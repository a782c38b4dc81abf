import Mathlib.Analysis.SpecialFunctions.Exponential
import Mathlib.Analysis.Calculus.MeanValue
import Mathlib.Analysis.Calculus.Deriv.Prod
import Mathlib.Analysis.Calculus.Deriv.Mul
import Mathlib.Analysis.Normed.Module.FiniteDimension
import Mathlib.LinearAlgebra.Matrix.Notation
import Verif.Model.Discretization

/-
C34: the discretization functions.
-/
namespace Mpc
noncomputable section
open Matrix NormedSpace

section
variable {n : Type} [Fintype n] [DecidableEq n]

attribute [local instance] Matrix.linftyOpNormedAddCommGroup Matrix.linftyOpNormedSpace Matrix.linftyOpNormedRing
  Matrix.linftyOpNormedAlgebra

theorem exp_entry_deriv (M : Matrix n n ℝ) (t : ℝ) (i j : n) :
    HasDerivAt (fun s : ℝ => exp (s • M) i j) ((exp (t • M) * M) i j) t := by
  let L : Matrix n n ℝ →ₗ[ℝ] ℝ := { toFun := fun X => X i j, map_add' := fun _ _ => rfl, map_smul' := fun _ _ => rfl }
  have h := hasDerivAt_exp_smul_const (𝕂 := ℝ) M t
  exact (LinearMap.toContinuousLinearMap L).hasFDerivAt.comp_hasDerivAt t h

theorem exp_comm (M : Matrix n n ℝ) (s : ℝ) : exp (s • M) * M = M * exp (s • M) :=
  (((Commute.refl M).smul_right s).exp_right).symm

theorem exp_add_mul (M : Matrix n n ℝ) (s t : ℝ) : exp ((s + t) • M) = exp (s • M) * exp (t • M) := by
  rw [add_smul]
  exact Matrix.exp_add_of_commute _ _ (((Commute.refl M).smul_left s).smul_right t)

end

section
variable {n : Type} [Fintype n] [DecidableEq n]

/-- every solution of z' = M z is given by the exponential -/
theorem linear_ode (M : Matrix n n ℝ) (z : ℝ → n → ℝ) (hz : ∀ t, HasDerivAt z (M *ᵥ z t) t) (t : ℝ) :
    z t = exp (t • M) *ᵥ z 0 := by
  have hc : ∀ t, exp (t • (-M)) *ᵥ z t = z 0 := by
    intro t
    have hd : ∀ s, HasDerivAt (fun s => exp (s • (-M)) *ᵥ z s) 0 s := by
      intro s
      rw [hasDerivAt_pi]
      intro i
      have : HasDerivAt (fun s => ∑ j, exp (s • (-M)) i j * z s j)
          (∑ j, ((exp (s • (-M)) * (-M)) i j * z s j + exp (s • (-M)) i j * (M *ᵥ z s) j)) s := by
        apply HasDerivAt.fun_sum
        intro j _
        exact (exp_entry_deriv (-M) s i j).mul ((hasDerivAt_pi.1 (hz s)) j)
      refine HasDerivAt.congr_deriv this ?_
      rw [Finset.sum_add_distrib]
      have e1 : ∑ j, (exp (s • (-M)) * (-M)) i j * z s j = ((exp (s • (-M)) * (-M)) *ᵥ z s) i := rfl
      have e2 : ∑ j, exp (s • (-M)) i j * (M *ᵥ z s) j = (exp (s • (-M)) *ᵥ (M *ᵥ z s)) i := rfl
      rw [e1, e2, mulVec_mulVec, Matrix.mul_neg, neg_mulVec, ← Pi.add_apply, neg_add_cancel]
    have := is_const_of_deriv_eq_zero (f := fun s => exp (s • (-M)) *ᵥ z s) (fun s => (hd s).differentiableAt)
      (fun s => (hd s).deriv) t 0
    beta_reduce at this
    rw [this, zero_smul, exp_zero, one_mulVec]
  rw [← hc t, mulVec_mulVec, smul_neg, ← neg_smul, ← exp_add_mul, add_neg_cancel, zero_smul, exp_zero, one_mulVec]

end

section
variable {n m : Type} [Fintype n] [DecidableEq n] [Fintype m] [DecidableEq m]

/-- the two upper blocks of the exponential -/
def zoh (A : Matrix n n ℝ) (B : Matrix n m ℝ) (Ts : ℝ) : Matrix n n ℝ × Matrix n m ℝ :=
  let E : Matrix (n ⊕ m) (n ⊕ m) ℝ := exp (fromRows (Ts • fromCols A B) 0)
  (E.toBlocks₁₁, E.toBlocks₁₂)

theorem zoh_blocks (A : Matrix n n ℝ) (B : Matrix n m ℝ) (Ts : ℝ) :
    exp (Ts • fromBlocks A B 0 (0 : Matrix m m ℝ)) = fromBlocks (zoh A B Ts).1 (zoh A B Ts).2 0 1 := by
  have hres : (fromRows (Ts • fromCols A B) 0 : Matrix (n ⊕ m) (n ⊕ m) ℝ) = Ts • fromBlocks A B 0 (0 : Matrix m m ℝ) := by
    ext i j
    rcases i with i | i <;> rcases j with j | j <;> simp
  have hd : zoh A B Ts = ((exp (Ts • fromBlocks A B 0 (0 : Matrix m m ℝ))).toBlocks₁₁,
      (exp (Ts • fromBlocks A B 0 (0 : Matrix m m ℝ))).toBlocks₁₂) := by
    unfold zoh
    simp only [hres]
  -- the lower blocks: row i of the exponential is constant in time
  have hlow : ∀ (t : ℝ) (i : m) j, exp (t • fromBlocks A B 0 (0 : Matrix m m ℝ)) (.inr i) j =
      (1 : Matrix (n ⊕ m) (n ⊕ m) ℝ) (.inr i) j := by
    intro t i j
    set M : Matrix (n ⊕ m) (n ⊕ m) ℝ := fromBlocks A B 0 0 with hM
    have hd : ∀ s, HasDerivAt (fun s : ℝ => exp (s • M) (.inr i) j) 0 s := by
      intro s
      refine HasDerivAt.congr_deriv (exp_entry_deriv M s _ j) ?_
      have hcomm : exp (s • M) * M = M * exp (s • M) := exp_comm M s
      rw [hcomm, mul_apply]
      apply Finset.sum_eq_zero
      intro k _
      rcases k with k | k <;> simp [hM]
    have := is_const_of_deriv_eq_zero (f := fun s : ℝ => exp (s • M) (.inr i) j) (fun s => (hd s).differentiableAt)
      (fun s => (hd s).deriv) t 0
    beta_reduce at this
    rw [this, zero_smul, exp_zero]
  rw [hd]
  ext i j
  rcases i with i | i
  · rcases j with j | j <;> simp [toBlocks₁₁, toBlocks₁₂]
  · rw [hlow Ts i j]
    rcases j with j | j
    · simp
    · simp [Matrix.one_apply]

theorem zoh_sampling (A : Matrix n n ℝ) (B : Matrix n m ℝ) (Ts : ℝ) (u : m → ℝ) (x : ℝ → n → ℝ)
    (hx : ∀ t, HasDerivAt x (A *ᵥ x t + B *ᵥ u) t) : x Ts = (zoh A B Ts).1 *ᵥ x 0 + (zoh A B Ts).2 *ᵥ u := by
  let z : ℝ → n ⊕ m → ℝ := fun t => Sum.elim (x t) u
  have hz : ∀ t, HasDerivAt z (fromBlocks A B 0 (0 : Matrix m m ℝ) *ᵥ z t) t := by
    intro t
    rw [hasDerivAt_pi]
    have hv : fromBlocks A B 0 (0 : Matrix m m ℝ) *ᵥ z t = Sum.elim (A *ᵥ x t + B *ᵥ u) 0 := by
      rw [fromBlocks_mulVec]
      simp [z, Function.comp_def]
    rw [hv]
    rintro (i | i)
    · exact hasDerivAt_pi.1 (hx t) i
    · exact hasDerivAt_const t (u i)
  have h := linear_ode _ z hz Ts
  rw [zoh_blocks, fromBlocks_mulVec] at h
  funext i
  have := congrFun h (.inl i)
  simpa [z, Function.comp_def] using this

theorem zoh_add (A : Matrix n n ℝ) (B : Matrix n m ℝ) (T1 T2 : ℝ) :
    (zoh A B (T1 + T2)).1 = (zoh A B T2).1 * (zoh A B T1).1 ∧
    (zoh A B (T1 + T2)).2 = (zoh A B T2).1 * (zoh A B T1).2 + (zoh A B T2).2 := by
  have h := exp_add_mul (fromBlocks A B 0 (0 : Matrix m m ℝ)) T2 T1
  rw [zoh_blocks, zoh_blocks, zoh_blocks, fromBlocks_multiply, fromBlocks_inj] at h
  rw [add_comm T1 T2]
  refine ⟨by rw [h.1]; simp, by rw [h.2.1]; simp⟩

theorem zoh_zero (A : Matrix n n ℝ) (B : Matrix n m ℝ) : (zoh A B 0).1 = 1 ∧ (zoh A B 0).2 = 0 := by
  have h := zoh_blocks A B 0
  rw [zero_smul, exp_zero, ← fromBlocks_one, fromBlocks_inj] at h
  exact ⟨h.1.symm, h.2.1.symm⟩

/-- a solution exists for every initial state and input -/
theorem zoh_exists (A : Matrix n n ℝ) (B : Matrix n m ℝ) (u : m → ℝ) (x0 : n → ℝ) :
    ∃ x : ℝ → n → ℝ, (∀ t, HasDerivAt x (A *ᵥ x t + B *ᵥ u) t) ∧ x 0 = x0 := by
  set M : Matrix (n ⊕ m) (n ⊕ m) ℝ := fromBlocks A B 0 0 with hM
  have hb : ∀ s, (exp (s • M) *ᵥ Sum.elim x0 u) = Sum.elim ((zoh A B s).1 *ᵥ x0 + (zoh A B s).2 *ᵥ u) u := by
    intro s
    rw [hM, zoh_blocks, fromBlocks_mulVec]
    simp [Function.comp_def]
  refine ⟨fun t i => (exp (t • M) *ᵥ Sum.elim x0 u) (.inl i), fun t => ?_, ?_⟩
  · rw [hasDerivAt_pi]
    intro i
    have : HasDerivAt (fun s => ∑ j, exp (s • M) (.inl i) j * Sum.elim x0 u j)
        (∑ j, (exp (t • M) * M) (.inl i) j * Sum.elim x0 u j) t := by
      apply HasDerivAt.fun_sum
      intro j _
      exact (exp_entry_deriv M t (.inl i) j).mul_const _
    refine HasDerivAt.congr_deriv this ?_
    have e : ∑ j, (exp (t • M) * M) (.inl i) j * Sum.elim x0 u j = ((exp (t • M) * M) *ᵥ Sum.elim x0 u) (.inl i) := rfl
    rw [e, exp_comm, ← mulVec_mulVec, hb, hM, fromBlocks_mulVec]
    simp only [Sum.elim_comp_inl, Sum.elim_inl, Sum.elim_comp_inr]
    rw [← hM]
    simp only [hb, Sum.elim_inl]
  · funext i
    simp only [zero_smul, exp_zero, one_mulVec, Sum.elim_inl]

end

namespace Props
variable {nx nu nud : Nat}

/-- C34. For every system and constant input, every solution of x' = A x + B u ends after the sampling time where the
discrete model says. -/
theorem c34_zoh (A : Matrix (Fin nx) (Fin nx) ℝ) (B : Matrix (Fin nx) (Fin nu) ℝ) (Ts : ℝ) (u : Fin nu → ℝ)
    (x : ℝ → Fin nx → ℝ) (hx : ∀ t, HasDerivAt x (A *ᵥ x t + B *ᵥ u) t) :
    x Ts = (discretize A B Ts).1 *ᵥ x 0 + (discretize A B Ts).2 *ᵥ u := zoh_sampling A B Ts u x hx

/-- C34, with disturbances. -/
theorem c34_zoh_disturbance (A : Matrix (Fin nx) (Fin nx) ℝ) (B : Matrix (Fin nx) (Fin nu) ℝ) (Be : Matrix (Fin nx) (Fin nud) ℝ)
    (Ts : ℝ) (u : Fin nu → ℝ) (d : Fin nud → ℝ) (x : ℝ → Fin nx → ℝ)
    (hx : ∀ t, HasDerivAt x (A *ᵥ x t + B *ᵥ u + Be *ᵥ d) t) :
    x Ts = (discretizeDist A B Be Ts).1 *ᵥ x 0 + (discretizeDist A B Be Ts).2.1 *ᵥ u + (discretizeDist A B Be Ts).2.2 *ᵥ d := by
  have h := zoh_sampling A (fromCols B Be) Ts (Sum.elim u d) x (fun t => by
    rw [fromCols_mulVec_sumElim, ← add_assoc]; exact hx t)
  have e : ∀ M : Matrix (Fin nx) (Fin nu ⊕ Fin nud) ℝ, M *ᵥ Sum.elim u d = toCols₁ M *ᵥ u + toCols₂ M *ᵥ d := by
    intro M
    rw [← fromCols_mulVec_sumElim, fromCols_toCols]
  rw [e, ← add_assoc] at h
  exact h

/-- C34, with the output map, which is not changed. -/
theorem c34_output (A : Matrix (Fin nx) (Fin nx) ℝ) (B : Matrix (Fin nx) (Fin nu) ℝ) (C : Matrix (Fin nx) (Fin nx) ℝ)
    (D : Matrix (Fin nx) (Fin nu) ℝ) (Ts : ℝ) : discretizeOutput A B C D Ts =
    ((discretize A B Ts).1, (discretize A B Ts).2, C, D) := rfl

/-- C34. Sampling with T1 + T2 is sampling with T1 followed by sampling with T2. -/
theorem c34_composition (A : Matrix (Fin nx) (Fin nx) ℝ) (B : Matrix (Fin nx) (Fin nu) ℝ) (T1 T2 : ℝ) (x : Fin nx → ℝ) (u : Fin nu → ℝ) :
    (discretize A B (T1 + T2)).1 *ᵥ x + (discretize A B (T1 + T2)).2 *ᵥ u =
      (discretize A B T2).1 *ᵥ ((discretize A B T1).1 *ᵥ x + (discretize A B T1).2 *ᵥ u) + (discretize A B T2).2 *ᵥ u := by
  have h := zoh_add A B T1 T2
  have h1 : (discretize A B (T1 + T2)).1 = (discretize A B T2).1 * (discretize A B T1).1 := h.1
  have h2 : (discretize A B (T1 + T2)).2 = (discretize A B T2).1 * (discretize A B T1).2 + (discretize A B T2).2 := h.2
  rw [h1, h2, add_mulVec, mulVec_add, mulVec_mulVec, mulVec_mulVec, add_assoc]

/-- C34. Sampling with a zero time changes nothing. -/
theorem c34_zero (A : Matrix (Fin nx) (Fin nx) ℝ) (B : Matrix (Fin nx) (Fin nu) ℝ) :
    (discretize A B 0).1 = 1 ∧ (discretize A B 0).2 = 0 := zoh_zero A B

/-- C34: the solutions spoken of exist, for every system, input and initial state; here a double integrator. -/
example : ∃ x : ℝ → Fin 2 → ℝ, (∀ t, HasDerivAt x (!![0, 1; 0, 0] *ᵥ x t + !![0; 1] *ᵥ ![3]) t) ∧ x 0 = ![1, 2] :=
  zoh_exists _ _ _ _

end Props
end
end Mpc
