import Mathlib.Analysis.Calculus.FDeriv.Basic
import Mathlib.Analysis.Calculus.Deriv.Basic
import Mathlib.Analysis.Normed.Group.Constructions
import Verif.Spec.NlFun

/-
Specification vocabulary for the accuracy of the gradients of the nonlinear problem, over the real numbers: smooth user
functions, the functions the solver sees, partial derivatives with respect to the decision variables.
-/
namespace Mpc.NlSpec

/-- `ψ` is differentiable and its derivative is `L`-Lipschitz (largest absolute entry as norm of a point) -/
structure Smooth {E : Type} [NormedAddCommGroup E] [NormedSpace ℝ E] (ψ : E → ℝ) (L : ℝ) : Prop where
  diff : Differentiable ℝ ψ
  lip : ∀ p q, ‖fderiv ℝ ψ p - fderiv ℝ ψ q‖ ≤ L * ‖p - q‖

/-- a function of states, inputs and slack is smooth -/
def SmoothTraj {r n m : Nat} (φ : Traj r n ℝ → Traj r m ℝ → ℝ → ℝ) (L : ℝ) : Prop :=
  Smooth (fun p : Traj r n ℝ × Traj r m ℝ × ℝ => φ p.1 p.2.1 p.2.2) L

/-- the function of the decision vector which a function of states, inputs and slack becomes for the solver: `s` and `su` are
the scalings, `x0` the measured state -/
noncomputable def solverFn (d : Dims) (s su x0 : Nat → ℝ) (φ : Traj (d.ph + 1) d.nx ℝ → Traj (d.ph + 1) d.nu ℝ → ℝ → ℝ) (z : Nat → ℝ) : ℝ :=
  φ (codeStates d s x0 z) (inputs d su z) (z (slackIx d))

/-- every entry of `g` is within `ε` of the partial derivative of `J` at `z` with respect to that entry of the decision vector -/
def GradApprox (d : Dims) (J : (Nat → ℝ) → ℝ) (z g : Nat → ℝ) (ε : ℝ) : Prop :=
  ∀ v, v < d.ph * d.nx + d.nu * d.ch + 1 →
    ∃ D, HasDerivAt (fun t => J (Function.update z v t)) D (z v) ∧ |g v - D| ≤ ε

/-- the entries of the trajectory and the slack are at most `M` in magnitude -/
structure Within {r n m : Nat} (X : Traj r n ℝ) (U : Traj r m ℝ) (e M : ℝ) : Prop where
  one : 1 ≤ M
  states : ∀ k a, |X k a| ≤ M
  inputs : ∀ k b, |U k b| ≤ M
  slack : |e| ≤ M

/-- every component of the model is smooth at every step -/
def SmoothModel {n m : Nat} (F : FVec n ℝ → FVec m ℝ → Nat → FVec n ℝ) (L : ℝ) : Prop :=
  ∀ k r, Smooth (fun p : FVec n ℝ × FVec m ℝ => F p.1 p.2 k r) L

end Mpc.NlSpec
