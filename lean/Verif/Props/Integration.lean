import Mathlib.Analysis.Calculus.MeanValue
import Mathlib.Analysis.Calculus.Deriv.Pow
import Mathlib.Algebra.Module.LinearMap.End
import Mathlib.Tactic.Module
import Mathlib.Tactic.FieldSimp
import Mathlib.Data.Nat.Factorial.Basic
import Mathlib.Algebra.BigOperators.Group.Finset.Basic
import Verif.Model.Integrator

/-
C32, C33: the Runge-Kutta integrator.
-/
namespace Mpc.Props
open Mpc

section
variable {K V : Type} [Field K] [AddCommGroup V] [Module K V]

/-- Integrating `n` steps of length `h` one after the other, each started at the time where the previous one ended
(`one t x` is a single step from time `t`). -/
def chain (one : K → V → V) (h : K) : Nat → K → V → V
  | 0, _, x => x
  | n + 1, t, x => chain one h n (t + h) (one t x)

/-- C32 as stated. -/
def C32Claim (K V : Type) [Field K] [AddCommGroup V] [Module K V] : Prop :=
  ∀ (f : K → V → V) (t h : K) (x : V) (n : Nat), n < 2 ^ 31 →
    rk4Run f t x h n = chain (fun s y => rk4Run f s y h 1) h n t x

theorem toSizeT_natCast {n : Nat} (h : n < 2 ^ 31) : toSizeT (n : Int) = n := by
  unfold toSizeT
  rw [Int.emod_eq_of_lt (by omega) (by omega)]
  simp

/-- C32 is violated: the time is not advanced between the sub-steps (here x' = t, two steps of length 1 from 0). -/
theorem c32_violated : ¬ C32Claim ℚ ℚ := by
  intro h
  have := h (fun t _ => t) 0 1 0 2 (by norm_num)
  rw [rk4Run, toSizeT_natCast (by norm_num)] at this
  simp only [chain, rk4Run] at this
  rw [show toSizeT 1 = 1 from rfl] at this
  simp [Function.iterate_succ, rk4Body] at this
  norm_num at this

/-- C32, partial: zero sub-steps return the initial state, one sub-step is one step. -/
theorem c32_zero_one_partial (f : K → V → V) (t h : K) (x : V) :
    rk4Run f t x h 0 = x ∧ rk4Run f t x h 1 = chain (fun s y => rk4Run f s y h 1) h 1 t x := ⟨rfl, rfl⟩

/-- C32, partial: the claim holds for systems which do not depend on time. -/
theorem c32_autonomous_partial (f : K → V → V) (hf : ∀ s s' y, f s y = f s' y) (t h : K) (x : V) (n : Nat) (hn : n < 2 ^ 31) :
    rk4Run f t x h n = chain (fun s y => rk4Run f s y h 1) h n t x := by
  have hb : ∀ s s' y, rk4Body f s h y = rk4Body f s' h y := by
    intro s s' y
    unfold rk4Body
    simp only [hf s s', hf (s + h / 2) (s' + h / 2), hf (s + h) (s' + h)]
  rw [rk4Run, toSizeT_natCast hn]
  clear hn
  induction n generalizing t x with
  | zero => rfl
  | succ n ih =>
    rw [Function.iterate_succ_apply, chain, ← ih]
    have : rk4Body f t h = rk4Body f (t + h) h := funext fun y => hb _ _ _
    rw [rk4Run, show toSizeT 1 = 1 from rfl, Function.iterate_one, ← this]

/-- C32, partial: what is computed in general, for every number of sub-steps: all sub-steps start at the initial time. -/
theorem c32_actual_partial (f : K → V → V) (t h : K) (x : V) (n : Nat) (hn : n < 2 ^ 31) :
    rk4Run f t x h n = (fun y => rk4Run f t y h 1)^[n] x := by
  rw [rk4Run, toSizeT_natCast hn]
  rfl

/-- A negative number of sub-steps is taken modulo 2^64 (a loop of about 1.8e19 passes, not an error). -/
theorem c32_negative_partial (f : K → V → V) (t h : K) (x : V) (n : Nat) (hn : 0 < n) (hn' : n < 2 ^ 31) :
    rk4Run f t x h (-(n : Int)) = (fun y => rk4Run f t y h 1)^[2 ^ 64 - n] x := by
  have : toSizeT (-(n : Int)) = 2 ^ 64 - n := by
    unfold toSizeT
    have : (-(n : Int)) % 2 ^ 64 = 2 ^ 64 - n := by omega
    rw [this]
    omega
  rw [rk4Run, this]
  rfl

example : rk4Run (fun (_ : ℚ) (y : ℚ) => y) 0 1 1 2 = (65 / 24) ^ 2 := by
  rw [rk4Run, show toSizeT 2 = 2 from rfl]
  simp [Function.iterate_succ, rk4Body]
  norm_num

end

section
variable {E : Type} [NormedAddCommGroup E] [NormedSpace ℝ E]

/-- C33. One step is exact on every right-hand side that is a cubic polynomial of time: whatever the curve `X` with this
derivative, the step from `X t` ends at `X (t + h)`. -/
theorem c33_cubic (a b c d : E) (X : ℝ → E) (hX : ∀ s, HasDerivAt X (a + s • b + s ^ 2 • c + s ^ 3 • d) s) (t h : ℝ) :
    rk4Run (fun s _ => a + s • b + s ^ 2 • c + s ^ 3 • d) t (X t) h 1 = X (t + h) := by
  let P : ℝ → E := fun s => s • a + (s ^ 2 / 2) • b + (s ^ 3 / 3) • c + (s ^ 4 / 4) • d
  have hP : ∀ s, HasDerivAt P (a + s • b + s ^ 2 • c + s ^ 3 • d) s := by
    intro s
    have h1 : HasDerivAt (fun s : ℝ => s • a) ((1 : ℝ) • a) s := (hasDerivAt_id s).smul_const a
    have h2 : HasDerivAt (fun s : ℝ => (s ^ 2 / 2) • b) ((((2 : ℕ) : ℝ) * s ^ (2 - 1) / 2) • b) s := ((hasDerivAt_pow 2 s).div_const 2).smul_const b
    have h3 : HasDerivAt (fun s : ℝ => (s ^ 3 / 3) • c) ((((3 : ℕ) : ℝ) * s ^ (3 - 1) / 3) • c) s := ((hasDerivAt_pow 3 s).div_const 3).smul_const c
    have h4 : HasDerivAt (fun s : ℝ => (s ^ 4 / 4) • d) ((((4 : ℕ) : ℝ) * s ^ (4 - 1) / 4) • d) s := ((hasDerivAt_pow 4 s).div_const 4).smul_const d
    have := ((h1.add h2).add h3).add h4
    refine HasDerivAt.congr_deriv this ?_
    rw [one_smul, show ((2 : ℕ) : ℝ) * s ^ (2 - 1) / 2 = s by norm_num, show ((3 : ℕ) : ℝ) * s ^ (3 - 1) / 3 = s ^ 2 by
      rw [show 3 - 1 = 2 from rfl]; push_cast; ring, show ((4 : ℕ) : ℝ) * s ^ (4 - 1) / 4 = s ^ 3 by
      rw [show 4 - 1 = 3 from rfl]; push_cast; ring]
  have hc : ∀ s, X s - P s = X t - P t := by
    intro s
    refine is_const_of_deriv_eq_zero (f := fun s => X s - P s) (fun s => ((hX s).sub (hP s)).differentiableAt) (fun s => ?_) s t
    have := ((hX s).sub (hP s)).deriv
    rw [sub_self] at this
    exact this
  have : X (t + h) = X t + (P (t + h) - P t) := by
    have := hc (t + h)
    rw [sub_eq_sub_iff_add_eq_add] at this
    rw [add_sub, ← this]; abel
  rw [this, rk4Run, show toSizeT 1 = 1 from rfl, Function.iterate_one]
  simp only [rk4Body, P]
  module

end

section
variable {K V : Type} [Field K] [CharZero K] [AddCommGroup V] [Module K V]

/-- C33. On a linear system x' = A x one step is the degree-4 Taylor polynomial of the exponential. -/
theorem c33_linear (A : Module.End K V) (t h : K) (x : V) :
    rk4Run (fun _ y => A y) t x h 1 = ∑ k ∈ Finset.range 5, (h ^ k / (k.factorial : K)) • (A ^ k) x := by
  rw [rk4Run, show toSizeT 1 = 1 from rfl, Function.iterate_one]
  simp only [rk4Body, Finset.sum_range_succ, Finset.sum_range_zero, map_add, map_smul]
  simp only [pow_succ, pow_zero, Module.End.mul_apply, Module.End.one_apply, Nat.factorial, one_mul]
  push_cast
  module

/-- C33. The same for an input held constant over the step, x' = A x + b: the step is the degree-4 Taylor polynomial of
the exact solution. -/
theorem c33_affine (A : Module.End K V) (b : V) (t h : K) (x : V) :
    rk4Run (fun _ y => A y + b) t x h 1 = (∑ k ∈ Finset.range 5, (h ^ k / (k.factorial : K)) • (A ^ k) x) +
      ∑ k ∈ Finset.range 4, (h ^ (k + 1) / ((k + 1).factorial : K)) • (A ^ k) b := by
  rw [rk4Run, show toSizeT 1 = 1 from rfl, Function.iterate_one]
  simp only [rk4Body, Finset.sum_range_succ, Finset.sum_range_zero, map_add, map_smul]
  simp only [pow_succ, pow_zero, Module.End.mul_apply, Module.End.one_apply, Nat.factorial, one_mul]
  push_cast
  module

end

/-- a curve with a cubic derivative -/
example : ∃ X : ℝ → ℝ, (∀ s, HasDerivAt X (1 + s • (2 : ℝ) + s ^ 2 • (3 : ℝ) + s ^ 3 • (4 : ℝ)) s) ∧ X 0 = 0 ∧ X 1 = 4 := by
  refine ⟨fun s => s + s ^ 2 + s ^ 3 + s ^ 4, fun s => ?_, by norm_num, by norm_num⟩
  have := (((hasDerivAt_id s).add (hasDerivAt_pow 2 s)).add (hasDerivAt_pow 3 s)).add (hasDerivAt_pow 4 s)
  refine HasDerivAt.congr_deriv this ?_
  rw [show 2 - 1 = 1 from rfl, show 3 - 1 = 2 from rfl, show 4 - 1 = 3 from rfl]
  push_cast
  simp only [smul_eq_mul]
  ring

example : rk4Run (fun (s : ℝ) (_ : ℝ) => 1 + s • (2 : ℝ) + s ^ 2 • (3 : ℝ) + s ^ 3 • (4 : ℝ)) 0 0 1 1 = 4 := by
  rw [rk4Run, show toSizeT 1 = 1 from rfl, Function.iterate_one]
  simp only [rk4Body, smul_eq_mul]
  norm_num

end Mpc.Props
