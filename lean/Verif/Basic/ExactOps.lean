import Mathlib.Algebra.Ring.Basic
import Verif.Basic.Eigen
import Verif.Basic.Ext

/-
What exact and rounded arithmetic have in common: operations with zero and one are exact, and the sign is independent of the
magnitude. (Not: associativity, distributivity.) The part of the linear model which copies numbers needs no more than this, so
that its lemmas hold for exact and for rounded numbers.
-/
namespace Mpc

/-- laws which hold for exact arithmetic and for floating-point arithmetic (zeros of different sign being identified) -/
class ExactOps (K : Type) [Zero K] [One K] [Add K] [Mul K] [Neg K] : Prop where
  zero_mul : ∀ x : K, 0 * x = 0
  mul_zero : ∀ x : K, x * 0 = 0
  one_mul : ∀ x : K, 1 * x = x
  zero_add : ∀ x : K, 0 + x = x
  add_zero : ∀ x : K, x + 0 = x
  neg_zero : -(0 : K) = 0
  neg_mul : ∀ x y : K, -x * y = -(x * y)
  neg_add : ∀ x y : K, -(x + y) = -x + -y

instance {K : Type} [Ring K] : ExactOps K where
  zero_mul := MulZeroClass.zero_mul
  mul_zero := MulZeroClass.mul_zero
  one_mul := fun x => by simp
  zero_add := _root_.zero_add
  add_zero := _root_.add_zero
  neg_zero := by simp
  neg_mul := fun x y => by simp
  neg_add := fun x y => by rw [_root_.neg_add_rev, add_comm]

section
variable {K : Type}

theorem sumTo_congr [Zero K] [Add K] {n : Nat} {f g : Nat → K} (h : ∀ i, i < n → f i = g i) : sumTo n f = sumTo n g := by
  induction n with
  | zero => rfl
  | succ n ih => rw [sumTo, sumTo, ih fun i hi => h i (by omega), h n (by omega)]

variable [Zero K] [One K] [Add K] [Mul K] [Neg K] [ExactOps K]

theorem sumTo_zero {n : Nat} {f : Nat → K} (h : ∀ i, i < n → f i = 0) : sumTo n f = 0 := by
  induction n with
  | zero => rfl
  | succ n ih => rw [sumTo, ih fun i hi => h i (by omega), h n (by omega), ExactOps.add_zero]

/-- a sum with a single non-zero term -/
theorem sumTo_single {n k : Nat} {f : Nat → K} (hk : k < n) (h : ∀ i, i < n → i ≠ k → f i = 0) : sumTo n f = f k := by
  induction n with
  | zero => omega
  | succ n ih =>
    rw [sumTo]
    by_cases e : n = k
    · subst e
      rw [sumTo_zero fun i hi => h i (by omega) (by omega), ExactOps.zero_add]
    · rw [ih (by omega) fun i hi hne => h i (by omega) hne, h n (by omega) e, ExactOps.add_zero]

theorem sumTo_neg {n : Nat} {f : Nat → K} : (sumTo n fun i => -f i) = -sumTo n f := by
  induction n with
  | zero => exact ExactOps.neg_zero.symm
  | succ n ih => rw [sumTo, sumTo, ih, ExactOps.neg_add]

/-- adding zero to a bound changes nothing -/
theorem Ext.add_zero_exact (e : Ext K) : e.add 0 = e := by
  cases e <;> simp [Ext.add, ExactOps.add_zero]

end
end Mpc
