import Mathlib.Tactic.Positivity
import Mathlib.Tactic.Linarith
import Verif.Model.Dim

/-
C31: dimension arithmetic, for all sizes and integers.
-/
namespace Mpc.Props
open Mpc

/-- What the result of an operation on the dimensions `a` and `b` should be: if both are static (not negative) the
number `n`, which is again static; otherwise dynamic. -/
structure DimResult (a b n : Int) (r : Size) : Prop where
  static : 0 ≤ a → 0 ≤ b → r.value = n ∧ 0 ≤ r.value
  dynamic : (a < 0 ∨ b < 0) → r.value = -1

/-- the values a dimension can have: dynamic (-1) or static (0 or more) -/
abbrev IsDim (a : Int) : Prop := -1 ≤ a

theorem size_result {a b n : Int} {r : Size} (h : (do let m ← int32 n; return (⟨makeDimension m (Size.isStatic a b)⟩ : Size)) = Except.ok r) :
    (0 ≤ a → 0 ≤ b → r.value = n) ∧ ((a < 0 ∨ b < 0) → r.value = -1) := by
  unfold int32 at h
  split_ifs at h
  · cases h
    unfold makeDimension Size.isStatic dynamic
    constructor
    · intro ha hb
      have h1 : -1 < a := by omega
      have h2 : -1 < b := by omega
      simp [h1, h2]
    · intro hab
      have : ¬ (-1 < a ∧ -1 < b) := by omega
      simp [this]
  · cases h

/-- C31 for sums, in all three forms. -/
theorem c31_sum {a b : Int} {r : Size} :
    (Size.add ⟨a⟩ ⟨b⟩ = .ok r → DimResult a b (a + b) r) ∧ (Size.addInt ⟨a⟩ b = .ok r → DimResult a b (a + b) r) ∧
    (Size.intAdd a ⟨b⟩ = .ok r → DimResult a b (a + b) r) := by
  refine ⟨fun h => ?_, fun h => ?_, fun h => ?_⟩
  · obtain ⟨h1, h2⟩ := size_result (a := a) (b := b) (n := a + b) h
    exact ⟨fun x y => ⟨h1 x y, by rw [h1 x y]; omega⟩, h2⟩
  · obtain ⟨h1, h2⟩ := size_result (a := a) (b := b) (n := a + b) h
    exact ⟨fun x y => ⟨h1 x y, by rw [h1 x y]; omega⟩, h2⟩
  · obtain ⟨h1, h2⟩ := size_result (a := b) (b := a) (n := b + a) h
    exact ⟨fun x y => ⟨by rw [h1 y x]; omega, by rw [h1 y x]; omega⟩, fun hh => h2 hh.symm⟩

/-- C31 for products, in all three forms. -/
theorem c31_product {a b : Int} {r : Size} :
    (Size.mul ⟨a⟩ ⟨b⟩ = .ok r → DimResult a b (a * b) r) ∧ (Size.mulInt ⟨a⟩ b = .ok r → DimResult a b (a * b) r) ∧
    (Size.intMul a ⟨b⟩ = .ok r → DimResult a b (a * b) r) := by
  refine ⟨fun h => ?_, fun h => ?_, fun h => ?_⟩
  · obtain ⟨h1, h2⟩ := size_result (a := a) (b := b) (n := a * b) h
    exact ⟨fun x y => ⟨h1 x y, by rw [h1 x y]; positivity⟩, h2⟩
  · obtain ⟨h1, h2⟩ := size_result (a := a) (b := b) (n := a * b) h
    exact ⟨fun x y => ⟨h1 x y, by rw [h1 x y]; positivity⟩, h2⟩
  · obtain ⟨h1, h2⟩ := size_result (a := b) (b := a) (n := b * a) h
    exact ⟨fun x y => ⟨by rw [h1 y x, mul_comm], by rw [h1 y x]; positivity⟩, fun hh => h2 hh.symm⟩

/-- C31. The operations are defined whenever the C++ expression does not overflow. -/
theorem c31_defined {a b : Int} (h : -2 ^ 31 ≤ a + b ∧ a + b < 2 ^ 31) : ∃ r, Size.add ⟨a⟩ ⟨b⟩ = .ok r := by
  unfold Size.add int32
  simp only [h, and_self, if_true]
  exact ⟨_, rfl⟩

example : IsDim 3 ∧ IsDim (-1) ∧ Size.add ⟨3⟩ ⟨4⟩ = .ok ⟨7⟩ ∧ Size.intMul 2 ⟨-1⟩ = .ok ⟨-1⟩ := by
  refine ⟨by decide, by decide, rfl, rfl⟩

/-- C31 for differences, as stated. -/
def C31DifferenceClaim : Prop := ∀ a b : Int, IsDim a → IsDim b → ∀ r : Size, Size.sub ⟨a⟩ ⟨b⟩ = .ok r → DimResult a b (a - b) r

/-- C31 for differences with an integer on the left, as stated. -/
def C31IntMinusClaim : Prop := ∀ a b : Int, IsDim a → IsDim b → ∀ r : Size, Size.intSub a ⟨b⟩ = .ok r → 0 ≤ a → 0 ≤ b → r.value = a - b

/-- C31 is violated for `int - Size`: the operands are swapped. -/
theorem c31_int_minus_violated : ¬ C31IntMinusClaim := by
  intro h
  have := h 5 2 (by decide) (by decide) ⟨-3⟩ rfl (by decide) (by decide)
  revert this; decide

/-- C31 is violated for `Size - Size`: a static result of -1 is the mark of a dynamic size. -/
theorem c31_difference_violated : ¬ C31DifferenceClaim := by
  intro h
  have := ((h 2 3 (by decide) (by decide) ⟨-1⟩ rfl).static (by decide) (by decide)).2
  revert this; decide

/-- C31 for differences, partial: right when the result is not negative. (Missing: negative results; integer on the
left.) -/
theorem c31_difference_partial {a b : Int} (hab : 0 ≤ a → 0 ≤ b → b ≤ a) {r : Size} :
    (Size.sub ⟨a⟩ ⟨b⟩ = .ok r → DimResult a b (a - b) r) ∧ (Size.subInt ⟨a⟩ b = .ok r → DimResult a b (a - b) r) := by
  refine ⟨fun h => ?_, fun h => ?_⟩ <;>
  · obtain ⟨h1, h2⟩ := size_result (a := a) (b := b) (n := a - b) h
    exact ⟨fun x y => ⟨h1 x y, by have := hab x y; rw [h1 x y]; omega⟩, h2⟩

/-- C31 for `int - Size`, partial: what it computes is the difference with the operands swapped. -/
theorem c31_int_minus_partial {a b : Int} {r : Size} (h : Size.intSub a ⟨b⟩ = .ok r) (ha : 0 ≤ a) (hb : 0 ≤ b) :
    r.value = b - a := (size_result (a := b) (b := a) (n := b - a) h).1 hb ha

example : Size.sub ⟨7⟩ ⟨3⟩ = .ok ⟨4⟩ := rfl

end Mpc.Props
