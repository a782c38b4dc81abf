import Mathlib.Algebra.Order.Field.Basic
import Mathlib.Algebra.Order.Floor.Ring
import Mathlib.Algebra.Order.Ring.Abs
import Mathlib.Algebra.Ring.Parity
import Mathlib.Data.Int.Log
import Mathlib.Tactic.Linarith
import Mathlib.Tactic.FieldSimp
import Mathlib.Tactic.Ring
import Mathlib.Tactic.Positivity
import Verif.Basic.ExactOps

/-
Floating-point numbers, for running the model of the linear controller in the arithmetic of the code (`mat`, `cvec` and `rvec`
are Eigen matrices of `double`, /repo/include/mpc/Types.hpp:38-51).

A `Rounding` says how the exact result of an operation is rounded; `Fl R` are the numbers which rounding leaves alone, with the
rounded operations. `binary p` is IEEE 754 "round to nearest, ties to even" with `p` significant bits (`double`: 53).

Simplifications: no overflow, underflow or NaN (infinite bounds are `Ext`); `0` and `-0` are the same number; every operation is
rounded separately and sums are computed from left to right (a compiler using fused multiply-add, or Eigen's vectorised sums,
evaluates the same sums in another order). Division is only used for the constants in the default parameters of OSQP.
-/
namespace Mpc
set_option linter.unusedSectionVars false

/-- A rounding function with relative error at most `eps`. -/
structure Rounding (K : Type) [Field K] [LinearOrder K] where
  rnd : K → K
  eps : K
  mono : ∀ x y, x ≤ y → rnd x ≤ rnd y
  idem : ∀ x, rnd (rnd x) = rnd x
  one : rnd 1 = 1
  odd : ∀ x, rnd (-x) = -rnd x
  eps_nonneg : 0 ≤ eps
  err : ∀ x, |rnd x - x| ≤ eps * |x|

/-- The numbers a rounding leaves alone. -/
def Fl {K : Type} [Field K] [LinearOrder K] (R : Rounding K) : Type := { x : K // R.rnd x = x }

namespace Fl
variable {K : Type} [Field K] [LinearOrder K] [IsStrictOrderedRing K] {R : Rounding K}

theorem _root_.Mpc.Rounding.zero (R : Rounding K) : R.rnd 0 = 0 := by
  have := R.odd 0
  rw [neg_zero] at this
  linarith

/-- the exact number a floating-point number stands for -/
def val (x : Fl R) : K := x.1

/-- the floating-point number nearest to `x` -/
def of (R : Rounding K) (x : K) : Fl R := ⟨R.rnd x, R.idem x⟩

instance : DecidableEq (Fl R) := inferInstanceAs (DecidableEq { x : K // R.rnd x = x })
instance : Zero (Fl R) := ⟨⟨0, R.zero⟩⟩
instance : One (Fl R) := ⟨⟨1, R.one⟩⟩
instance : Neg (Fl R) := ⟨fun x => ⟨-x.1, by rw [R.odd, x.2]⟩⟩
/-- addition of two `double`s -/
instance : Add (Fl R) := ⟨fun x y => of R (x.1 + y.1)⟩
/-- multiplication of two `double`s -/
instance : Mul (Fl R) := ⟨fun x y => of R (x.1 * y.1)⟩
/-- division of two `double`s, the divisor not being zero -/
instance : Div (Fl R) := ⟨fun x y => of R (x.1 / y.1)⟩
/-- conversion of an integer -/
instance : NatCast (Fl R) := ⟨fun n => of R n⟩

@[simp] theorem val_zero : (0 : Fl R).val = 0 := rfl
@[simp] theorem val_one : (1 : Fl R).val = 1 := rfl
@[simp] theorem val_neg (x : Fl R) : (-x).val = -x.val := rfl
theorem val_add (x y : Fl R) : (x + y).val = R.rnd (x.val + y.val) := rfl
theorem val_mul (x y : Fl R) : (x * y).val = R.rnd (x.val * y.val) := rfl
theorem rnd_val (x : Fl R) : R.rnd x.val = x.val := x.2
theorem ext {x y : Fl R} (h : x.val = y.val) : x = y := Subtype.ext h
theorem of_val (x : Fl R) : of R x.val = x := ext x.2
theorem val_of_fixed {x : K} (h : R.rnd x = x) : (of R x).val = x := h

instance : ExactOps (Fl R) where
  zero_mul x := ext (by rw [val_mul, val_zero, zero_mul, R.zero])
  mul_zero x := ext (by rw [val_mul, val_zero, mul_zero, R.zero])
  one_mul x := ext (by rw [val_mul, val_one, one_mul, rnd_val])
  zero_add x := ext (by rw [val_add, val_zero, zero_add, rnd_val])
  add_zero x := ext (by rw [val_add, val_zero, add_zero, rnd_val])
  neg_zero := ext (by rw [val_neg, val_zero, neg_zero])
  neg_mul x y := ext (by rw [val_mul, val_neg, val_neg, val_mul, neg_mul, R.odd])
  neg_add x y := ext (by rw [val_neg, val_add, val_add, val_neg, val_neg, ← R.odd, neg_add])

end Fl

/-! ### Exact arithmetic as a special case -/

/-- no rounding at all -/
def Rounding.exact (K : Type) [Field K] [LinearOrder K] [IsStrictOrderedRing K] : Rounding K where
  rnd := id
  eps := 0
  mono _ _ h := h
  idem _ := rfl
  one := rfl
  odd _ := rfl
  eps_nonneg := le_refl 0
  err x := by simp

/-! ### Binary floating-point numbers -/

section
variable {K : Type} [Field K] [LinearOrder K] [IsStrictOrderedRing K] [FloorRing K]

/-- round to the nearest integer, ties to even -/
def roundEven (x : K) : ℤ :=
  if x - ⌊x⌋ < 1 / 2 then ⌊x⌋ else if 1 / 2 < x - ⌊x⌋ then ⌊x⌋ + 1 else if Even ⌊x⌋ then ⌊x⌋ else ⌊x⌋ + 1

theorem roundEven_int (n : ℤ) : roundEven (n : K) = n := by
  unfold roundEven
  rw [if_pos (by simp), Int.floor_intCast]

theorem roundEven_ge (x : K) : ⌊x⌋ ≤ roundEven x := by
  unfold roundEven; split_ifs <;> omega

theorem roundEven_le (x : K) : roundEven x ≤ ⌊x⌋ + 1 := by
  unfold roundEven; split_ifs <;> omega

theorem roundEven_err (x : K) : |(roundEven x : K) - x| ≤ 1 / 2 := by
  have h1 := Int.floor_le x
  have h2 := Int.lt_floor_add_one x
  unfold roundEven
  rw [abs_le]
  split_ifs <;> push_cast <;> constructor <;> linarith

theorem roundEven_mono {x y : K} (h : x ≤ y) : roundEven x ≤ roundEven y := by
  have hf := Int.floor_le_floor h
  rcases hf.lt_or_eq with hlt | heq
  · have := roundEven_le x
    have := roundEven_ge y
    omega
  · unfold roundEven
    rw [heq]
    split_ifs <;> first | omega | (exfalso; linarith)

theorem roundEven_neg (x : K) : roundEven (-x) = -roundEven x := by
  by_cases hx : (⌊x⌋ : K) = x
  · rw [← hx, ← Int.cast_neg, roundEven_int, roundEven_int]
  · have h1 : (⌊x⌋ : K) < x := lt_of_le_of_ne (Int.floor_le x) hx
    have h2 := Int.lt_floor_add_one x
    have hf : ⌊-x⌋ = -⌊x⌋ - 1 := by
      rw [Int.floor_eq_iff]
      push_cast
      constructor <;> linarith
    have he : Even (-⌊x⌋ - 1) ↔ ¬ Even ⌊x⌋ := by
      rw [Int.even_sub_one, even_neg]
    unfold roundEven
    rw [hf]
    simp only [he]
    push_cast
    split_ifs <;> first | omega | (exfalso; linarith)

/-- spacing of the `p`-bit numbers around `x` -/
def ulp (p : ℕ) (x : K) : K := 2 ^ (Int.log 2 |x| + 1 - p)

/-- round to `p` significant bits, to the nearest, ties to even -/
def roundBits (p : ℕ) (x : K) : K := roundEven (x / ulp p x) * ulp p x

theorem ulp_pos (p : ℕ) (x : K) : 0 < ulp p x := zpow_pos (by norm_num) _

theorem roundBits_zero (p : ℕ) : roundBits p (0 : K) = 0 := by
  have h := roundEven_int (K := K) 0
  rw [Int.cast_zero] at h
  unfold roundBits
  rw [zero_div, h, Int.cast_zero, zero_mul]

/-- multiples of the spacing are left alone -/
theorem roundBits_of_mul {p : ℕ} {x : K} {n : ℤ} {k : ℤ} (hx : x = n * 2 ^ k) (h : Int.log 2 |x| + 1 - p ≤ k) :
    roundBits p x = x := by
  obtain ⟨t, rfl⟩ := Int.le.dest h
  have h2 : (2 : K) ≠ 0 := by norm_num
  have : x / ulp p x = ((n * 2 ^ t : ℤ) : K) := by
    rw [div_eq_iff (ulp_pos p x).ne']
    conv_lhs => rw [hx]
    rw [zpow_add₀ h2, zpow_natCast]
    unfold ulp
    push_cast
    ring
  unfold roundBits
  rw [this, roundEven_int, ← this, div_mul_cancel₀ _ (ulp_pos p x).ne']

/-- integers of at most `p` bits times a power of two are left alone -/
theorem roundBits_fixed {p : ℕ} (hp : 1 ≤ p) {n k : ℤ} (h : |n| ≤ 2 ^ p) : roundBits p ((n : K) * 2 ^ k) = n * 2 ^ k := by
  have h2 : (1 : K) < 2 := by norm_num
  by_cases h0 : n = 0
  · subst h0; simp [roundBits_zero]
  have hpos : (0 : K) < 2 ^ k := zpow_pos (by norm_num) _
  have hn : (0 : K) < |(n : K)| := by rw [abs_pos]; exact_mod_cast h0
  have habs : |(n : K) * 2 ^ k| = |(n : K)| * 2 ^ k := by rw [abs_mul, abs_of_pos hpos]
  have hle : |(n : K)| ≤ 2 ^ p := by exact_mod_cast h
  rcases hle.lt_or_eq with hlt | heq
  · refine roundBits_of_mul rfl ?_
    have : Int.log 2 |(n : K) * 2 ^ k| < k + p := by
      rw [← Int.lt_zpow_iff_log_lt (by norm_num) (by rw [habs]; positivity), habs]
      push_cast
      rw [zpow_add₀ (by norm_num), zpow_natCast, mul_comm]
      exact mul_lt_mul_of_pos_left hlt hpos
    omega
  · have hl : Int.log 2 |(n : K) * 2 ^ k| = p + k := by
      rw [habs, heq, ← zpow_natCast (2 : K) p, ← zpow_add₀ (by norm_num)]
      exact_mod_cast Int.log_zpow (R := K) (b := 2) (by norm_num) (p + k)
    rcases abs_eq_abs.1 (show |(n : K)| = |(2 : K) ^ p| by rw [heq, abs_of_pos (by positivity)]) with e | e
    · refine roundBits_of_mul (n := 1) (k := p + k) ?_ (by omega)
      rw [e, zpow_add₀ (by norm_num), zpow_natCast]; push_cast; ring
    · refine roundBits_of_mul (n := -1) (k := p + k) ?_ (by omega)
      rw [e, zpow_add₀ (by norm_num), zpow_natCast]; push_cast; ring

theorem scaled_bounds (p : ℕ) {x : K} (hx : x ≠ 0) :
    2 ^ p ≤ 2 * |x / ulp p x| ∧ |x / ulp p x| < 2 ^ p := by
  have hp := ulp_pos p x
  have h0 : 0 < |x| := abs_pos.2 hx
  have h1 := Int.zpow_log_le_self (R := K) (b := 2) (by norm_num) h0
  have h2 := Int.lt_zpow_succ_log_self (R := K) (b := 2) (by norm_num) |x|
  push_cast at h1 h2
  have hu : ulp p x * 2 ^ p = 2 ^ (Int.log 2 |x| + 1) := by
    unfold ulp
    rw [← zpow_natCast (2 : K) p, ← zpow_add₀ (by norm_num)]
    congr 1; omega
  rw [zpow_add_one₀ (by norm_num)] at h2 hu
  rw [abs_div, abs_of_pos hp]
  constructor
  · rw [← mul_div_assoc, le_div_iff₀ hp]
    linarith
  · rw [div_lt_iff₀ hp]
    linarith

theorem roundBits_idem (p : ℕ) (hp : 1 ≤ p) (x : K) : roundBits p (roundBits p x) = roundBits p x := by
  by_cases hx : x = 0
  · subst hx; rw [roundBits_zero, roundBits_zero]
  · have h := (scaled_bounds p hx).2
    rw [abs_lt] at h
    conv_lhs => rw [show roundBits p x = (roundEven (x / ulp p x) : K) * 2 ^ (Int.log 2 |x| + 1 - p) from rfl]
    rw [roundBits_fixed hp]
    · rfl
    · have i1 := roundEven_mono h.1.le
      have i2 := roundEven_mono h.2.le
      have e : (2 : K) ^ p = ((2 ^ p : ℤ) : K) := by push_cast; rfl
      rw [roundEven_neg, e, roundEven_int] at i1
      rw [e, roundEven_int] at i2
      exact abs_le.2 ⟨i1, i2⟩

theorem ulp_neg (p : ℕ) (x : K) : ulp p (-x) = ulp p x := by unfold ulp; rw [abs_neg]

theorem roundBits_neg (p : ℕ) (x : K) : roundBits p (-x) = -roundBits p x := by
  unfold roundBits
  rw [ulp_neg, neg_div, roundEven_neg]
  push_cast
  ring

theorem roundBits_err (p : ℕ) (x : K) : |roundBits p x - x| ≤ (1 / 2) ^ p * |x| := by
  by_cases hx : x = 0
  · subst hx; rw [roundBits_zero]; simp
  · have hp := ulp_pos p x
    have h := (scaled_bounds p hx).1
    have e : roundBits p x - x = (roundEven (x / ulp p x) - x / ulp p x) * ulp p x := by
      unfold roundBits
      rw [sub_mul, div_mul_cancel₀ _ hp.ne']
    rw [e, abs_mul, abs_of_pos hp]
    refine (mul_le_mul_of_nonneg_right (roundEven_err _) hp.le).trans ?_
    rw [abs_div, abs_of_pos hp, ← mul_div_assoc, le_div_iff₀ hp] at h
    have h2 : (0 : K) < 2 ^ p := by positivity
    have h3 : (1 / 2 : K) ^ p * 2 ^ p = 1 := by rw [← mul_pow]; norm_num
    have h4 := mul_le_mul_of_nonneg_left h (show (0 : K) ≤ (1 / 2) ^ p by positivity)
    rw [← mul_assoc, h3, one_mul] at h4
    linarith

theorem roundBits_nonneg (p : ℕ) {x : K} (hx : 0 ≤ x) : 0 ≤ roundBits p x := by
  have hp := ulp_pos p x
  have h := roundEven_mono (div_nonneg hx hp.le)
  have e : roundEven (0 : K) = 0 := by have := roundEven_int (K := K) 0; rwa [Int.cast_zero] at this
  rw [e] at h
  exact mul_nonneg (by exact_mod_cast h) hp.le

theorem roundBits_mono_pos (p : ℕ) (hp1 : 1 ≤ p) {x y : K} (hx : 0 < x) (h : x ≤ y) : roundBits p x ≤ roundBits p y := by
  have hy : 0 < y := hx.trans_le h
  have hlog : Int.log 2 |x| ≤ Int.log 2 |y| := Int.log_mono_right (abs_pos.2 hx.ne') (by rwa [abs_of_pos hx, abs_of_pos hy])
  rcases hlog.lt_or_eq with hlt | heq
  · -- a power of two lies in between
    have e : (2 : K) ^ p = ((2 ^ p : ℤ) : K) := by push_cast; rfl
    have hm : (2 : K) ^ (p - 1) = ((2 ^ (p - 1) : ℤ) : K) := by push_cast; rfl
    have b1 := (scaled_bounds p hx.ne').2
    have b2 := (scaled_bounds p hy.ne').1
    rw [abs_lt] at b1
    have i1 := roundEven_mono b1.2.le
    rw [e, roundEven_int] at i1
    have hpp : (2 : K) ^ p = 2 * 2 ^ (p - 1) := by rw [← pow_succ']; congr 1; omega
    have b3 : (2 : K) ^ (p - 1) ≤ y / ulp p y := by
      rw [abs_of_pos (div_pos hy (ulp_pos p y))] at b2
      linarith
    have i2 := roundEven_mono b3
    rw [hm, roundEven_int] at i2
    have j1 : roundBits p x ≤ 2 ^ p * ulp p x := by
      unfold roundBits
      refine mul_le_mul_of_nonneg_right ?_ (ulp_pos p x).le
      rw [e]; exact_mod_cast i1
    have j2 : 2 ^ (p - 1) * ulp p y ≤ roundBits p y := by
      unfold roundBits
      refine mul_le_mul_of_nonneg_right ?_ (ulp_pos p y).le
      rw [hm]; exact_mod_cast i2
    refine j1.trans (le_trans ?_ j2)
    unfold ulp
    rw [← zpow_natCast (2 : K) p, ← zpow_natCast (2 : K) (p - 1), ← zpow_add₀ (by norm_num), ← zpow_add₀ (by norm_num)]
    refine zpow_le_zpow_right₀ (by norm_num) ?_
    push_cast [hp1]
    omega
  · have hu : ulp p x = ulp p y := by unfold ulp; rw [heq]
    unfold roundBits
    rw [hu]
    refine mul_le_mul_of_nonneg_right ?_ (ulp_pos p y).le
    exact_mod_cast roundEven_mono (div_le_div_of_nonneg_right h (ulp_pos p y).le)

theorem roundBits_mono (p : ℕ) (hp1 : 1 ≤ p) {x y : K} (h : x ≤ y) : roundBits p x ≤ roundBits p y := by
  rcases lt_trichotomy x 0 with hx | rfl | hx
  · rcases lt_or_ge y 0 with hy | hy
    · have := roundBits_mono_pos p hp1 (neg_pos.2 hy) (neg_le_neg h)
      rw [roundBits_neg, roundBits_neg] at this
      linarith
    · have h1 := roundBits_nonneg p (neg_pos.2 hx).le
      have h2 := roundBits_nonneg p hy
      rw [roundBits_neg] at h1
      linarith
  · rw [roundBits_zero]; exact roundBits_nonneg p h
  · exact roundBits_mono_pos p hp1 hx h

theorem roundBits_one (p : ℕ) (hp : 1 ≤ p) : roundBits p (1 : K) = 1 := by
  have := roundBits_fixed (K := K) hp (n := 1) (k := 0) (by rw [abs_one]; exact one_le_pow₀ (by norm_num))
  simpa using this

variable (K) in
/-- binary floating-point numbers with `p` significant bits, IEEE 754 rounding to nearest, ties to even, exponents unbounded -/
def Rounding.binary (p : ℕ) (hp : 1 ≤ p) : Rounding K where
  rnd := roundBits p
  eps := (1 / 2) ^ p
  mono _ _ h := roundBits_mono p hp h
  idem := roundBits_idem p hp
  one := roundBits_one p hp
  odd := roundBits_neg p
  eps_nonneg := by positivity
  err := roundBits_err p

end
end Mpc
