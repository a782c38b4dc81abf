import Verif.Proofs.NlRoundHist
import Verif.Proofs.Rounding
import Mathlib.Algebra.Order.BigOperators.Group.Finset

/-
Error bounds for the rounded evaluations: decoded sequences, difference quotients, sums.
-/
namespace Mpc
open Exec
set_option linter.unusedSectionVars false

variable {d : Dims} {K : Type} [Field K] [LinearOrder K] [IsStrictOrderedRing K] {R : Rounding K}

namespace Rounding

theorem rnd_eq_zero (he : R.eps < 1) {x : K} : R.rnd x = 0 ↔ x = 0 := by
  constructor
  · intro h
    by_contra hx
    have := R.err x
    rw [h, zero_sub, abs_neg] at this
    have hp : 0 < |x| := abs_pos.2 hx
    nlinarith
  · rintro rfl; exact R.zero

/-- `z / rnd (1 / s)`, rounded, is `s * z` up to a relative error of `2 eps / (1 - eps)` -/
theorem unscale (he : R.eps < 1) (s z : K) : |R.rnd (z / R.rnd (1 / s)) - s * z| ≤ 2 * R.eps / (1 - R.eps) * |s * z| := by
  have h0 := R.eps_nonneg
  have h1 : 0 < 1 - R.eps := by linarith
  by_cases hs : s = 0
  · subst hs
    rw [div_zero, R.zero, div_zero, R.zero, zero_mul, sub_zero, abs_zero, mul_zero]
  have hy : R.rnd (1 / s) ≠ 0 := fun h => by
    rw [rnd_eq_zero he] at h
    exact hs (by simpa using h)
  generalize hyy : R.rnd (1 / s) = y at hy
  -- |1 - s y| ≤ eps
  have e1 : |s * y - 1| ≤ R.eps := by
    have := R.err (1 / s)
    rw [hyy, abs_div, abs_one] at this
    have hsp : 0 < |s| := abs_pos.2 hs
    have e : s * y - 1 = s * (y - 1 / s) := by field_simp
    rw [e, abs_mul]
    calc |s| * |y - 1 / s| ≤ |s| * (R.eps * (1 / |s|)) := mul_le_mul_of_nonneg_left this hsp.le
      _ = R.eps := by field_simp
  have hq : 1 - R.eps ≤ |s * y| := by
    have := abs_sub_abs_le_abs_sub 1 (s * y)
    rw [abs_one, abs_sub_comm] at this
    linarith
  have hqp : 0 < |s * y| := h1.trans_le hq
  -- z / y - s z = s z (1 - s y) / (s y)
  have hsy : s * y ≠ 0 := mul_ne_zero hs hy
  have e2 : |z / y - s * z| ≤ R.eps / (1 - R.eps) * |s * z| := by
    have e : z / y - s * z = s * z * ((1 - s * y) / (s * y)) := by field_simp
    rw [e, abs_mul, mul_comm]
    refine mul_le_mul_of_nonneg_right ?_ (abs_nonneg _)
    rw [abs_div, abs_sub_comm]
    exact div_le_div₀ h0 e1 h1 hq
  have e3 : |z / y| ≤ 1 / (1 - R.eps) * |s * z| := by
    have e : z / y = s * z * (1 / (s * y)) := by field_simp
    rw [e, abs_mul, mul_comm]
    refine mul_le_mul_of_nonneg_right ?_ (abs_nonneg _)
    rw [abs_div, abs_one]
    exact div_le_div₀ zero_le_one le_rfl h1 hq
  have e4 := R.err_le e3
  have e5 : |R.rnd (z / y) - s * z| ≤ |R.rnd (z / y) - z / y| + |z / y - s * z| := abs_sub_le _ _ _
  calc _ ≤ R.eps * (1 / (1 - R.eps) * |s * z|) + R.eps / (1 - R.eps) * |s * z| := by linarith
    _ = _ := by ring

theorem quot (H : K) (hH : 0 < H) {N D E : K} (h : |N - H * D| ≤ E) :
    |R.rnd (R.rnd N / H) - D| ≤ NlSpec.quotErr R D E H := by
  have h0 := R.eps_nonneg
  have hE : 0 ≤ E := (abs_nonneg _).trans h
  have a1 : |N| ≤ H * |D| + E := by
    have := abs_add_le (H * D) (N - H * D)
    rw [add_sub_cancel, abs_mul, abs_of_pos hH] at this
    linarith
  have a2 := R.err_le a1
  have a3 : |R.rnd N / H - D| ≤ R.eps * (|D| + E / H) + E / H := by
    have e : R.rnd N / H - D = (R.rnd N - N) / H + (N - H * D) / H := by field_simp; ring
    rw [e]
    refine (abs_add_le _ _).trans ?_
    rw [abs_div, abs_div, abs_of_pos hH]
    refine add_le_add ?_ (div_le_div_of_nonneg_right h hH.le)
    rw [div_le_iff₀ hH]
    refine a2.trans (le_of_eq ?_)
    field_simp
  have a4 := R.near (le_refl |D|) a3
  unfold NlSpec.quotErr
  refine a4.trans (le_of_eq ?_)
  ring

end Rounding

namespace NlSpec

theorem decoded (he : R.eps < 1) (sx su x0 z : Nat → K) :
    Decoded R d sx su x0 z (codeStatesR R.rnd d sx x0 z) (inputsR R.rnd d su z) := by
  refine ⟨fun k a => ?_, fun k b => R.err _⟩
  unfold codeStatesR codeStates
  split_ifs
  · exact Rounding.unscale he _ _
  · exact Rounding.unscale he _ _

theorem sumR_zero {n : Nat} {f : Nat → K} (h : ∀ k, k < n → f k = 0) : sumR R.rnd n f = 0 := by
  unfold sumR
  induction n with
  | zero => rfl
  | succ n ih =>
    rw [List.range_succ, List.foldl_append, ih fun k hk => h k (by omega)]
    simp only [List.foldl_cons, List.foldl_nil]
    rw [h n (by omega), add_zero, R.zero]

theorem sumR_approx {n : Nat} (f : Nat → K) :
    Approx R n (∑ k ∈ Finset.range n, |f k|) (sumR R.rnd n f) (∑ k ∈ Finset.range n, f k) := by
  unfold sumR
  induction n with
  | zero => simpa using Approx.exact R 0 (0 : K)
  | succ n ih =>
    rw [List.range_succ, List.foldl_append, Finset.sum_range_succ, Finset.sum_range_succ]
    simp only [List.foldl_cons, List.foldl_nil]
    exact (ih.add' (Approx.exact R n (f n))).rnd

theorem sumR_err {n : Nat} {f g B : Nat → K} (h : ∀ k, k < n → |f k - g k| ≤ B k) :
    |sumR R.rnd n f - ∑ k ∈ Finset.range n, g k|
      ≤ (1 + R.gamma n) * ∑ k ∈ Finset.range n, B k + R.gamma n * ∑ k ∈ Finset.range n, |g k| := by
  have h1 := (sumR_approx (R := R) (n := n) f).err
  have h2 : |∑ k ∈ Finset.range n, f k - ∑ k ∈ Finset.range n, g k| ≤ ∑ k ∈ Finset.range n, B k := by
    rw [← Finset.sum_sub_distrib]
    exact (Finset.abs_sum_le_sum_abs _ _).trans (Finset.sum_le_sum fun k hk => h k (Finset.mem_range.1 hk))
  have h3 : ∑ k ∈ Finset.range n, |f k| ≤ ∑ k ∈ Finset.range n, |g k| + ∑ k ∈ Finset.range n, B k := by
    rw [← Finset.sum_add_distrib]
    refine Finset.sum_le_sum fun k hk => ?_
    have := abs_add_le (g k) (f k - g k)
    rw [add_sub_cancel] at this
    have := h k (Finset.mem_range.1 hk)
    linarith
  have h4 := mul_le_mul_of_nonneg_left h3 (R.gamma_nonneg n)
  have h5 := abs_sub_le (sumR R.rnd n f) (∑ k ∈ Finset.range n, f k) (∑ k ∈ Finset.range n, g k)
  linarith

/-! ### Steps -/

theorem rnd_bounds (he : R.eps ≤ 1 / 8) {x : K} (hx : 0 ≤ x) : 7 / 8 * x ≤ R.rnd x ∧ R.rnd x ≤ 9 / 8 * x := by
  have h := R.err x
  rw [abs_of_nonneg hx, abs_le] at h
  have := mul_le_mul_of_nonneg_right he hx
  constructor <;> linarith [h.1, h.2]

theorem stepR_bounds (he : R.eps ≤ 1 / 8) {t v M : K} (ht : 0 < t) (hM : 1 ≤ M) (hv : |v| ≤ M) :
    3 / 4 * t ≤ stepR R t v ∧ stepR R t v ≤ 2 * t * M := by
  obtain ⟨a1, a2⟩ := rnd_bounds he ht.le
  have ht' : 0 < R.rnd t := rnd_pos8 he ht
  have b : 1 ≤ (if |v| < 1 then 1 else |v|) ∧ (if |v| < 1 then 1 else |v|) ≤ M := by
    split_ifs with h
    · exact ⟨le_rfl, hM⟩
    · exact ⟨not_lt.1 h, hv⟩
  unfold stepR stepOfR stepOf
  generalize (if |v| < 1 then 1 else |v|) = w at b
  obtain ⟨b1, b2⟩ := b
  have c0 : 0 ≤ R.rnd t * w := mul_nonneg ht'.le (by linarith)
  obtain ⟨c1, c2⟩ := rnd_bounds he c0
  have d1 : R.rnd t * 1 ≤ R.rnd t * w := mul_le_mul_of_nonneg_left b1 ht'.le
  have d2 : R.rnd t * w ≤ 9 / 8 * t * M := mul_le_mul a2 b2 (by linarith) (by linarith)
  have d3 : 0 ≤ t * M := mul_nonneg ht.le (by linarith)
  constructor <;> linarith

theorem slackR_bounds (he : R.eps ≤ 1 / 8) {t e M : K} (ht : 0 < t) (ht1 : t ≤ 1 / 16) (hM : 1 ≤ M) (hv : |e| ≤ M) :
    t * t / 2 ≤ slackR R t e ∧ slackR R t e ≤ 2 * t * M := by
  obtain ⟨a1, a2⟩ := rnd_bounds he ht.le
  have ht' : 0 < R.rnd t := rnd_pos8 he ht
  have b1 : R.rnd t ≤ max (R.rnd t) |e| := le_max_left _ _
  have b2 : max (R.rnd t) |e| ≤ M := max_le (by linarith) hv
  unfold slackR slackStepR
  generalize max (R.rnd t) |e| = w at b1 b2
  have c0 : 0 ≤ w * R.rnd t := mul_nonneg (ht'.le.trans b1) ht'.le
  obtain ⟨c1, c2⟩ := rnd_bounds he c0
  have d1 : (7 / 8 * t) * (7 / 8 * t) ≤ w * R.rnd t := mul_le_mul (a1.trans b1) a1 (by linarith) (ht'.le.trans b1)
  have d2 : w * R.rnd t ≤ M * (9 / 8 * t) := mul_le_mul b2 a2 ht'.le (by linarith)
  have d3 : 0 ≤ t * M := mul_nonneg ht.le (by linarith)
  have d4 : 0 < t * t := mul_pos ht ht
  constructor <;> linarith

/-! ### Quotients -/

/-- a quotient whose numerator is the coefficient `D` times the step, up to errors of the values and of the arithmetic -/
theorem quot_err (he : R.eps ≤ 1 / 8) {t H N D L M η : K} (ht : 0 < t) (ht1 : t ≤ 1) (hH : t / 2 ≤ H) (hM : 1 ≤ M) (hL : |D| ≤ L)
    (hη : 0 ≤ η) (h : |N - H * D| ≤ 2 * η + 16 * R.eps * L * M) : |R.rnd (R.rnd N / H) - D| ≤ derivErr R t η L M := by
  have h0 := R.eps_nonneg
  have hL0 : 0 ≤ L := (abs_nonneg D).trans hL
  have hHp : 0 < H := lt_of_lt_of_le (by linarith) hH
  have hEp : 0 ≤ R.eps * L := mul_nonneg h0 hL0
  have hX : 0 ≤ R.eps * L * M := mul_nonneg hEp (by linarith)
  refine (Rounding.quot H hHp h).trans ?_
  unfold quotErr derivErr
  have e1 : (2 * η + 16 * R.eps * L * M) / H ≤ (2 * η + 16 * R.eps * L * M) * 2 / t := by
    rw [div_le_div_iff₀ hHp ht]
    have : (2 * η + 16 * R.eps * L * M) * t ≤ (2 * η + 16 * R.eps * L * M) * (2 * H) :=
      mul_le_mul_of_nonneg_left (by linarith) (by linarith)
    linarith
  have e2 : ((1 + R.eps) ^ 2 - 1) * |D| ≤ 17 / 8 * (R.eps * L * M) / t := by
    rw [le_div_iff₀ ht]
    have f1 : ((1 + R.eps) ^ 2 - 1) * |D| ≤ (17 / 8 * R.eps) * L := by
      refine mul_le_mul ?_ hL (abs_nonneg _) (by linarith)
      have : R.eps * R.eps ≤ 1 / 8 * R.eps := mul_le_mul_of_nonneg_right he h0
      linarith
    have f0 : 0 ≤ ((1 + R.eps) ^ 2 - 1) * |D| := mul_nonneg (by nlinarith) (abs_nonneg _)
    have f2 : ((1 + R.eps) ^ 2 - 1) * |D| * t ≤ ((1 + R.eps) ^ 2 - 1) * |D| * 1 := mul_le_mul_of_nonneg_left ht1 f0
    have f3 : R.eps * L * 1 ≤ R.eps * L * M := mul_le_mul_of_nonneg_left hM hEp
    linarith
  have e3 : (1 + R.eps) ^ 2 ≤ 81 / 64 := by nlinarith
  have e4 : 0 ≤ (2 * η + 16 * R.eps * L * M) / H := div_nonneg (by linarith) hHp.le
  have e5 : (1 + R.eps) ^ 2 * ((2 * η + 16 * R.eps * L * M) / H) ≤ 81 / 64 * ((2 * η + 16 * R.eps * L * M) * 2 / t) :=
    mul_le_mul e3 e1 e4 (by norm_num)
  calc _ ≤ 17 / 8 * (R.eps * L * M) / t + 81 / 64 * ((2 * η + 16 * R.eps * L * M) * 2 / t) := add_le_add e2 e5
    _ = (17 / 8 * (R.eps * L * M) + 81 / 64 * ((2 * η + 16 * R.eps * L * M) * 2)) / t := by ring
    _ ≤ _ := div_le_div_of_nonneg_right (by linarith) ht.le

/-- the two ends of a central difference -/
theorem ends_err (he : R.eps ≤ 1 / 8) {t h x xp xm M : K} (hh : 0 < h) (ht : 0 < t) (ht1 : t ≤ 1 / 16) (hh2 : h ≤ 2 * t * M) (hx : |x| ≤ M)
    (hp : |xp - (x + h)| ≤ drift R x h) (hm : |xm - (x + -h)| ≤ drift R x h) : |xp - xm - R.rnd (2 * h)| ≤ 16 * R.eps * M := by
  have h0 := R.eps_nonneg
  have h1 : |R.rnd (2 * h) - 2 * h| ≤ R.eps * (2 * h) := R.err_le (by rw [abs_of_pos (by linarith)])
  have hM : 0 ≤ M := (abs_nonneg x).trans hx
  have hhM : h ≤ 1 / 8 * M := by
    have := mul_le_mul_of_nonneg_right ht1 hM
    linarith
  have h2 : drift R x h ≤ R.eps * (27 / 4 * M) := by
    unfold drift
    rw [show 6 * R.eps * (|x| + h) = R.eps * (6 * (|x| + h)) by ring]
    exact mul_le_mul_of_nonneg_left (by linarith) h0
  have h3 : R.eps * (2 * h) ≤ R.eps * (1 / 4 * M) := mul_le_mul_of_nonneg_left (by linarith) h0
  have e : xp - xm - R.rnd (2 * h) = (xp - (x + h)) - (xm - (x + -h)) - (R.rnd (2 * h) - 2 * h) := by ring
  rw [e]
  have h4 := abs_sub ((xp - (x + h)) - (xm - (x + -h))) (R.rnd (2 * h) - 2 * h)
  have h5 := abs_sub (xp - (x + h)) (xm - (x + -h))
  have h6 : 0 ≤ R.eps * M := mul_nonneg h0 hM
  linarith

end NlSpec
end Mpc
