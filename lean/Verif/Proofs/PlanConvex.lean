import Mathlib.Tactic.FieldSimp
import Mathlib.Tactic.LinearCombination
import Mathlib.Algebra.BigOperators.Field
import Mathlib.Algebra.Order.BigOperators.Ring.Finset
import Verif.Proofs.QpLift
import Verif.Spec.Tracking

/-
The plan cost is a convex quadratic function of the commands and the allowed plans are a convex set.
-/
namespace Mpc.Spec
variable {K : Type} [Field K]

/-- halfway between two sequences -/
def halfway (u v : Nat → Nat → K) : Nat → Nat → K := fun k a => (u k a + v k a) / 2

theorem dot_half [NeZero (2 : K)] {n : Nat} (M v w : Nat → K) : dot n M (fun e => (v e + w e) / 2) = (dot n M v + dot n M w) / 2 := by
  unfold dot
  rw [← Finset.sum_add_distrib, Finset.sum_div]
  exact Finset.sum_congr rfl fun e _ => by ring

variable [NeZero (2 : K)] {d : Dims} {c : LinConfig K} {x0 u0 : Nat → K} {u v : Nat → Nat → K}

theorem half_self (x : K) : (x + x) / 2 = x := by
  have : (2 : K) ≠ 0 := NeZero.ne _
  field_simp; ring

theorem predict_half : ∀ k a,
    predict d c x0 (halfway u v) k a = (predict d c x0 u k a + predict d c x0 v k a) / 2
  | 0, a => (half_self _).symm
  | k + 1, a => by
    have two : (2 : K) ≠ 0 := NeZero.ne _
    show dot d.nx (c.A a) (predict d c x0 (halfway u v) k) + dot d.nu (c.B a) (halfway u v k) + dot d.ndu (c.Bd a) (c.dist k) = _
    rw [dot_congr (w := fun e => (predict d c x0 u k e + predict d c x0 v k e) / 2) fun e _ => predict_half k e, dot_half,
      show halfway u v k = fun e => (u k e + v k e) / 2 from rfl, dot_half]
    show _ = (dot d.nx (c.A a) (predict d c x0 u k) + dot d.nu (c.B a) (u k) + dot d.ndu (c.Bd a) (c.dist k) +
      (dot d.nx (c.A a) (predict d c x0 v k) + dot d.nu (c.B a) (v k) + dot d.ndu (c.Bd a) (c.dist k))) / 2
    field_simp; ring

theorem before_half (k a : Nat) : before u0 (halfway u v) k a = (before u0 u k a + before u0 v k a) / 2 := by
  cases k with
  | zero => exact (half_self _).symm
  | succ k => rfl

theorem output_half (x y dist : Nat → K) (a : Nat) :
    outputOf d c (fun e => (x e + y e) / 2) dist a = (outputOf d c x dist a + outputOf d c y dist a) / 2 := by
  have two : (2 : K) ≠ 0 := NeZero.ne _
  unfold outputOf
  rw [dot_half]
  field_simp; ring

/-- weighted squared difference of two vectors -/
def gap (n : Nat) (w v v' : Nat → K) : K := ∑ a ∈ Finset.range n, w a * (v a - v' a) ^ 2

theorem sqErr_half {n : Nat} (w v v' ref : Nat → K) :
    sqErr n w (fun a => (v a + v' a) / 2) ref = (sqErr n w v ref + sqErr n w v' ref) / 2 - gap n w v v' / 4 := by
  have two : (2 : K) ≠ 0 := NeZero.ne _
  have four : (4 : K) ≠ 0 := by rw [show (4 : K) = 2 * 2 by norm_num]; exact mul_ne_zero two two
  unfold sqErr gap
  rw [← Finset.sum_add_distrib, Finset.sum_div, Finset.sum_div, ← Finset.sum_sub_distrib]
  refine Finset.sum_congr rfl fun a _ => ?_
  field_simp; ring

/-- how far two plans are from each other, in the weights of the cost -/
def planGap (d : Dims) (c : LinConfig K) (x0 u0 : Nat → K) (u v : Nat → Nat → K) : K :=
  ∑ k ∈ Finset.range d.ph,
    (gap d.ny (c.wY k) (outputOf d c (predict d c x0 u (k + 1)) (c.dist k)) (outputOf d c (predict d c x0 v (k + 1)) (c.dist k)) +
     gap d.nu (c.wU k) (u k) (v k) +
     gap d.nu (c.wDu k) (fun a => u k a - before u0 u k a) (fun a => v k a - before u0 v k a))

theorem planCost_half (duRef : Nat → Nat → K) :
    planCost d c x0 u0 duRef (halfway u v) =
      (planCost d c x0 u0 duRef u + planCost d c x0 u0 duRef v) / 2 - planGap d c x0 u0 u v / 8 := by
  have two : (2 : K) ≠ 0 := NeZero.ne _
  have eight : (8 : K) ≠ 0 := by rw [show (8 : K) = 2 * 2 * 2 by norm_num]; exact mul_ne_zero (mul_ne_zero two two) two
  have four : (4 : K) ≠ 0 := by rw [show (4 : K) = 2 * 2 by norm_num]; exact mul_ne_zero two two
  unfold planCost planGap
  rw [← add_div, ← Finset.sum_add_distrib, div_div, Finset.sum_div, Finset.sum_div, Finset.sum_div, ← Finset.sum_sub_distrib]
  refine Finset.sum_congr rfl fun k _ => ?_
  rw [sqErr_congr (v := outputOf d c (predict d c x0 (halfway u v) (k + 1)) (c.dist k))
      (v' := fun a => (outputOf d c (predict d c x0 u (k + 1)) (c.dist k) a + outputOf d c (predict d c x0 v (k + 1)) (c.dist k) a) / 2)
      fun a _ => (outputOf_congr (fun e _ => predict_half (k + 1) e) a).trans (output_half _ _ _ a),
    sqErr_congr (v := halfway u v k) (v' := fun a => (u k a + v k a) / 2) fun _ _ => rfl,
    sqErr_congr (v := fun a => halfway u v k a - before u0 (halfway u v) k a)
      (v' := fun a => ((u k a - before u0 u k a) + (v k a - before u0 v k a)) / 2)
      fun a _ => by rw [before_half]; unfold halfway; ring,
    sqErr_half, sqErr_half, sqErr_half]
  field_simp; ring

end Mpc.Spec

namespace Mpc.Spec
variable {K : Type} [Field K] [LinearOrder K] [IsStrictOrderedRing K] {d : Dims} {c : LinConfig K} {x0 u0 : Nat → K}
  {u v : Nat → Nat → K}

theorem within_half {lo hi : Ext K} {a b : K} (h1 : within lo hi a) (h2 : within lo hi b) : within lo hi ((a + b) / 2) := by
  obtain ⟨h1, h1'⟩ := h1
  obtain ⟨h2, h2'⟩ := h2
  constructor
  · cases lo with
    | negInf => trivial
    | posInf => exact h1.elim
    | fin l =>
      have h1 : l ≤ a := h1
      have h2 : l ≤ b := h2
      show l ≤ (a + b) / 2
      linarith
  · cases hi with
    | negInf => exact h1'.elim
    | posInf => trivial
    | fin l =>
      have h1 : a ≤ l := h1'
      have h2 : b ≤ l := h2'
      show (a + b) / 2 ≤ l
      linarith

/-- the plans the code allows are a convex set -/
theorem planCoded_half (hu : PlanCoded d c x0 u0 u) (hv : PlanCoded d c x0 u0 v) : PlanCoded d c x0 u0 (halfway u v) := by
  refine ⟨fun k a hk ha => ?_, fun k a hk ha => ?_, fun k a hk ha => ?_, fun k a hk hk' ha => ?_, fun k hk => ?_⟩
  · rw [predict_half]; exact within_half (hu.states k a hk ha) (hv.states k a hk ha)
  · rw [before_half]; exact within_half (hu.held k a hk ha) (hv.held k a hk ha)
  · rw [outputOf_congr (fun e _ => predict_half k e) a, output_half]
    exact within_half (hu.outputs k a hk ha) (hv.outputs k a hk ha)
  · unfold halfway; rw [hu.frozen k a hk hk' ha, hv.frozen k a hk hk' ha]
  · rw [dot_congr (w := fun e => (predict d c x0 u k e + predict d c x0 v k e) / 2) fun e _ => predict_half k e, dot_half,
      dot_congr (v := before u0 (halfway u v) k) (w := fun e => (before u0 u k e + before u0 v k e) / 2) fun e _ => before_half k e, dot_half]
    have := within_half (hu.scalar k hk) (hv.scalar k hk)
    convert this using 1
    ring

theorem gap_nonneg {n : Nat} {w v v' : Nat → K} (h : ∀ a, a < n → 0 ≤ w a) : 0 ≤ gap n w v v' :=
  Finset.sum_nonneg fun a ha => mul_nonneg (h a (Finset.mem_range.1 ha)) (sq_nonneg _)

theorem gap_zero {n : Nat} {w v v' : Nat → K} (h : ∀ a, a < n → 0 ≤ w a) (hz : gap n w v v' = 0) {a : Nat} (ha : a < n)
    (hw : 0 < w a) : v a = v' a := by
  have := (Finset.sum_eq_zero_iff_of_nonneg fun a ha => mul_nonneg (h a (Finset.mem_range.1 ha)) (sq_nonneg (v a - v' a))).1 hz a
    (Finset.mem_range.2 ha)
  rcases mul_eq_zero.1 this with h0 | h0
  · exact absurd h0 hw.ne'
  · exact sub_eq_zero.1 (pow_eq_zero_iff (two_ne_zero) |>.1 h0)

theorem planGap_terms (hw : WeightsNonneg d c) (hz : planGap d c x0 u0 u v ≤ 0) {k : Nat} (hk : k < d.ph) :
    gap d.nu (c.wU k) (u k) (v k) = 0 ∧
    gap d.nu (c.wDu k) (fun a => u k a - before u0 u k a) (fun a => v k a - before u0 v k a) = 0 := by
  have hn : ∀ k ∈ Finset.range d.ph, 0 ≤
      (gap d.ny (c.wY k) (outputOf d c (predict d c x0 u (k + 1)) (c.dist k)) (outputOf d c (predict d c x0 v (k + 1)) (c.dist k)) +
       gap d.nu (c.wU k) (u k) (v k) +
       gap d.nu (c.wDu k) (fun a => u k a - before u0 u k a) (fun a => v k a - before u0 v k a)) := fun k hk => by
    have hk := Finset.mem_range.1 hk
    have h1 := gap_nonneg (v := outputOf d c (predict d c x0 u (k + 1)) (c.dist k)) (v' := outputOf d c (predict d c x0 v (k + 1)) (c.dist k))
      (hw.wY k · hk)
    have h2 := gap_nonneg (v := u k) (v' := v k) (hw.wU k · hk)
    have h3 := gap_nonneg (v := fun a => u k a - before u0 u k a) (v' := fun a => v k a - before u0 v k a) (hw.wDu k · hk)
    linarith
  have h0 := le_antisymm hz (Finset.sum_nonneg hn)
  have := (Finset.sum_eq_zero_iff_of_nonneg hn).1 h0 k (Finset.mem_range.2 hk)
  have h1 := gap_nonneg (v := outputOf d c (predict d c x0 u (k + 1)) (c.dist k)) (v' := outputOf d c (predict d c x0 v (k + 1)) (c.dist k))
    (hw.wY k · hk)
  have h2 := gap_nonneg (v := u k) (v' := v k) (hw.wU k · hk)
  have h3 := gap_nonneg (v := fun a => u k a - before u0 u k a) (v' := fun a => v k a - before u0 v k a) (hw.wDu k · hk)
  exact ⟨by linarith, by linarith⟩

theorem best_unique {duRef : Nat → Nat → K} (hw : WeightsNonneg d c) (hc : CommandsWeighted d c)
    (hu : IsBest (PlanCoded d c x0 u0) (planCost d c x0 u0 duRef) u)
    (hv : IsBest (PlanCoded d c x0 u0) (planCost d c x0 u0 duRef) v) :
    ∀ k a, k < d.ph → a < d.nu → u k a = v k a := by
  have e1 := hu.2 v hv.1
  have e2 := hv.2 u hu.1
  have e3 := hu.2 _ (planCoded_half hu.1 hv.1)
  rw [planCost_half] at e3
  have hz : planGap d c x0 u0 u v ≤ 0 := by linarith
  intro k
  induction k using Nat.strong_induction_on with
  | _ k ih =>
    intro a hk ha
    have hb : before u0 u k a = before u0 v k a := by
      cases k with
      | zero => rfl
      | succ k => exact ih k (by omega) a (by omega) ha
    by_cases hf : k ≤ d.ch
    · obtain ⟨h2, h3⟩ := planGap_terms hw hz hk
      rcases hc k a hk hf ha with h | h
      · exact gap_zero (hw.wU k · hk) h2 ha h
      · have := gap_zero (hw.wDu k · hk) h3 ha h
        simp only [hb] at this
        linarith
    · rw [hu.1.frozen k a (by omega) hk ha, hv.1.frozen k a (by omega) hk ha]
      exact ih (k - 1) (by omega) a (by omega) ha

end Mpc.Spec
