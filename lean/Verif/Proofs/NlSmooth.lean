import Mathlib.Analysis.Calculus.MeanValue
import Mathlib.Analysis.Calculus.Deriv.Comp
import Mathlib.Analysis.Calculus.Deriv.Add
import Mathlib.Analysis.Calculus.Deriv.Mul
import Verif.Spec.NlSmooth
import Verif.Spec.NlDiff
import Verif.Proofs.NlAffine

/-
Difference quotients of smooth functions, and the chain rule through scaling and move blocking.
-/
namespace Mpc.NlSpec

section quotients
variable {E : Type} [NormedAddCommGroup E] [NormedSpace ℝ E] {ψ : E → ℝ} {L : ℝ}

theorem Smooth.ball (hS : Smooth ψ L) (hL : 0 ≤ L) (p : E) {R : ℝ} {x y : E} (hx : ‖x - p‖ ≤ R) (hy : ‖y - p‖ ≤ R) :
    ‖ψ y - ψ x - fderiv ℝ ψ p (y - x)‖ ≤ L * R * ‖y - x‖ := by
  refine Convex.norm_image_sub_le_of_norm_hasFDerivWithin_le' (s := Metric.closedBall p R) (f' := fderiv ℝ ψ)
    (fun q _ => (hS.diff q).hasFDerivAt.hasFDerivWithinAt) ?_ (convex_closedBall p R) ?_ ?_
  · intro q hq
    have : ‖q - p‖ ≤ R := by rw [← dist_eq_norm]; exact hq
    exact (hS.lip q p).trans (mul_le_mul_of_nonneg_left this hL)
  · rw [Metric.mem_closedBall, dist_eq_norm]; exact hx
  · rw [Metric.mem_closedBall, dist_eq_norm]; exact hy

theorem Smooth.forward (hS : Smooth ψ L) (hL : 0 ≤ L) (p v : E) (hv : ‖v‖ ≤ 1) {h : ℝ} (hh : 0 < h) :
    |(ψ (p + h • v) - ψ p) / h - fderiv ℝ ψ p v| ≤ L * h := by
  have n1 : ‖h • v‖ ≤ h := by
    rw [norm_smul, Real.norm_of_nonneg hh.le]
    exact mul_le_of_le_one_right hh.le hv
  have k := hS.ball hL p (R := h) (x := p) (y := p + h • v) (by simpa using hh.le) (by simpa using n1)
  rw [add_sub_cancel_left, map_smul, smul_eq_mul, Real.norm_eq_abs] at k
  have e : (ψ (p + h • v) - ψ p) / h - fderiv ℝ ψ p v = (ψ (p + h • v) - ψ p - h * fderiv ℝ ψ p v) / h := by
    field_simp
  rw [e, abs_div, abs_of_pos hh, div_le_iff₀ hh]
  exact k.trans (mul_le_mul_of_nonneg_left n1 (by positivity))

theorem Smooth.central (hS : Smooth ψ L) (hL : 0 ≤ L) (p v : E) (hv : ‖v‖ ≤ 1) {h : ℝ} (hh : 0 < h) :
    |(ψ (p + h • v) - ψ (p + (-h) • v)) / (2 * h) - fderiv ℝ ψ p v| ≤ L * h := by
  have n1 : ‖h • v‖ ≤ h := by
    rw [norm_smul, Real.norm_of_nonneg hh.le]
    exact mul_le_of_le_one_right hh.le hv
  have k := hS.ball hL p (R := h) (x := p + (-h) • v) (y := p + h • v)
    (by rw [add_sub_cancel_left, neg_smul, norm_neg]; exact n1) (by simpa using n1)
  have e0 : p + h • v - (p + (-h) • v) = (2 * h) • v := by rw [neg_smul, two_mul, add_smul]; abel
  rw [e0, map_smul, smul_eq_mul, Real.norm_eq_abs] at k
  have n2 : ‖(2 * h) • v‖ ≤ 2 * h := by
    rw [norm_smul, Real.norm_of_nonneg (by positivity)]
    exact mul_le_of_le_one_right (by positivity) hv
  have e : (ψ (p + h • v) - ψ (p + (-h) • v)) / (2 * h) - fderiv ℝ ψ p v
      = (ψ (p + h • v) - ψ (p + (-h) • v) - 2 * h * fderiv ℝ ψ p v) / (2 * h) := by
    field_simp
  rw [e, abs_div, abs_of_pos (by positivity : 0 < 2 * h), div_le_iff₀ (by positivity)]
  exact k.trans (mul_le_mul_of_nonneg_left n2 (by positivity))

end quotients

section traj
variable {r n m : Nat}

/-- the sequence with a one at step `i`, component `j` -/
noncomputable def unit (r n : Nat) (i j : Nat) : Traj r n ℝ := fun k a => if (k : Nat) = i ∧ (a : Nat) = j then 1 else 0

theorem bump_eq (X : Traj r n ℝ) (i j : Nat) (t : ℝ) : bump X i j t = X + t • unit r n i j := by
  funext k a
  show _ = X k a + t * unit r n i j k a
  unfold bump unit
  split_ifs <;> ring

theorem norm_traj_le {X : Traj r n ℝ} {c : ℝ} (hc : 0 ≤ c) (h : ∀ k a, |X k a| ≤ c) : ‖X‖ ≤ c :=
  (pi_norm_le_iff_of_nonneg hc).2 fun k => (pi_norm_le_iff_of_nonneg hc).2 fun a => h k a

theorem norm_unit_le (i j : Nat) : ‖unit r n i j‖ ≤ 1 :=
  norm_traj_le zero_le_one fun k a => by unfold unit; split_ifs <;> simp

theorem norm_unit2_le {i i' : Nat} (hi : i ≠ i') (j : Nat) : ‖unit r n i j + unit r n i' j‖ ≤ 1 := by
  refine norm_traj_le zero_le_one fun k a => ?_
  show |unit r n i j k a + unit r n i' j k a| ≤ 1
  unfold unit
  split_ifs with h1 h2
  · exact absurd (h1.1.symm.trans h2.1) hi
  all_goals simp

theorem traj_sum (X : Traj r n ℝ) : X = ∑ k : Fin r, ∑ a : Fin n, X k a • unit r n k a := by
  funext k a
  simp only [Finset.sum_apply, Pi.smul_apply, smul_eq_mul]
  rw [Finset.sum_eq_single k, Finset.sum_eq_single a]
  · simp [unit]
  · intro a' _ ha
    rw [unit, if_neg (fun h => ha (Fin.ext h.2).symm), mul_zero]
  · intro h; exact absurd (Finset.mem_univ _) h
  · intro k' _ hk
    refine Finset.sum_eq_zero fun a' _ => ?_
    rw [unit, if_neg (fun h => hk (Fin.ext h.1).symm), mul_zero]
  · intro h; exact absurd (Finset.mem_univ _) h

/-- a continuous linear function of states, inputs and slack, in coordinates -/
theorem linear_isAffine (D : (Traj r n ℝ × Traj r m ℝ × ℝ) →L[ℝ] ℝ) :
    IsAffine (fun X U e => D (X, U, e)) 0 (fun k a => D (unit r n k a, 0, 0)) (fun k b => D (0, unit r m k b, 0))
      (D (0, 0, 1)) := by
  intro X U e
  have e1 : D (X, 0, 0) = ∑ k : Fin r, ∑ a : Fin n, D (unit r n k a, 0, 0) * X k a := by
    have l : ∀ X : Traj r n ℝ, D (X, 0, 0) = (D.comp (ContinuousLinearMap.inl ℝ _ _)) X := fun X => rfl
    rw [l, traj_sum X, map_sum]
    refine Finset.sum_congr rfl fun k _ => ?_
    rw [map_sum]
    refine Finset.sum_congr rfl fun a _ => ?_
    rw [map_smul, ← traj_sum X, smul_eq_mul, mul_comm, ← l]
  have e2 : D (0, U, 0) = ∑ k : Fin r, ∑ a : Fin m, D (0, unit r m k a, 0) * U k a := by
    have l : ∀ X : Traj r m ℝ, D (0, X, 0)
        = (D.comp ((ContinuousLinearMap.inr ℝ (Traj r n ℝ) _).comp (ContinuousLinearMap.inl ℝ _ _))) X := fun X => rfl
    rw [l, traj_sum U, map_sum]
    refine Finset.sum_congr rfl fun k _ => ?_
    rw [map_sum]
    refine Finset.sum_congr rfl fun a _ => ?_
    rw [map_smul, ← traj_sum U, smul_eq_mul, mul_comm, ← l]
  have e3 : D (0, 0, e) = D (0, 0, 1) * e := by
    have : ((0, 0, e) : Traj r n ℝ × Traj r m ℝ × ℝ) = e • (0, 0, 1) := by simp
    rw [this, map_smul, smul_eq_mul, mul_comm]
  have e4 : ((X, U, e) : Traj r n ℝ × Traj r m ℝ × ℝ) = (X, 0, 0) + (0, U, 0) + (0, 0, e) := by simp
  rw [zero_add, ← e1, ← e2, ← e3, ← map_add, ← map_add, ← e4]

end traj

section chain
variable {d : Dims} {φ : Traj (d.ph + 1) d.nx ℝ → Traj (d.ph + 1) d.nu ℝ → ℝ → ℝ}

/-- the point of states, inputs and slack for a decision vector -/
noncomputable def point (d : Dims) (s su x0 z : Nat → ℝ) : Traj (d.ph + 1) d.nx ℝ × Traj (d.ph + 1) d.nu ℝ × ℝ :=
  (codeStates d s x0 z, inputs d su z, z (slackIx d))

theorem point_update (s su x0 z : Nat → ℝ) (v : Nat) (t : ℝ) :
    point d s su x0 (Function.update z v t) = point d s su x0 z
      + (t - z v) • (point d s su x0 (Function.update z v (z v + 1)) - point d s su x0 z) := by
  have key : ∀ i, Function.update z v t i = z i + (t - z v) * (Function.update z v (z v + 1) i - z i) := by
    intro i
    simp only [Function.update_apply]
    split_ifs with h
    · subst h; ring
    · ring
  unfold point
  refine Prod.ext ?_ (Prod.ext ?_ ?_)
  · funext k a
    show codeStates d s x0 (Function.update z v t) k a = codeStates d s x0 z k a
      + (t - z v) * (codeStates d s x0 (Function.update z v (z v + 1)) k a - codeStates d s x0 z k a)
    unfold codeStates
    split_ifs
    · ring
    · rw [key]; ring
  · funext k b
    show inputs d su (Function.update z v t) k b = inputs d su z k b
      + (t - z v) * (inputs d su (Function.update z v (z v + 1)) k b - inputs d su z k b)
    unfold inputs inputAt
    rw [key]; ring
  · show Function.update z v t (slackIx d) = z (slackIx d)
      + (t - z v) * (Function.update z v (z v + 1) (slackIx d) - z (slackIx d))
    exact key _

/-- The partial derivatives of the function the solver sees, from those of the function of states, inputs and slack. -/
theorem hasDerivAt_solverFn (hch : 0 < d.ch) (hle : d.ch ≤ d.ph) (s su x0 z : Nat → ℝ)
    (D : (Traj (d.ph + 1) d.nx ℝ × Traj (d.ph + 1) d.nu ℝ × ℝ) →L[ℝ] ℝ)
    (hD : HasFDerivAt (fun p : Traj (d.ph + 1) d.nx ℝ × Traj (d.ph + 1) d.nu ℝ × ℝ => φ p.1 p.2.1 p.2.2) D (point d s su x0 z))
    (g : Nat → ℝ) (gu : Nat → Nat → ℝ)
    (hx : ∀ k a, k < d.ph → a < d.nx → g (stateIx d k a) = D (unit _ _ (k + 1) a, 0, 0) * s a)
    (hu : ∀ j b, j < d.ch → b < d.nu → g (inputIx d j b)
      = su b * ∑ k ∈ Finset.range d.ph, if min k (d.ch - 1) = j then gu k b else 0)
    (he : g (slackIx d) = D (0, 0, 1))
    (hgu : ∀ k b, k + 1 < d.ph → b < d.nu → gu k b = D (0, unit _ _ k b, 0))
    (hgl : ∀ b, b < d.nu → gu (d.ph - 1) b = D (0, unit _ _ (d.ph - 1) b, 0) + D (0, unit _ _ d.ph b, 0))
    (v : Nat) (hv : v < d.nZ) : HasDerivAt (fun t => solverFn d s su x0 φ (Function.update z v t)) (g v) (z v) := by
  have ha := (linear_isAffine D).chain hch hle s su x0 z (Function.update z v (z v + 1)) g gu hx hu he hgu hgl
  rw [Finset.sum_eq_single v] at ha
  · rw [Function.update_self, add_sub_cancel_left, mul_one] at ha
    set w := point d s su x0 (Function.update z v (z v + 1)) - point d s su x0 z with hw
    have hDw : D w = g v := by
      rw [← ha, hw, map_sub]; rfl
    have hc : HasDerivAt (fun t => point d s su x0 (Function.update z v t)) w (z v) := by
      have e : (fun t => point d s su x0 (Function.update z v t)) = fun t => point d s su x0 z + (t - z v) • w := by
        funext t; exact point_update s su x0 z v t
      rw [e]
      have h1 : HasDerivAt (fun t : ℝ => (t - z v) • w) ((1 : ℝ) • w) (z v) :=
        ((hasDerivAt_id (z v)).sub_const (z v)).smul_const w
      rw [one_smul] at h1
      exact h1.const_add _
    have e0 : point d s su x0 (Function.update z v (z v)) = point d s su x0 z := by rw [Function.update_eq_self]
    rw [← hDw]
    exact HasFDerivAt.comp_hasDerivAt (z v) (by rw [e0]; exact hD) hc
  · intro u _ hu
    rw [Function.update_of_ne hu, sub_self, mul_zero]
  · intro h; exact absurd (Finset.mem_range.2 hv) h

/-- the row with exact entries -/
noncomputable def exactRow (d : Dims) (s su : Nat → ℝ)
    (D : (Traj (d.ph + 1) d.nx ℝ × Traj (d.ph + 1) d.nu ℝ × ℝ) →L[ℝ] ℝ) (gu : Nat → Nat → ℝ) (v : Nat) : ℝ :=
  if v < d.ph * d.nx then D (unit _ _ (v / d.nx + 1) (v % d.nx), 0, 0) * s (v % d.nx)
  else if v < d.ph * d.nx + d.ch * d.nu then
    su ((v - d.ph * d.nx) % d.nu)
      * ∑ k ∈ Finset.range d.ph, if min k (d.ch - 1) = (v - d.ph * d.nx) / d.nu then gu k ((v - d.ph * d.nx) % d.nu) else 0
  else D (0, 0, 1)

theorem block_div {n k a : Nat} (ha : a < n) : (k * n + a) / n = k ∧ (k * n + a) % n = a := by
  have hn : 0 < n := by omega
  constructor
  · rw [Nat.add_comm, Nat.add_mul_div_right _ _ hn, Nat.div_eq_of_lt ha, Nat.zero_add]
  · rw [Nat.add_comm, Nat.add_mul_mod_self_right, Nat.mod_eq_of_lt ha]

theorem exactRow_state (s su : Nat → ℝ) (D : (Traj (d.ph + 1) d.nx ℝ × Traj (d.ph + 1) d.nu ℝ × ℝ) →L[ℝ] ℝ)
    (gu : Nat → Nat → ℝ) {k a : Nat} (hk : k < d.ph) (ha : a < d.nx) :
    exactRow d s su D gu (stateIx d k a) = D (unit _ _ (k + 1) a, 0, 0) * s a := by
  unfold exactRow stateIx
  rw [if_pos (block_lt ha hk), (block_div ha).1, (block_div ha).2]

theorem exactRow_input (s su : Nat → ℝ) (D : (Traj (d.ph + 1) d.nx ℝ × Traj (d.ph + 1) d.nu ℝ × ℝ) →L[ℝ] ℝ)
    (gu : Nat → Nat → ℝ) {j b : Nat} (hj : j < d.ch) (hb : b < d.nu) :
    exactRow d s su D gu (inputIx d j b)
      = su b * ∑ k ∈ Finset.range d.ph, if min k (d.ch - 1) = j then gu k b else 0 := by
  have := block_lt hb hj
  unfold exactRow inputIx
  rw [if_neg (by omega), if_pos (by omega), Nat.add_sub_cancel_left, (block_div hb).1, (block_div hb).2]

theorem exactRow_slack (s su : Nat → ℝ) (D : (Traj (d.ph + 1) d.nx ℝ × Traj (d.ph + 1) d.nu ℝ × ℝ) →L[ℝ] ℝ)
    (gu : Nat → Nat → ℝ) : exactRow d s su D gu (slackIx d) = D (0, 0, 1) := by
  unfold exactRow slackIx
  rw [if_neg (by omega), if_neg (by omega)]

/-- A row arranged from entries which are within `η` of the exact ones is within `ph S η` of the gradient. -/
theorem gradApprox_of_row (hch : 0 < d.ch) (hle : d.ch ≤ d.ph) (s su x0 z : Nat → ℝ)
    (D : (Traj (d.ph + 1) d.nx ℝ × Traj (d.ph + 1) d.nu ℝ × ℝ) →L[ℝ] ℝ)
    (hD : HasFDerivAt (fun p : Traj (d.ph + 1) d.nx ℝ × Traj (d.ph + 1) d.nu ℝ × ℝ => φ p.1 p.2.1 p.2.2) D (point d s su x0 z))
    (gx gu : Nat → Nat → ℝ) (ge : ℝ) (g : Nat → ℝ) (hrow : RowOf d s su gx gu ge g) {η S : ℝ} (hη : 0 ≤ η) (hS1 : 1 ≤ S)
    (hs : ∀ a, a < d.nx → |s a| ≤ S) (hsu : ∀ b, b < d.nu → |su b| ≤ S)
    (h1 : ∀ k a, k < d.ph → a < d.nx → |gx k a - D (unit _ _ (k + 1) a, 0, 0)| ≤ η)
    (h2 : ∀ k b, k + 1 < d.ph → b < d.nu → |gu k b - D (0, unit _ _ k b, 0)| ≤ η)
    (h3 : ∀ b, b < d.nu → |gu (d.ph - 1) b - (D (0, unit _ _ (d.ph - 1) b, 0) + D (0, unit _ _ d.ph b, 0))| ≤ η)
    (h4 : |ge - D (0, 0, 1)| ≤ η) : GradApprox d (solverFn d s su x0 φ) z g (d.ph * S * η) := by
  intro v hv
  set gu' : Nat → Nat → ℝ := fun k b =>
    if k + 1 < d.ph then D (0, unit _ _ k b, 0) else D (0, unit _ _ (d.ph - 1) b, 0) + D (0, unit _ _ d.ph b, 0) with hgu'
  have hph : (1 : ℝ) ≤ d.ph := by exact_mod_cast (by omega : 1 ≤ d.ph)
  have hSη : η ≤ d.ph * S * η := le_mul_of_one_le_left hη (by nlinarith)
  have hS0 : 0 ≤ S := by linarith
  refine ⟨exactRow d s su D gu' v, ?_, ?_⟩
  · refine hasDerivAt_solverFn hch hle s su x0 z D hD _ gu' (fun k a => exactRow_state s su D gu')
      (fun j b => exactRow_input s su D gu') (exactRow_slack s su D gu') ?_ ?_ v hv
    · intro k b hk _
      exact if_pos hk
    · intro b _
      exact if_neg (by omega)
  · by_cases c1 : v < d.ph * d.nx
    · obtain ⟨k, a, hk, ha, rfl⟩ := exists_block c1
      have e1 := hrow.states k a hk ha
      have e2 := exactRow_state s su D gu' hk ha
      unfold stateIx at e1 e2
      rw [e1, e2, ← sub_mul, abs_mul]
      refine (mul_le_mul (h1 k a hk ha) (hs a ha) (abs_nonneg _) hη).trans ?_
      nlinarith [mul_nonneg hS0 hη]
    · by_cases c2 : v < d.ph * d.nx + d.ch * d.nu
      · obtain ⟨j, b, hj, hb, e⟩ := exists_block (k := v - d.ph * d.nx) (n := d.ch) (s := d.nu) (by omega)
        obtain rfl : v = inputIx d j b := by unfold inputIx; omega
        rw [hrow.inputs j b hj hb, exactRow_input s su D gu' hj hb, ← mul_sub, ← Finset.sum_sub_distrib, abs_mul]
        have hsum : |∑ k ∈ Finset.range d.ph, ((if min k (d.ch - 1) = j then gu k b else 0)
            - if min k (d.ch - 1) = j then gu' k b else 0)| ≤ d.ph * η := by
          refine (Finset.abs_sum_le_sum_abs _ _).trans ?_
          refine (Finset.sum_le_card_nsmul _ _ η ?_).trans (by rw [Finset.card_range, nsmul_eq_mul])
          intro k hk
          have hk := Finset.mem_range.1 hk
          split_ifs
          · by_cases hl : k + 1 < d.ph
            · rw [hgu']; dsimp only; rw [if_pos hl]; exact h2 k b hl hb
            · obtain rfl : k = d.ph - 1 := by omega
              rw [hgu']; dsimp only; rw [if_neg hl]; exact h3 b hb
          · simpa using hη
        refine (mul_le_mul (hsu b hb) hsum (abs_nonneg _) hS0).trans (le_of_eq (by ring))
      · obtain rfl : v = slackIx d := by
          unfold slackIx
          have : d.nZ = d.ph * d.nx + d.nu * d.ch + 1 := rfl
          rw [Nat.mul_comm d.ch d.nu] at c2 ⊢
          omega
        rw [hrow.slack, exactRow_slack]
        exact h4.trans hSη

end chain

section rows
variable {d : Dims} {φ : Traj (d.ph + 1) d.nx ℝ → Traj (d.ph + 1) d.nu ℝ → ℝ → ℝ} {L : ℝ}

theorem norm_inl_le {r n m : Nat} (X : Traj r n ℝ) (h : ‖X‖ ≤ 1) : ‖((X, 0, 0) : Traj r n ℝ × Traj r m ℝ × ℝ)‖ ≤ 1 := by
  rw [Prod.norm_def, Prod.norm_def]; simpa using h

theorem norm_mid_le {r n m : Nat} (U : Traj r m ℝ) (h : ‖U‖ ≤ 1) : ‖((0, U, 0) : Traj r n ℝ × Traj r m ℝ × ℝ)‖ ≤ 1 := by
  rw [Prod.norm_def, Prod.norm_def]; simpa using h

theorem norm_inr_le {r n m : Nat} : ‖((0, 0, 1) : Traj r n ℝ × Traj r m ℝ × ℝ)‖ ≤ 1 := by
  rw [Prod.norm_def, Prod.norm_def]; simp

theorem add_inl {r n m : Nat} (X : Traj r n ℝ) (U : Traj r m ℝ) (e t : ℝ) (V : Traj r n ℝ) :
    ((X + t • V, U, e) : Traj r n ℝ × Traj r m ℝ × ℝ) = (X, U, e) + t • (V, 0, 0) := by simp

theorem add_mid {r n m : Nat} (X : Traj r n ℝ) (U : Traj r m ℝ) (e t : ℝ) (V : Traj r m ℝ) :
    ((X, U + t • V, e) : Traj r n ℝ × Traj r m ℝ × ℝ) = (X, U, e) + t • (0, V, 0) := by simp

theorem add_inr {r n m : Nat} (X : Traj r n ℝ) (U : Traj r m ℝ) (e t : ℝ) :
    ((X, U, e + t) : Traj r n ℝ × Traj r m ℝ × ℝ) = (X, U, e) + t • (0, 0, 1) := by simp

theorem bump2_eq {r n : Nat} (X : Traj r n ℝ) (i i' j : Nat) (t : ℝ) :
    bump (bump X i j t) i' j t = X + t • (unit r n i j + unit r n i' j) := by
  rw [bump_eq, bump_eq, smul_add, add_assoc]

variable (X : Traj (d.ph + 1) d.nx ℝ) (U : Traj (d.ph + 1) d.nu ℝ) (e : ℝ)

/-- the entries of the objective's Jacobians are within `L h` of the exact ones -/
theorem ObjDiff.approx (hS : SmoothTraj φ L) (hL : 0 ≤ L) (hp0 : 0 < d.ph) {hx hu : Nat → ℝ} {he : ℝ} {gx gu : Nat → Nat → ℝ}
    {ge : ℝ} (h : ObjDiff d φ X U e hx hu he gx gu ge) {H : ℝ} (b1 : ∀ a, a < d.nx → hx a ≤ H) (b2 : ∀ b, b < d.nu → hu b ≤ H)
    (b3 : he ≤ H)
    (D : (Traj (d.ph + 1) d.nx ℝ × Traj (d.ph + 1) d.nu ℝ × ℝ) →L[ℝ] ℝ)
    (hD : D = fderiv ℝ (fun p : Traj (d.ph + 1) d.nx ℝ × Traj (d.ph + 1) d.nu ℝ × ℝ => φ p.1 p.2.1 p.2.2) (X, U, e)) :
    (∀ k a, k < d.ph → a < d.nx → |gx k a - D (unit _ _ (k + 1) a, 0, 0)| ≤ L * H) ∧
    (∀ k b, k + 1 < d.ph → b < d.nu → |gu k b - D (0, unit _ _ k b, 0)| ≤ L * H) ∧
    (∀ b, b < d.nu → |gu (d.ph - 1) b - (D (0, unit _ _ (d.ph - 1) b, 0) + D (0, unit _ _ d.ph b, 0))| ≤ L * H) ∧
    |ge - D (0, 0, 1)| ≤ L * H := by
  subst hD
  refine ⟨?_, ?_, ?_, ?_⟩
  · intro k a hk ha
    rw [h.states k a hk ha, bump_eq]
    have := Smooth.forward hS hL (X, U, e) (unit _ _ (k + 1) a, 0, 0) (norm_inl_le _ (norm_unit_le _ _)) (h.posx a)
    rw [← add_inl] at this
    exact this.trans (mul_le_mul_of_nonneg_left (b1 a ha) hL)
  · intro k b hk hb
    rw [h.inputs k b hk hb, bump_eq]
    have := Smooth.forward hS hL (X, U, e) (0, unit _ _ k b, 0) (norm_mid_le _ (norm_unit_le _ _)) (h.posu b)
    rw [← add_mid] at this
    exact this.trans (mul_le_mul_of_nonneg_left (b2 b hb) hL)
  · intro b hb
    rw [h.last b hb, bump2_eq, ← map_add]
    have := Smooth.forward hS hL (X, U, e) (0, unit _ _ (d.ph - 1) b + unit _ _ d.ph b, 0)
      (norm_mid_le _ (norm_unit2_le (by omega) _)) (h.posu b)
    rw [← add_mid] at this
    have e0 : ((0, unit (d.ph + 1) d.nu (d.ph - 1) b, 0) + (0, unit (d.ph + 1) d.nu d.ph b, 0)
        : Traj (d.ph + 1) d.nx ℝ × Traj (d.ph + 1) d.nu ℝ × ℝ) = (0, unit _ _ (d.ph - 1) b + unit _ _ d.ph b, 0) := by simp
    rw [e0]
    exact this.trans (mul_le_mul_of_nonneg_left (b2 b hb) hL)
  · rw [h.slack]
    have := Smooth.central hS hL (X, U, e) (0, 0, 1) norm_inr_le h.pose
    rw [← add_inr, ← add_inr, ← sub_eq_add_neg] at this
    exact this.trans (mul_le_mul_of_nonneg_left b3 hL)

/-- the same for one constraint, by central differences -/
theorem ConDiff.approx {n : Nat} {ψ : Traj (d.ph + 1) d.nx ℝ → Traj (d.ph + 1) d.nu ℝ → ℝ → FVec n ℝ} (c : Fin n)
    (hS : SmoothTraj (fun X U e => ψ X U e c) L) (hL : 0 ≤ L) (hp0 : 0 < d.ph) {hx hu : Nat → Nat → ℝ} {he : ℝ} {last : Bool}
    {gx gu : Nat → Nat → Nat → ℝ} {ge : Nat → ℝ} (h : ConDiff d n ψ X U e hx hu he last gx gu ge) {H : ℝ}
    (b1 : ∀ k a, k < d.ph → a < d.nx → hx k a ≤ H) (b2 : ∀ k b, k < d.ph → b < d.nu → hu k b ≤ H)
    (D : (Traj (d.ph + 1) d.nx ℝ × Traj (d.ph + 1) d.nu ℝ × ℝ) →L[ℝ] ℝ)
    (hD : D = fderiv ℝ (fun p : Traj (d.ph + 1) d.nx ℝ × Traj (d.ph + 1) d.nu ℝ × ℝ => ψ p.1 p.2.1 p.2.2 c) (X, U, e))
    (hl : last = false → ∀ b, b < d.nu → D (0, unit _ _ d.ph b, 0) = 0) :
    (∀ k a, k < d.ph → a < d.nx → |gx c k a - D (unit _ _ (k + 1) a, 0, 0)| ≤ L * H) ∧
    (∀ k b, k + 1 < d.ph → b < d.nu → |gu c k b - D (0, unit _ _ k b, 0)| ≤ L * H) ∧
    (∀ b, b < d.nu → |gu c (d.ph - 1) b - (D (0, unit _ _ (d.ph - 1) b, 0) + D (0, unit _ _ d.ph b, 0))| ≤ L * H) ∧
    (he ≤ H → |ge c - D (0, 0, 1)| ≤ L * H) := by
  refine ⟨?_, ?_, ?_, ?_⟩
  · intro k a hk ha
    subst hD
    rw [h.states c k a hk ha, bump_eq, bump_eq]
    have := Smooth.central hS hL (X, U, e) (unit _ _ (k + 1) a, 0, 0) (norm_inl_le _ (norm_unit_le _ _)) (h.posx k a)
    rw [← add_inl, ← add_inl] at this
    exact this.trans (mul_le_mul_of_nonneg_left (b1 k a hk ha) hL)
  · intro k b hk hb
    subst hD
    rw [h.inputs c k b hk hb, bump_eq, bump_eq]
    have := Smooth.central hS hL (X, U, e) (0, unit _ _ k b, 0) (norm_mid_le _ (norm_unit_le _ _)) (h.posu k b)
    rw [← add_mid, ← add_mid] at this
    exact this.trans (mul_le_mul_of_nonneg_left (b2 k b (by omega) hb) hL)
  · intro b hb
    rw [h.lastInput c b hb]
    cases hlast : last with
    | true =>
      subst hD
      rw [if_pos rfl, bump2_eq, bump2_eq, ← map_add]
      have := Smooth.central hS hL (X, U, e) (0, unit _ _ (d.ph - 1) b + unit _ _ d.ph b, 0)
        (norm_mid_le _ (norm_unit2_le (by omega) _)) (h.posu (d.ph - 1) b)
      rw [← add_mid, ← add_mid] at this
      have e0 : ((0, unit (d.ph + 1) d.nu (d.ph - 1) b, 0) + (0, unit (d.ph + 1) d.nu d.ph b, 0)
          : Traj (d.ph + 1) d.nx ℝ × Traj (d.ph + 1) d.nu ℝ × ℝ) = (0, unit _ _ (d.ph - 1) b + unit _ _ d.ph b, 0) := by simp
      rw [e0]
      exact this.trans (mul_le_mul_of_nonneg_left (b2 _ b (by omega) hb) hL)
    | false =>
      rw [hl hlast b hb, add_zero]
      subst hD
      rw [if_neg (by simp), bump_eq, bump_eq]
      have := Smooth.central hS hL (X, U, e) (0, unit _ _ (d.ph - 1) b, 0)
        (norm_mid_le _ (norm_unit_le _ _)) (h.posu (d.ph - 1) b)
      rw [← add_mid, ← add_mid] at this
      exact this.trans (mul_le_mul_of_nonneg_left (b2 _ b (by omega) hb) hL)
  · intro b3
    subst hD
    rw [h.slack c]
    have := Smooth.central hS hL (X, U, e) (0, 0, 1) norm_inr_le h.pose
    rw [← add_inr, ← add_inr, ← sub_eq_add_neg] at this
    exact this.trans (mul_le_mul_of_nonneg_left b3 hL)

end rows

section steps
variable {r n m : Nat} {X : Traj r n ℝ} {U : Traj r m ℝ} {e M t : ℝ}

theorem stepOf_le (ht : 0 ≤ t) {v : ℝ} (h1 : 1 ≤ M) (hv : |v| ≤ M) : stepOf t v ≤ t * M := by
  unfold stepOf
  refine mul_le_mul_of_nonneg_left ?_ ht
  split_ifs <;> assumption

theorem entry_le (h0 : 0 ≤ M) (h : ∀ k a, |X k a| ≤ M) (i j : Nat) : |entry X i j| ≤ M := by
  unfold entry
  split_ifs
  · exact h _ _
  · simpa using h0

end steps
end Mpc.NlSpec
