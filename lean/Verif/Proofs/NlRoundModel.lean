import Verif.Proofs.NlRoundAccurate

/-
Model equations in rounded arithmetic: error of the residuals and of their derivatives.
-/
namespace Mpc.NlSpec
set_option linter.unusedSectionVars false

variable {d : Dims} {K : Type} [Field K] [LinearOrder K] [IsStrictOrderedRing K] {R : Rounding K}
  {F : FVec d.nx K → FVec d.nu K → Nat → FVec d.nx K} {t M η : K}

/-! ### Residuals -/

theorem approx_div {n : Nat} {N x' x : K} (h : Approx R n N x' x) (s : K) : Approx R (n + 1) (N / |s|) (R.rnd (x' / s)) (x / s) := by
  have := (h.mul' (Approx.exact R 0 (1 / s))).rnd
  rw [mul_one_div, mul_one_div, abs_div, abs_one, mul_one_div] at this
  exact this

/-- discrete model: relative error of two roundings -/
theorem residualR_discrete (Ts : K) (s : Nat → K) (X : Traj (d.ph + 1) d.nx K) (U : Traj (d.ph + 1) d.nu K) (k : Fin d.ph) (r : Fin d.nx) :
    |residualR R.rnd false Ts s F X U k r - residual false Ts s F X U k r| ≤ R.gamma 2 * |residual false Ts s F X U k r| := by
  unfold residualR residual
  simp only [Bool.false_eq_true, if_false]
  have := approx_div (Approx.exact R 0 (X k.succ r - F (X k.castSucc) (U k.castSucc) k r)).rnd (s r)
  rw [← abs_div] at this
  exact this.err

/-- continuous model: six roundings of the terms of the equation -/
theorem residualR_continuous (Ts : K) (s : Nat → K) (X : Traj (d.ph + 1) d.nx K) (U : Traj (d.ph + 1) d.nu K) (k : Fin d.ph) (r : Fin d.nx) :
    |residualR R.rnd true Ts s F X U k r - residual true Ts s F X U k r| ≤ R.gamma 6 *
      ((|X k.castSucc r| + |Ts| / 2 * (|F (X k.castSucc) (U k.castSucc) k r| + |F (X k.succ) (U k.castSucc) k r|) + |X k.succ r|) / |s r|) := by
  unfold residualR residual
  simp only [if_true]
  have a1 : Approx R 1 (|Ts| / 2) (R.rnd (Ts / 2)) (Ts / 2) := by
    have := (Approx.exact R 0 (Ts / 2)).rnd
    rwa [abs_div, abs_two] at this
  have a2 := ((Approx.exact R 0 (F (X k.castSucc) (U k.castSucc) k r)).add' (Approx.exact R 0 (F (X k.succ) (U k.castSucc) k r))).rnd
  have a3 := (((Approx.exact R 3 (X k.castSucc r)).add' (a1.mul' a2).rnd).rnd.add' (Approx.exact R 4 (X k.succ r)).neg).rnd
  rw [← sub_eq_add_neg, ← sub_eq_add_neg] at a3
  exact (approx_div a3 (s r)).err

/-- discrete model: zero exactly when the equation holds -/
theorem residualR_zero (he : R.eps < 1) {Ts : K} {s : Nat → K} {X : Traj (d.ph + 1) d.nx K} {U : Traj (d.ph + 1) d.nu K} {k : Fin d.ph}
    {r : Fin d.nx} (hs : s r ≠ 0) :
    residualR R.rnd false Ts s F X U k r = 0 ↔ X k.succ r = F (X k.castSucc) (U k.castSucc) k r := by
  unfold residualR
  simp only [Bool.false_eq_true, if_false]
  rw [Rounding.rnd_eq_zero he, div_eq_zero_iff, Rounding.rnd_eq_zero he, sub_eq_zero]
  exact or_iff_left hs

/-! ### Difference quotients of the model -/

theorem bumpVR_near {n : Nat} (he : R.eps ≤ 1 / 8) (ht : 0 < t) (ht1 : t ≤ 1 / 16) {x : FVec n K} (hM : 1 ≤ M) (hx : ∀ a, |x a| ≤ M) (j : Nat) {h : K}
    (hh : |h| ≤ 2 * t * M) (a : Fin n) : |bumpVR R.rnd x j h a - x a| ≤ (2 * t + 7 * R.eps) * M := by
  have h0 := R.eps_nonneg
  have hM0 : 0 ≤ R.eps * M := mul_nonneg h0 (by linarith)
  have htM := mul_le_mul_of_nonneg_right ht1 (show 0 ≤ M by linarith)
  unfold bumpVR
  split_ifs
  · have e1 : |x a + h| ≤ 9 / 8 * M := (abs_add_le _ _).trans (by linarith [hx a])
    have e2 := R.err_le e1
    have e3 := abs_add_le (R.rnd (x a + h) - (x a + h)) h
    rw [show R.rnd (x a + h) - (x a + h) + h = R.rnd (x a + h) - x a by ring] at e3
    linarith
  · rw [sub_self, abs_zero]; linarith [radius_nonneg (R := R) ht hM]

theorem bumpVR_drift (R : Rounding K) {x h : K} (hh : 0 < h) : |R.rnd (x + h) - (x + h)| ≤ drift R x h ∧ |R.rnd (x + -h) - (x + -h)| ≤ drift R x h := by
  have h0 := R.eps_nonneg
  have e : ∀ y, |y| ≤ |x| + h → |R.rnd y - y| ≤ drift R x h := by
    intro y hy
    refine (R.err_le hy).trans ?_
    unfold drift
    have := mul_nonneg h0 ((abs_nonneg y).trans hy)
    linarith
  refine ⟨e _ ((abs_add_le _ _).trans (by rw [abs_of_pos hh])), e _ ((abs_add_le _ _).trans (by rw [abs_neg, abs_of_pos hh]))⟩

theorem sum_bump_diff {n : Nat} (A : Nat → K) {x y : FVec n K} {j : Fin n} (h : ∀ a : Fin n, (a : Nat) ≠ j → x a = y a) :
    ∑ a : Fin n, A a * x a - ∑ a : Fin n, A a * y a = A j * (x j - y j) := by
  rw [← Finset.sum_sub_distrib, Finset.sum_eq_single j]
  · ring
  · intro a _ ha
    rw [h a (fun hh => ha (Fin.ext hh)), sub_self]
  · intro hh; exact absurd (Finset.mem_univ _) hh

variable {k : Nat} {r : Fin d.nx} {c0 : K} {A B : Nat → K} {x : FVec d.nx K} {u : FVec d.nu K}

theorem ModelNearlyAffine.nonneg (hφ : ModelNearlyAffine F k r c0 A B x u ((2 * t + 7 * R.eps) * M) η) (ht : 0 < t) (hM : 1 ≤ M) : 0 ≤ η :=
  (abs_nonneg _).trans (hφ x u (fun a => by rw [sub_self, abs_zero]; exact radius_nonneg ht hM)
    (fun a => by rw [sub_self, abs_zero]; exact radius_nonneg ht hM))

theorem quotXR_err (he : R.eps ≤ 1 / 8) (ht : 0 < t) (ht1 : t ≤ 1 / 16) (hM : 1 ≤ M) (hx : ∀ a, |x a| ≤ M)
    (hφ : ModelNearlyAffine F k r c0 A B x u ((2 * t + 7 * R.eps) * M) η) (a : Fin d.nx) :
    |quotXR R.rnd t F x u k r a - A a| ≤ derivErr R t η |A a| M := by
  have h0 := R.eps_nonneg
  have hη := hφ.nonneg ht hM
  obtain ⟨b1, b2⟩ := stepR_bounds (R := R) he ht hM (hx a)
  have hp : 0 < stepR R t (x a) := lt_of_lt_of_le (by linarith) b1
  have hu0 : ∀ b, |u b - u b| ≤ (2 * t + 7 * R.eps) * M := fun b => by rw [sub_self, abs_zero]; exact radius_nonneg ht hM
  unfold quotXR
  refine quot_err he ht (by linarith) (step2_bounds he b1 ht) hM le_rfl hη ?_
  rw [mul_assoc, mul_comm |A a| M, ← mul_assoc, mul_comm _ |A a|]
  refine values_err (hφ _ _ (bumpVR_near he ht ht1 hM hx a (by rw [abs_of_pos hp]; exact b2)) hu0)
    (hφ _ _ (bumpVR_near he ht ht1 hM hx a (by rw [abs_neg, abs_of_pos hp]; exact b2)) hu0) ?_
  have e := sum_bump_diff A (x := bumpVR R.rnd x a (stepR R t (x a))) (y := bumpVR R.rnd x a (-stepR R t (x a))) (j := a)
    (fun a' ha' => by unfold bumpVR; rw [if_neg ha', if_neg ha'])
  rw [add_sub_add_right_eq_sub, add_sub_add_left_eq_sub, e]
  refine coeff_err ?_
  unfold bumpVR
  rw [if_pos rfl, if_pos rfl]
  obtain ⟨d1, d2⟩ := bumpVR_drift R (x := x a) hp
  exact ends_err he hp ht ht1 b2 (hx a) d1 d2

theorem quotUR_err (he : R.eps ≤ 1 / 8) (ht : 0 < t) (ht1 : t ≤ 1 / 16) (hM : 1 ≤ M) (hu : ∀ b, |u b| ≤ M)
    (hφ : ModelNearlyAffine F k r c0 A B x u ((2 * t + 7 * R.eps) * M) η) (b : Fin d.nu) :
    |quotUR R.rnd t F x u k r b - B b| ≤ derivErr R t η |B b| M := by
  have h0 := R.eps_nonneg
  have hη := hφ.nonneg ht hM
  obtain ⟨b1, b2⟩ := stepR_bounds (R := R) he ht hM (hu b)
  have hp : 0 < stepR R t (u b) := lt_of_lt_of_le (by linarith) b1
  have hx0 : ∀ a, |x a - x a| ≤ (2 * t + 7 * R.eps) * M := fun b => by rw [sub_self, abs_zero]; exact radius_nonneg ht hM
  unfold quotUR
  refine quot_err he ht (by linarith) (step2_bounds he b1 ht) hM le_rfl hη ?_
  rw [mul_assoc, mul_comm |B b| M, ← mul_assoc, mul_comm _ |B b|]
  refine values_err (hφ _ _ hx0 (bumpVR_near he ht ht1 hM hu b (by rw [abs_of_pos hp]; exact b2)))
    (hφ _ _ hx0 (bumpVR_near he ht ht1 hM hu b (by rw [abs_neg, abs_of_pos hp]; exact b2))) ?_
  have e := sum_bump_diff B (x := bumpVR R.rnd u b (stepR R t (u b))) (y := bumpVR R.rnd u b (-stepR R t (u b))) (j := b)
    (fun a' ha' => by unfold bumpVR; rw [if_neg ha', if_neg ha'])
  rw [add_sub_add_left_eq_sub, e]
  refine coeff_err ?_
  unfold bumpVR
  rw [if_pos rfl, if_pos rfl]
  obtain ⟨d1, d2⟩ := bumpVR_drift R (x := u b) hp
  exact ends_err he hp ht ht1 b2 (hu b) d1 d2

/-! ### Rows -/

/-- a rounded multiple of an approximate number -/
theorem scaled_err {n : Nat} {c q D ε L y : K} (h : Approx R n (|c| * |q|) y (c * q)) (hq : |q - D| ≤ ε) (hD : |D| ≤ L) :
    |y - c * D| ≤ scaleErr R n c ε L := by
  have h1 := h.err
  have hg := R.gamma_nonneg n
  have h2 : |q| ≤ L + ε := by
    have := abs_add_le D (q - D)
    rw [add_sub_cancel] at this
    linarith
  have h3 : |c * q - c * D| ≤ |c| * ε := by rw [← mul_sub, abs_mul]; exact mul_le_mul_of_nonneg_left hq (abs_nonneg _)
  have h4 : R.gamma n * (|c| * |q|) ≤ R.gamma n * (|c| * (L + ε)) :=
    mul_le_mul_of_nonneg_left (mul_le_mul_of_nonneg_left h2 (abs_nonneg _)) hg
  have h5 := abs_add_le (y - c * q) (c * q - c * D)
  rw [sub_add_sub_cancel] at h5
  unfold scaleErr
  linarith

/-- the same with a number added -/
theorem shifted_err {n : Nat} {δ c q D ε L y : K} (h : Approx R n (|δ| + |c| * |q|) y (δ + c * q)) (hq : |q - D| ≤ ε) (hD : |D| ≤ L) :
    |y - (δ + c * D)| ≤ scaleErr R n c ε L + R.gamma n * |δ| := by
  have h1 := h.err
  have hg := R.gamma_nonneg n
  have h2 : |q| ≤ L + ε := by
    have := abs_add_le D (q - D)
    rw [add_sub_cancel] at this
    linarith
  have h3 : |c * q - c * D| ≤ |c| * ε := by rw [← mul_sub, abs_mul]; exact mul_le_mul_of_nonneg_left hq (abs_nonneg _)
  have h4 : R.gamma n * (|c| * |q|) ≤ R.gamma n * (|c| * (L + ε)) :=
    mul_le_mul_of_nonneg_left (mul_le_mul_of_nonneg_left h2 (abs_nonneg _)) hg
  have h5 := abs_add_le (y - (δ + c * q)) (c * q - c * D)
  rw [show y - (δ + c * q) + (c * q - c * D) = y - (δ + c * D) by ring] at h5
  unfold scaleErr
  linarith

/-- `rnd (1 / s)` -/
theorem approx_inv (s : K) : Approx R 1 |1 / s| (R.rnd (1 / s)) (1 / s) := (Approx.exact R 0 (1 / s)).rnd

theorem abs_ind (p : Prop) [Decidable p] : |(if p then 1 else 0 : K)| = if p then 1 else 0 := by split_ifs <;> simp

theorem DynAccurate.of (he : R.eps ≤ 1 / 8) (ht : 0 < t) (ht1 : t ≤ 1 / 16) {cont : Bool} {Ts e : K} {s su : Nat → K}
    {X : Traj (d.ph + 1) d.nx K} {U : Traj (d.ph + 1) d.nu K} (hb : Bounded M X U e) {k : Fin d.ph} {r : Fin d.nx} {g : Nat → K}
    (hr : DynRowR R.rnd d t cont Ts s su F X U k r g) {c0 c0' : K} {A B A' B' : Nat → K} (hch : 0 < d.ch)
    (h1 : ModelNearlyAffine F k r c0 A B (X k.castSucc) (U k.castSucc) ((2 * t + 7 * R.eps) * M) η)
    (h2 : cont = true → ModelNearlyAffine F k r c0' A' B' (X k.succ) (U k.castSucc) ((2 * t + 7 * R.eps) * M) η) :
    DynAccurate R d t M η cont Ts s su A B A' B' k r g := by
  have qx := quotXR_err he ht ht1 hb.one (hb.states _) h1
  have qu := quotUR_err he ht ht1 hb.one (hb.inputs _) h1
  have aT : Approx R 1 |Ts / 2| (R.rnd (Ts / 2)) (Ts / 2) := (Approx.exact R 0 (Ts / 2)).rnd
  have aTs := (aT.mul' (approx_inv (R := R) (s r))).rnd
  -- continuous state block
  have blk : ∀ (δ q a : K), Approx R 6 (|δ| + |Ts / 2 * (a / s r)| * |q|)
      (R.rnd (δ + R.rnd (R.rnd (R.rnd (R.rnd (Ts / 2) * R.rnd (1 / s r)) * q) * a))) (δ + Ts / 2 * (a / s r) * q) := by
    intro δ q a
    have := ((Approx.exact R 5 δ).add' (((aTs.mul' (Approx.exact R 0 q)).rnd.mul' (Approx.exact R 0 a)).rnd)).rnd
    have e1 : Ts / 2 * (1 / s r) * q * a = Ts / 2 * (a / s r) * q := by ring
    have e2 : |Ts / 2| * |1 / s r| * |q| * |a| = |Ts / 2 * (a / s r)| * |q| := by rw [← abs_mul, ← abs_mul, ← abs_mul, e1, abs_mul]
    rw [e1, e2] at this
    exact this
  refine ⟨fun a => ?_, fun a hk => ?_, fun b => ?_⟩
  · rw [hr.states k a k.2, if_pos rfl]
    unfold residualNextR
    cases cont with
    | false => simp only [Bool.false_eq_true, if_false, sub_self, abs_zero, le_refl]
    | true =>
      simp only [if_true]
      have := shifted_err (blk (-(if r = a then 1 else 0)) (quotXR R.rnd t F (X k.succ) (U k.castSucc) k r a) (s a))
        (quotXR_err he ht ht1 hb.one (hb.states _) (h2 rfl) a) le_rfl
      rw [abs_neg, abs_ind] at this
      rw [show ∀ x : K, x - (if r = a then 1 else 0) = -(if r = a then 1 else 0) + x from fun x => (neg_add_eq_sub _ _).symm]
      exact this
  · rw [hr.states (k - 1) a (by omega), if_neg (by omega), if_pos (by omega)]
    unfold residualPrevR
    cases cont with
    | false =>
      simp only [Bool.false_eq_true, if_false]
      rw [sub_neg_eq_add, neg_add_eq_sub, abs_sub_comm]
      refine scaled_err (q := quotXR R.rnd t F (X k.castSucc) (U k.castSucc) k r a) ?_ (qx a) le_rfl
      have := (((approx_inv (R := R) (s r)).mul' (Approx.exact R 0 (quotXR R.rnd t F (X k.castSucc) (U k.castSucc) k r a))).rnd.mul'
        (Approx.exact R 0 (s a))).rnd
      rw [show 1 / s r * quotXR R.rnd t F (X k.castSucc) (U k.castSucc) k r a * s a
        = s a / s r * quotXR R.rnd t F (X k.castSucc) (U k.castSucc) k r a by ring, ← abs_mul, ← abs_mul,
        show 1 / s r * quotXR R.rnd t F (X k.castSucc) (U k.castSucc) k r a * s a
        = s a / s r * quotXR R.rnd t F (X k.castSucc) (U k.castSucc) k r a by ring, abs_mul] at this
      exact this
    | true =>
      simp only [if_true]
      have := shifted_err (blk (if r = a then 1 else 0) (quotXR R.rnd t F (X k.castSucc) (U k.castSucc) k r a) (s a)) (qx a) le_rfl
      rw [abs_ind] at this
      exact this
  · rw [hr.inputs _ b (by omega), if_pos rfl]
    unfold residualInputR
    cases cont with
    | false =>
      simp only [Bool.false_eq_true, if_false]
      rw [mul_neg, R.odd, sub_neg_eq_add, neg_add_eq_sub, abs_sub_comm]
      refine scaled_err (q := quotUR R.rnd t F (X k.castSucc) (U k.castSucc) k r b) ?_ (qu b) le_rfl
      have := ((Approx.exact R 0 (su b)).mul' ((approx_inv (R := R) (s r)).mul' (Approx.exact R 0 (quotUR R.rnd t F (X k.castSucc) (U k.castSucc) k r b))).rnd).rnd
      rw [show su b * (1 / s r * quotUR R.rnd t F (X k.castSucc) (U k.castSucc) k r b)
        = su b / s r * quotUR R.rnd t F (X k.castSucc) (U k.castSucc) k r b by ring, ← abs_mul, ← abs_mul,
        show su b * (1 / s r * quotUR R.rnd t F (X k.castSucc) (U k.castSucc) k r b)
        = su b / s r * quotUR R.rnd t F (X k.castSucc) (U k.castSucc) k r b by ring, abs_mul] at this
      exact this
    | true =>
      simp only [if_true]
      have qub := qu b
      have qu' := quotUR_err he ht ht1 hb.one (hb.inputs _) (h2 rfl) b
      have a3 := ((Approx.exact R 0 (quotUR R.rnd t F (X k.castSucc) (U k.castSucc) k r b)).add'
        (Approx.exact R 0 (quotUR R.rnd t F (X k.succ) (U k.castSucc) k r b))).rnd
      have a4 := ((Approx.exact R 0 (su b)).mul' (aTs.mul' a3).rnd).rnd
      generalize quotUR R.rnd t F (X k.castSucc) (U k.castSucc) k r b = q at *
      generalize quotUR R.rnd t F (X k.succ) (U k.castSucc) k r b = q' at *
      have g0 := R.gamma_nonneg 6
      have e1 : su b * (Ts / 2 * (1 / s r) * (q + q')) = su b * (Ts / 2 / s r) * (q + q') := by ring
      have e2 : |su b| * (|Ts / 2| * |1 / s r| * (|q| + |q'|)) = |su b * (Ts / 2 / s r)| * (|q| + |q'|) := by
        rw [← mul_assoc, ← mul_assoc, ← abs_mul, ← abs_mul, show su b * (Ts / 2) * (1 / s r) = su b * (Ts / 2 / s r) by ring]
      rw [e1, e2] at a4
      have h5 := a4.err
      have m1 : ∀ {q D ε : K}, |q - D| ≤ ε → |q| ≤ |D| + ε := fun {q D ε} h => by
        have := abs_add_le D (q - D)
        rw [add_sub_cancel] at this
        linarith
      have h6 : |su b * (Ts / 2 / s r) * (q + q') - su b * (Ts / 2 / s r) * (B b + B' b)|
          ≤ |su b * (Ts / 2 / s r)| * (derivErr R t η |B b| M + derivErr R t η |B' b| M) := by
        rw [← mul_sub, abs_mul]
        refine mul_le_mul_of_nonneg_left ?_ (abs_nonneg _)
        rw [add_sub_add_comm]
        exact (abs_add_le _ _).trans (add_le_add qub qu')
      have h7 := mul_le_mul_of_nonneg_left (mul_le_mul_of_nonneg_left (add_le_add (m1 qub) (m1 qu'))
        (abs_nonneg (su b * (Ts / 2 / s r)))) g0
      have h8 := abs_add_le (R.rnd (su b * R.rnd (R.rnd (R.rnd (Ts / 2) * R.rnd (1 / s r)) * R.rnd (q + q')))
        - su b * (Ts / 2 / s r) * (q + q')) (su b * (Ts / 2 / s r) * (q + q') - su b * (Ts / 2 / s r) * (B b + B' b))
      rw [sub_add_sub_cancel] at h8
      have e6 : 0 + (1 + 1 + 1 + (0 + 1) + 1) + 1 = 6 := rfl
      rw [e6] at h5
      unfold scaleErr
      linarith

end Mpc.NlSpec
