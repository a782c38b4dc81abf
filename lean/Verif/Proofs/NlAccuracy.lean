import Mathlib.Analysis.Calculus.FDeriv.Prod
import Mathlib.Analysis.Calculus.FDeriv.Add
import Mathlib.Analysis.Calculus.FDeriv.Mul
import Mathlib.Analysis.Calculus.FDeriv.Pi
import Mathlib.Analysis.Calculus.FDeriv.Comp
import Verif.Proofs.NlSmooth
import Verif.Proofs.NlEval
import Verif.Proofs.NlDetermined

/-
Accuracy of the gradients the solver receives, from what the objects hold, over the real numbers.
-/
namespace Mpc
open NlSpec

section steps
variable {r n : Nat} {X : Traj r n ℝ} {M t : ℝ}

theorem NlSpec.stepLinear_le (ht : 0 ≤ t) (h1 : 1 ≤ M) (h : ∀ k a, |X k a| ≤ M) (j : Nat) :
    stepOf t (linear X j) ≤ t * M :=
  stepOf_le ht h1 (entry_le (by linarith) h _ _)

theorem NlSpec.stepEntry_le (ht : 0 ≤ t) (h1 : 1 ≤ M) (h : ∀ k a, |X k a| ≤ M) (i j : Nat) :
    stepOf t (entry X i j) ≤ t * M :=
  stepOf_le ht h1 (entry_le (by linarith) h _ _)

theorem NlSpec.stepSlack_le (ht : 0 ≤ t) (ht1 : t ≤ 1) (h1 : 1 ≤ M) {e : ℝ} (he : |e| ≤ M) : max t |e| * t ≤ t * M := by
  rw [mul_comm]
  exact mul_le_mul_of_nonneg_left (max_le (ht1.trans h1) he) ht

end steps

variable {d : Dims} {s : NlState d ℝ} {c : Cfg d ℝ} {L S M : ℝ}

/-- accuracy of the objective gradient, unscaled states -/
theorem objective_accuracy_of_holds (h : s.Holds c) (hp : d.ph < 2 ^ 31) {f : ObjFn d ℝ} (hf : c.obj = some f)
    (hS : SmoothTraj (costOf f c.out) L) (hL : 0 ≤ L) (hS1 : 1 ≤ S) (hsu : ∀ b, b < d.nu → |c.inScale b| ≤ S)
    (hsc : ∀ a, a < d.nx → c.stScale a = 1) (z : Vec ℝ) (hz : z.size = d.nZ)
    (hM : Within (codeStates d c.stScale s.obj.x0.get z.get) (inputs d c.inScale z.get) (z.get (slackIx d)) M) :
    ∃ r s' G, s.evalObj z true = .ok (r, s') ∧ r.grad = some G ∧ G.size = d.nZ ∧
      r.value = solverFn d c.stScale c.inScale s.obj.x0.get (costOf f c.out) z.get ∧
      GradApprox d (solverFn d c.stScale c.inScale s.obj.x0.get (costOf f c.out)) z.get G.get
        (d.ph * S * (L * (1 / 1000000 * M))) := by
  obtain ⟨⟨r, s'⟩, e, v, q⟩ := NlState.evalObj_post h hp hf z hz true
  simp only [if_true] at q
  obtain ⟨G, gx, gu, ge, k1, k2, k3, k4⟩ := q
  have hpos := h.pos
  refine ⟨r, s', G, e, k1, k2, v, ?_⟩
  obtain ⟨a1, a2, a3, a4⟩ := k3.approx _ _ _ hS hL (by omega) (H := 1 / 1000000 * M)
    (fun a _ => stepLinear_le (by norm_num) hM.one hM.states a) (fun b _ => stepLinear_le (by norm_num) hM.one hM.inputs b)
    (stepSlack_le (by norm_num) (by norm_num) hM.one hM.slack) _ rfl
  have hη : 0 ≤ L * (1 / 1000000 * M) := mul_nonneg hL (mul_nonneg (by norm_num) (by linarith [hM.one]))
  have k4' : RowOf d c.stScale c.inScale gx gu ge G.get :=
    ⟨fun k a hk ha => by rw [k4.states k a hk ha, hsc a ha], k4.inputs, k4.slack⟩
  exact gradApprox_of_row hpos.1 hpos.2 _ _ _ _ _ (hS.diff _).hasFDerivAt gx gu ge _ k4' hη hS1
    (fun a ha => by rw [hsc a ha, abs_one]; exact hS1) hsu a1 a2 a3 a4

/-- accuracy of the gradient of an inequality constraint which does not depend on the input of step `ph` -/
theorem ineq_accuracy_of_holds (h : s.Holds c) (hp : d.ph < 2 ^ 31)
    {F : Traj (d.ph + 1) d.nx ℝ → Traj (d.ph + 1) d.ny ℝ → Traj (d.ph + 1) d.nu ℝ → ℝ → FVec d.ineq ℝ} (hf : c.ineq = some F)
    (hS : ∀ i, SmoothTraj (fun X U e => ineqOf F c.out X U e i) L) (hL : 0 ≤ L) (hS1 : 1 ≤ S)
    (hs : ∀ a, a < d.nx → |c.stScale a| ≤ S) (hsu : ∀ b, b < d.nu → |c.inScale b| ≤ S)
    (hlast : ∀ i X U e b t, ineqOf F c.out X (bump U d.ph b t) e i = ineqOf F c.out X U e i) (z : Vec ℝ) (hz : z.size = d.nZ)
    (junk : Nat → ℝ)
    (hM : Within (codeStates d c.stScale s.con.x0.get z.get) (inputs d c.inScale z.get) (z.get (slackIx d)) M) :
    ∃ r s', s.evalIneq z junk = .ok (r, s') ∧ ∀ i : Fin d.ineq,
      r.value.get i = solverFn d c.stScale c.inScale s.con.x0.get (fun X U e => ineqOf F c.out X U e i) z.get ∧
      GradApprox d (solverFn d c.stScale c.inScale s.con.x0.get (fun X U e => ineqOf F c.out X U e i)) z.get
        (fun v => r.grad.get (i * d.nZ + v)) (d.ph * S * (L * (1 / 67108864 * M))) := by
  obtain ⟨⟨r, s'⟩, e, -, -, v, gx, gu, ge, k3, k4⟩ := NlState.evalIneq_post h hp hf z hz junk
  have hpos := h.pos
  refine ⟨r, s', e, fun i => ⟨v i, ?_⟩⟩
  have hη : 0 ≤ L * (1 / 67108864 * M) := mul_nonneg hL (mul_nonneg (by norm_num) (by linarith [hM.one]))
  obtain ⟨a1, a2, a3, a4⟩ := k3.approx _ _ _ i (hS i) hL (by omega) (H := 1 / 67108864 * M)
    (fun _ a _ _ => stepLinear_le Constraints.dv_pos.le hM.one hM.states a)
    (fun _ b _ _ => stepLinear_le Constraints.dv_pos.le hM.one hM.inputs b) _ rfl (by
      intro _ b _
      refine (HasDerivAt.unique (f := fun t : ℝ => ineqOf F c.out (codeStates d c.stScale s.con.x0.get z.get)
        (bump (inputs d c.inScale z.get) d.ph b t) (z.get (slackIx d)) i) (x := 0) ?_ ?_)
      · have e1 : (fun t : ℝ => ineqOf F c.out (codeStates d c.stScale s.con.x0.get z.get)
            (bump (inputs d c.inScale z.get) d.ph b t) (z.get (slackIx d)) i)
            = (fun p : Traj (d.ph + 1) d.nx ℝ × Traj (d.ph + 1) d.nu ℝ × ℝ => ineqOf F c.out p.1 p.2.1 p.2.2 i) ∘
              fun t : ℝ => (codeStates d c.stScale s.con.x0.get z.get, inputs d c.inScale z.get, z.get (slackIx d))
                + t • ((0, unit _ _ d.ph b, 0) : Traj (d.ph + 1) d.nx ℝ × Traj (d.ph + 1) d.nu ℝ × ℝ) := by
          funext t
          rw [Function.comp_apply, ← add_mid, ← bump_eq]
        rw [e1]
        refine HasFDerivAt.comp_hasDerivAt (0 : ℝ) ?_ ?_
        · rw [zero_smul, add_zero]; exact ((hS i).diff _).hasFDerivAt
        · have := (hasDerivAt_id (0 : ℝ)).smul_const ((0, unit _ _ d.ph b, 0) : Traj (d.ph + 1) d.nx ℝ × Traj (d.ph + 1) d.nu ℝ × ℝ)
          rw [one_smul] at this
          exact this.const_add _
      · simp only [hlast]
        exact hasDerivAt_const _ _)
  exact gradApprox_of_row hpos.1 hpos.2 _ _ _ _ _ ((hS i).diff _).hasFDerivAt (gx i) (gu i) (ge i) _ (k4 i i.2) hη hS1 hs hsu
    a1 a2 a3 (a4 (stepSlack_le Constraints.dv_pos.le (by unfold Constraints.dv; norm_num) hM.one hM.slack))

/-- accuracy of the gradient of the equality constraints -/
theorem eq_accuracy_of_holds (h : s.Holds c)
    {F : Traj (d.ph + 1) d.nx ℝ → Traj (d.ph + 1) d.nu ℝ → FVec d.eq ℝ} (hf : c.eq = some F)
    (hS : ∀ i, SmoothTraj (fun X U _ => F X U i) L) (hL : 0 ≤ L) (hS1 : 1 ≤ S)
    (hs : ∀ a, a < d.nx → |c.stScale a| ≤ S) (hsu : ∀ b, b < d.nu → |c.inScale b| ≤ S) (z : Vec ℝ) (hz : z.size = d.nZ)
    (junk : Nat → ℝ)
    (hM : Within (codeStates d c.stScale s.con.x0.get z.get) (inputs d c.inScale z.get) (z.get (slackIx d)) M) :
    ∃ r s', s.evalEq z junk = .ok (r, s') ∧ ∀ i : Fin d.eq,
      r.value.get i = solverFn d c.stScale c.inScale s.con.x0.get (fun X U _ => F X U i) z.get ∧
      GradApprox d (solverFn d c.stScale c.inScale s.con.x0.get (fun X U _ => F X U i)) z.get
        (fun v => r.grad.get (i * d.nZ + v)) (d.ph * S * (L * (1 / 67108864 * M))) := by
  obtain ⟨⟨r, s'⟩, e, -, -, v, gx, gu, k3, k4⟩ := NlState.evalEq_post h hf z hz junk
  have hpos := h.pos
  refine ⟨r, s', e, fun i => ⟨v i, ?_⟩⟩
  have hη : 0 ≤ L * (1 / 67108864 * M) := mul_nonneg hL (mul_nonneg (by norm_num) (by linarith [hM.one]))
  obtain ⟨a1, a2, a3, -⟩ := k3.approx (ψ := fun X U _ => F X U) _ _ _ i (hS i) hL (by omega) (H := 1 / 67108864 * M)
    (fun k a _ _ => stepEntry_le Constraints.dv_pos.le hM.one hM.states _ a)
    (fun k b _ _ => stepEntry_le Constraints.dv_pos.le hM.one hM.inputs _ b) _ rfl (by intro h; cases h)
  refine gradApprox_of_row hpos.1 hpos.2 _ _ _ _ _ ((hS i).diff _).hasFDerivAt (gx i) (gu i) 0 _ (k4 i i.2) hη hS1 hs hsu
    a1 a2 a3 ?_
  have e0 : fderiv ℝ (fun p : Traj (d.ph + 1) d.nx ℝ × Traj (d.ph + 1) d.nu ℝ × ℝ => F p.1 p.2.1 i)
      (codeStates d c.stScale s.con.x0.get z.get, inputs d c.inScale z.get, z.get (slackIx d)) (0, 0, 1) = 0 := by
    refine (HasDerivAt.unique (f := fun _ : ℝ => F (codeStates d c.stScale s.con.x0.get z.get) (inputs d c.inScale z.get) i)
      (x := 0) ?_ (hasDerivAt_const _ _))
    have e1 : (fun _ : ℝ => F (codeStates d c.stScale s.con.x0.get z.get) (inputs d c.inScale z.get) i)
        = (fun p : Traj (d.ph + 1) d.nx ℝ × Traj (d.ph + 1) d.nu ℝ × ℝ => F p.1 p.2.1 i) ∘
          fun t : ℝ => (codeStates d c.stScale s.con.x0.get z.get, inputs d c.inScale z.get, z.get (slackIx d))
            + t • ((0, 0, 1) : Traj (d.ph + 1) d.nx ℝ × Traj (d.ph + 1) d.nu ℝ × ℝ) := by
      funext t
      rw [Function.comp_apply, ← add_inr]
    rw [e1]
    refine HasFDerivAt.comp_hasDerivAt (0 : ℝ) ?_ ?_
    · rw [zero_smul, add_zero]; exact ((hS i).diff _).hasFDerivAt
    · have := (hasDerivAt_id (0 : ℝ)).smul_const ((0, 0, 1) : Traj (d.ph + 1) d.nx ℝ × Traj (d.ph + 1) d.nu ℝ × ℝ)
      rw [one_smul] at this
      exact this.const_add _
  refine le_trans (le_of_eq ?_) hη
  exact (congrArg (fun t : ℝ => |0 - t|) e0).trans (by simp)


section dynamics
variable {n m : Nat}

/-- the vector with a one at component `j` -/
noncomputable def NlSpec.unitV (n j : Nat) : FVec n ℝ := fun a => if (a : Nat) = j then 1 else 0

theorem NlSpec.bumpV_eq (x : FVec n ℝ) (j : Nat) (t : ℝ) : bumpV x j t = x + t • unitV n j := by
  funext a
  show _ = x a + t * unitV n j a
  unfold bumpV unitV
  split_ifs <;> ring

theorem NlSpec.norm_unitV_le (j : Nat) : ‖unitV n j‖ ≤ 1 :=
  (pi_norm_le_iff_of_nonneg zero_le_one).2 fun a => by unfold unitV; split_ifs <;> simp

theorem NlSpec.quotX_approx {F : FVec d.nx ℝ → FVec d.nu ℝ → Nat → FVec d.nx ℝ} (hF : SmoothModel F L) (hL : 0 ≤ L) {t : ℝ}
    (ht : 0 < t) (x : FVec d.nx ℝ) (u : FVec d.nu ℝ) (k : Nat) (r a : Fin d.nx) (h1 : 1 ≤ M) (hx : |x a| ≤ M) :
    |quotX t F x u k r a - fderiv ℝ (fun p : FVec d.nx ℝ × FVec d.nu ℝ => F p.1 p.2 k r) (x, u) (unitV _ a, 0)|
      ≤ L * (t * M) := by
  have hpos : 0 < stepOf t (x a) := stepOf_pos ht _
  have := (hF k r).central hL (x, u) (unitV _ a, 0) (by rw [Prod.norm_def]; simpa using norm_unitV_le (n := d.nx) a) hpos
  unfold quotX
  rw [bumpV_eq, bumpV_eq]
  refine le_trans (le_of_eq ?_) (this.trans (mul_le_mul_of_nonneg_left (stepOf_le ht.le h1 hx) hL))
  simp

theorem NlSpec.quotU_approx {F : FVec d.nx ℝ → FVec d.nu ℝ → Nat → FVec d.nx ℝ} (hF : SmoothModel F L) (hL : 0 ≤ L) {t : ℝ}
    (ht : 0 < t) (x : FVec d.nx ℝ) (u : FVec d.nu ℝ) (k : Nat) (r : Fin d.nx) (b : Fin d.nu) (h1 : 1 ≤ M) (hu : |u b| ≤ M) :
    |quotU t F x u k r b - fderiv ℝ (fun p : FVec d.nx ℝ × FVec d.nu ℝ => F p.1 p.2 k r) (x, u) (0, unitV _ b)|
      ≤ L * (t * M) := by
  have hpos : 0 < stepOf t (u b) := stepOf_pos ht _
  have := (hF k r).central hL (x, u) (0, unitV _ b) (by rw [Prod.norm_def]; simpa using norm_unitV_le (n := d.nu) b) hpos
  unfold quotU
  rw [bumpV_eq, bumpV_eq]
  refine le_trans (le_of_eq ?_) (this.trans (mul_le_mul_of_nonneg_left (stepOf_le ht.le h1 hu) hL))
  simp

/-- state of step `k` -/
noncomputable def NlSpec.xAt (d : Dims) (k : Fin (d.ph + 1)) : (Traj (d.ph + 1) d.nx ℝ × Traj (d.ph + 1) d.nu ℝ × ℝ) →L[ℝ] FVec d.nx ℝ :=
  (ContinuousLinearMap.proj (R := ℝ) (φ := fun _ : Fin (d.ph + 1) => FVec d.nx ℝ) k).comp (ContinuousLinearMap.fst ℝ _ _)

/-- input of step `k` -/
noncomputable def NlSpec.uAt (d : Dims) (k : Fin (d.ph + 1)) : (Traj (d.ph + 1) d.nx ℝ × Traj (d.ph + 1) d.nu ℝ × ℝ) →L[ℝ] FVec d.nu ℝ :=
  (ContinuousLinearMap.proj (R := ℝ) (φ := fun _ : Fin (d.ph + 1) => FVec d.nu ℝ) k).comp
    ((ContinuousLinearMap.fst ℝ _ _).comp (ContinuousLinearMap.snd ℝ _ _))

/-- component `r` -/
noncomputable def NlSpec.compAt (d : Dims) (r : Fin d.nx) : FVec d.nx ℝ →L[ℝ] ℝ := ContinuousLinearMap.proj (R := ℝ) (φ := fun _ : Fin d.nx => ℝ) r

/-- derivative of the residual of step `k`, component `r` -/
noncomputable def NlSpec.residualD (cont : Bool) (Ts : ℝ) (sr : ℝ) (k : Fin d.ph) (r : Fin d.nx)
    (D1 D2 : (FVec d.nx ℝ × FVec d.nu ℝ) →L[ℝ] ℝ) : (Traj (d.ph + 1) d.nx ℝ × Traj (d.ph + 1) d.nu ℝ × ℝ) →L[ℝ] ℝ :=
  (1 / sr) • (if cont then
      (compAt d r).comp (xAt d k.castSucc) + (Ts / 2) • (D1.comp ((xAt d k.castSucc).prod (uAt d k.castSucc))
        + D2.comp ((xAt d k.succ).prod (uAt d k.castSucc))) - (compAt d r).comp (xAt d k.succ)
    else (compAt d r).comp (xAt d k.succ) - D1.comp ((xAt d k.castSucc).prod (uAt d k.castSucc)))

theorem NlSpec.hasFDerivAt_residual {F : FVec d.nx ℝ → FVec d.nu ℝ → Nat → FVec d.nx ℝ} (hF : SmoothModel F L) (cont : Bool)
    (Ts : ℝ) (sc : Nat → ℝ) (k : Fin d.ph) (r : Fin d.nx) (p : Traj (d.ph + 1) d.nx ℝ × Traj (d.ph + 1) d.nu ℝ × ℝ) :
    HasFDerivAt (fun p : Traj (d.ph + 1) d.nx ℝ × Traj (d.ph + 1) d.nu ℝ × ℝ => residual cont Ts sc F p.1 p.2.1 k r)
      (residualD cont Ts (sc r) k r
        (fderiv ℝ (fun q : FVec d.nx ℝ × FVec d.nu ℝ => F q.1 q.2 k r) (p.1 k.castSucc, p.2.1 k.castSucc))
        (fderiv ℝ (fun q : FVec d.nx ℝ × FVec d.nu ℝ => F q.1 q.2 k r) (p.1 k.succ, p.2.1 k.castSucc))) p := by
  have hx : ∀ i, HasFDerivAt (fun p : Traj (d.ph + 1) d.nx ℝ × Traj (d.ph + 1) d.nu ℝ × ℝ => p.1 i r)
      ((compAt d r).comp (xAt d i)) p := fun i => ((compAt d r).comp (xAt d i)).hasFDerivAt
  have hf : ∀ i, HasFDerivAt (fun p : Traj (d.ph + 1) d.nx ℝ × Traj (d.ph + 1) d.nu ℝ × ℝ =>
      F (p.1 i) (p.2.1 k.castSucc) k r)
      ((fderiv ℝ (fun q : FVec d.nx ℝ × FVec d.nu ℝ => F q.1 q.2 k r) (p.1 i, p.2.1 k.castSucc)).comp
        ((xAt d i).prod (uAt d k.castSucc))) p := by
    intro i
    exact HasFDerivAt.comp (g := fun q : FVec d.nx ℝ × FVec d.nu ℝ => F q.1 q.2 k r)
      (f := fun p => (xAt d i).prod (uAt d k.castSucc) p) p ((hF k r).diff _).hasFDerivAt
      ((xAt d i).prod (uAt d k.castSucc)).hasFDerivAt
  unfold residual residualD
  cases cont with
  | true =>
    simp only [if_true]
    have := (((hx k.castSucc).add (((hf k.castSucc).add (hf k.succ)).const_mul (Ts / 2))).sub (hx k.succ)).const_mul (1 / sc r)
    refine this.congr_of_eventuallyEq (Filter.Eventually.of_forall fun q => ?_)
    simp only [Pi.add_apply, Pi.sub_apply]
    ring
  | false =>
    simp only [Bool.false_eq_true, if_false]
    have := ((hx k.succ).sub (hf k.castSucc)).const_mul (1 / sc r)
    refine this.congr_of_eventuallyEq (Filter.Eventually.of_forall fun q => ?_)
    simp only [Pi.sub_apply]
    ring

theorem NlSpec.xAt_unit (k : Fin (d.ph + 1)) (i a : Nat) :
    xAt d k (unit _ _ i a, 0, 0) = if (k : Nat) = i then unitV _ a else 0 := by
  funext b
  show unit _ _ i a k b = _
  unfold unit unitV
  by_cases h : (k : Nat) = i <;> simp [h]

theorem NlSpec.uAt_unit (k : Fin (d.ph + 1)) (i b : Nat) :
    uAt d k (0, unit _ _ i b, 0) = if (k : Nat) = i then unitV _ b else 0 := by
  funext c
  show unit _ _ i b k c = _
  unfold unit unitV
  by_cases h : (k : Nat) = i <;> simp [h]

theorem NlSpec.xAt_zero (k : Fin (d.ph + 1)) (U : Traj (d.ph + 1) d.nu ℝ) (e : ℝ) : xAt d k (0, U, e) = 0 := rfl
theorem NlSpec.uAt_zero (k : Fin (d.ph + 1)) (X : Traj (d.ph + 1) d.nx ℝ) (e : ℝ) : uAt d k (X, 0, e) = 0 := rfl

theorem NlSpec.compAt_unitV (r a : Fin d.nx) : compAt d r (unitV _ a) = if r = a then 1 else 0 := by
  show unitV _ a r = _
  unfold unitV
  simp [Fin.ext_iff]

theorem NlSpec.residualD_apply (cont : Bool) (Ts sr : ℝ) (k : Fin d.ph) (r : Fin d.nx)
    (D1 D2 : (FVec d.nx ℝ × FVec d.nu ℝ) →L[ℝ] ℝ) (p : Traj (d.ph + 1) d.nx ℝ × Traj (d.ph + 1) d.nu ℝ × ℝ) :
    residualD cont Ts sr k r D1 D2 p = (1 / sr) * (if cont then
      compAt d r (xAt d k.castSucc p) + Ts / 2 * (D1 (xAt d k.castSucc p, uAt d k.castSucc p)
        + D2 (xAt d k.succ p, uAt d k.castSucc p)) - compAt d r (xAt d k.succ p)
      else compAt d r (xAt d k.succ p) - D1 (xAt d k.castSucc p, uAt d k.castSucc p)) := by
  unfold residualD
  cases cont <;> rfl

/-- accuracy of the gradient of the model equations -/
theorem dynamics_accuracy_of_holds (h : s.Holds c) (hp : d.ph < 2 ^ 31)
    {F : FVec d.nx ℝ → FVec d.nu ℝ → Nat → FVec d.nx ℝ} (hf : c.field = some F)
    (hS : SmoothModel F L) (hL : 0 ≤ L) (hS1 : 1 ≤ S)
    (hs : ∀ a, a < d.nx → |c.stScale a| ≤ S) (hsi : ∀ a, a < d.nx → 1 ≤ S * |c.stScale a|)
    (hsu : ∀ b, b < d.nu → |c.inScale b| ≤ S) (z : Vec ℝ) (hz : z.size = d.nZ)
    (junk : Nat → ℝ)
    (hM : Within (codeStates d c.stScale s.con.x0.get z.get) (inputs d c.inScale z.get) (z.get (slackIx d)) M) :
    ∃ r s', s.evalDyn z true junk = .ok (r, s') ∧ ∀ (k : Fin d.ph) (a : Fin d.nx),
      r.value.get (k * d.nx + a) = solverFn d c.stScale c.inScale s.con.x0.get
        (fun X U _ => residual c.cont c.Ts c.stScale F X U k a) z.get ∧
      GradApprox d (solverFn d c.stScale c.inScale s.con.x0.get (fun X U _ => residual c.cont c.Ts c.stScale F X U k a)) z.get
        (fun v => r.grad.get ((k * d.nx + a) * d.nZ + v))
        (d.ph * S * (S * (if c.cont then |c.Ts| else 1) * (L * (1 / 67108864 * M)))) := by
  obtain ⟨⟨r, s'⟩, e, -, -, q⟩ := NlState.evalDyn_traj h hp hf z hz true junk
  have hpos := h.pos
  refine ⟨r, s', e, fun k i => ⟨(q k i).1, ?_⟩⟩
  have row := (q k i).2 rfl
  dsimp only at row
  set X := codeStates d c.stScale s.con.x0.get z.get with hX
  set U := inputs d c.inScale z.get with hU
  have hε : 0 ≤ L * (1 / 67108864 * M) := mul_nonneg hL (mul_nonneg (by norm_num) (by linarith [hM.one]))
  set ε := L * (1 / 67108864 * M) with hεd
  have hdv : (Constraints.dv : ℝ) = 1 / 67108864 := rfl
  rw [hdv] at row
  have qx := fun (x : FVec d.nx ℝ) (u : FVec d.nu ℝ) (a : Fin d.nx) (hx : |x a| ≤ M) =>
    quotX_approx hS hL (t := 1 / 67108864) (by norm_num) x u k i a hM.one hx
  have qu := fun (x : FVec d.nx ℝ) (u : FVec d.nu ℝ) (b : Fin d.nu) (hx : |u b| ≤ M) =>
    quotU_approx hS hL (t := 1 / 67108864) (by norm_num) x u k i b hM.one hx
  rw [← hεd] at qx qu
  set D1 := fderiv ℝ (fun q : FVec d.nx ℝ × FVec d.nu ℝ => F q.1 q.2 k i) (X k.castSucc, U k.castSucc) with hD1
  set D2 := fderiv ℝ (fun q : FVec d.nx ℝ × FVec d.nu ℝ => F q.1 q.2 k i) (X k.succ, U k.castSucc) with hD2
  have si0 : c.stScale i ≠ 0 := by
    intro h0
    have := hsi i i.2
    rw [h0, abs_zero, mul_zero] at this
    linarith
  have hinv : |1 / c.stScale i| ≤ S := by
    rw [abs_div, abs_one, div_le_iff₀ (abs_pos.2 si0)]
    exact hsi i i.2
  set w := 1 / c.stScale i with hw
  have hw1 : ∀ a : Fin d.nx, (if i = a then (1 : ℝ) else 0) = w * (if i = a then 1 else 0) * c.stScale a := by
    intro a
    by_cases hia : i = a
    · subst hia; rw [if_pos rfl, hw]; field_simp
    · simp [hia]
  set fac := (if c.cont then |c.Ts| else (1 : ℝ)) with hfac
  have hfac0 : 0 ≤ fac := by rw [hfac]; split_ifs <;> positivity
  have hS0 : 0 ≤ S := by linarith
  have hη : 0 ≤ S * fac * ε := by positivity
  -- the entries before scaling
  set gx : Nat → Nat → ℝ := fun k' a => if ha : a < d.nx then
      (if k' = (k : Nat) then
        (if c.cont then -(w * (if i = ⟨a, ha⟩ then 1 else 0)) + c.Ts / 2 * w * quotX (1 / 67108864) F (X k.succ) (U k.castSucc) k i ⟨a, ha⟩
          else w * (if i = ⟨a, ha⟩ then 1 else 0))
      else if k' + 1 = (k : Nat) then
        (if c.cont then w * (if i = ⟨a, ha⟩ then 1 else 0) + c.Ts / 2 * w * quotX (1 / 67108864) F (X k.castSucc) (U k.castSucc) k i ⟨a, ha⟩
          else -(w * quotX (1 / 67108864) F (X k.castSucc) (U k.castSucc) k i ⟨a, ha⟩))
      else 0) else 0 with hgx
  set gu : Nat → Nat → ℝ := fun k' b => if hb : b < d.nu then
      (if k' = (k : Nat) then residualInput (1 / 67108864) c.cont c.Ts c.stScale F X U k i ⟨b, hb⟩ else 0) else 0 with hgu
  have hrow : RowOf d c.stScale c.inScale gx gu 0 (fun v => r.grad.get ((k * d.nx + i) * d.nZ + v)) := by
    refine ⟨?_, ?_, row.slack⟩
    · intro k' a hk' ha
      rw [row.states k' ⟨a, ha⟩ hk', hgx]
      simp only [dif_pos ha]
      unfold residualNext residualPrev
      rw [← hw]
      have hδ := hw1 ⟨a, ha⟩
      generalize (if i = ⟨a, ha⟩ then (1 : ℝ) else 0) = δ at hδ ⊢
      cases c.cont <;> simp only [if_true, Bool.false_eq_true, if_false] <;> split_ifs <;>
        first | linear_combination hδ | linear_combination -hδ | linear_combination 0 * hδ
    · intro j b hj hb
      rw [row.inputs j ⟨b, hb⟩ hj, hgu]
      simp only [dif_pos hb]
      congr 1
      rw [Finset.sum_eq_single (k : Nat)]
      · rw [if_pos rfl]
      · intro k' _ hk'
        rw [if_neg hk', ite_self]
      · intro hk'
        exact absurd (Finset.mem_range.2 k.2) hk'
  have hTs : |c.Ts / 2| = |c.Ts| / 2 := by rw [abs_div, abs_two]
  have input_bound : ∀ k' b, b < d.nu →
      |gu k' b - residualD c.cont c.Ts (c.stScale i) k i D1 D2 (0, unit _ _ k' b, 0)| ≤ S * fac * ε := by
    intro k' b hb
    rw [residualD_apply, xAt_zero, xAt_zero, uAt_unit, hgu, map_zero]
    simp only [dif_pos hb, Fin.val_castSucc]
    by_cases h1 : k' = (k : Nat)
    · subst h1
      rw [if_pos rfl, if_pos rfl]
      unfold residualInput
      rw [← hw]
      have b1 := qu (X k.castSucc) (U k.castSucc) ⟨b, hb⟩ (hM.inputs _ _)
      have b2 := qu (X k.succ) (U k.castSucc) ⟨b, hb⟩ (hM.inputs _ _)
      rw [← hD1] at b1
      rw [← hD2] at b2
      cases hc : c.cont with
      | true =>
        rw [hc, if_pos rfl] at hfac
        simp only [if_true]
        have : ∀ P Q Dv Ev : ℝ, c.Ts / 2 * w * (P + Q) - w * (0 + c.Ts / 2 * (Dv + Ev) - 0)
            = (c.Ts / 2) * w * ((P - Dv) + (Q - Ev)) := by
          intros; ring
        rw [this, abs_mul, abs_mul, hTs, hfac]
        calc |c.Ts| / 2 * |w| * _ ≤ |c.Ts| / 2 * S * (ε + ε) := by
              refine mul_le_mul (mul_le_mul le_rfl hinv (abs_nonneg _) (by positivity)) ((abs_add_le _ _).trans (add_le_add b1 b2))
                (abs_nonneg _) (by positivity)
          _ = _ := by ring
      | false =>
        rw [hc, if_neg (by simp)] at hfac
        simp only [Bool.false_eq_true, if_false]
        have : ∀ Q Dv : ℝ, -(w * Q) - w * (0 - Dv) = -(w * (Q - Dv)) := by
          intros; ring
        rw [this, abs_neg, abs_mul, hfac, mul_one]
        exact mul_le_mul hinv b1 (abs_nonneg _) hS0
    · rw [if_neg h1, if_neg (c := (k : Nat) = k') (fun h => h1 h.symm)]
      have z1 : D1 (0, 0) = 0 := D1.map_zero
      have z2 : D2 (0, 0) = 0 := D2.map_zero
      rw [z1, z2]
      simpa using hη
  have input_zero : ∀ b, residualD c.cont c.Ts (c.stScale i) k i D1 D2 (0, unit _ _ d.ph b, 0) = 0 := by
    intro b
    rw [residualD_apply, xAt_zero, xAt_zero, uAt_unit, map_zero,
      if_neg (c := ((k.castSucc : Fin (d.ph + 1)) : Nat) = d.ph) (by rw [Fin.val_castSucc]; omega)]
    have z1 : D1 (0, 0) = 0 := D1.map_zero
    have z2 : D2 (0, 0) = 0 := D2.map_zero
    rw [z1, z2]
    simp
  refine gradApprox_of_row hpos.1 hpos.2 _ _ _ _ _ (hasFDerivAt_residual hS c.cont c.Ts c.stScale k i _) gx gu 0 _ hrow hη hS1 hs hsu
    ?_ ?_ ?_ ?_
  · intro k' a hk' ha
    rw [residualD_apply, xAt_unit, xAt_unit, uAt_zero, hgx]
    simp only [dif_pos ha, Fin.val_castSucc, Fin.val_succ]
    show |_ - w * (if c.cont then _ + c.Ts / 2 * (D1 _ + D2 _) - _ else _ - D1 _)| ≤ _
    by_cases h1 : k' = (k : Nat)
    · subst h1
      rw [if_pos rfl, if_neg (c := (k : Nat) = (k : Nat) + 1) (by omega), if_pos rfl]
      have e0 : compAt d i (unitV d.nx a) = if i = ⟨a, ha⟩ then 1 else 0 := compAt_unitV i ⟨a, ha⟩
      have z1 : D1 (0, 0) = 0 := D1.map_zero
      rw [e0, map_zero, z1]
      have b1 := qx (X k.succ) (U k.castSucc) ⟨a, ha⟩ (hM.states _ _)
      rw [← hD2] at b1
      cases hc : c.cont with
      | true =>
        rw [hc, if_pos rfl] at hfac
        simp only [if_true]
        have : ∀ δ Q Dv : ℝ, -(w * δ) + c.Ts / 2 * w * Q - w * (0 + c.Ts / 2 * (0 + Dv) - δ) = (c.Ts / 2) * w * (Q - Dv) := by
          intros; ring
        rw [this, abs_mul, abs_mul, hTs, hfac]
        calc |c.Ts| / 2 * |w| * _ ≤ |c.Ts| * S * ε := by
              refine mul_le_mul (mul_le_mul (by linarith [abs_nonneg c.Ts]) hinv (abs_nonneg _) (abs_nonneg _)) b1 (abs_nonneg _) ?_
              exact mul_nonneg (abs_nonneg _) hS0
          _ = _ := by ring
      | false =>
        simp only [Bool.false_eq_true, if_false]
        rw [sub_zero, sub_self, abs_zero]
        exact hη
    · rw [if_neg h1, if_neg (c := (k : Nat) + 1 = k' + 1) (by omega)]
      have z0 : compAt d i (0 : FVec d.nx ℝ) = 0 := map_zero _
      by_cases h2 : k' + 1 = (k : Nat)
      · rw [if_pos h2, if_pos h2.symm]
        have e0 : compAt d i (unitV d.nx a) = if i = ⟨a, ha⟩ then 1 else 0 := compAt_unitV i ⟨a, ha⟩
        have z2 : D2 (0, 0) = 0 := D2.map_zero
        rw [e0, z0, z2]
        have b1 := qx (X k.castSucc) (U k.castSucc) ⟨a, ha⟩ (hM.states _ _)
        rw [← hD1] at b1
        cases hc : c.cont with
        | true =>
          rw [hc, if_pos rfl] at hfac
          simp only [if_true]
          have : ∀ δ Q Dv : ℝ, w * δ + c.Ts / 2 * w * Q - w * (δ + c.Ts / 2 * (Dv + 0) - 0) = (c.Ts / 2) * w * (Q - Dv) := by
            intros; ring
          rw [this, abs_mul, abs_mul, hTs, hfac]
          calc |c.Ts| / 2 * |w| * _ ≤ |c.Ts| * S * ε := by
                refine mul_le_mul (mul_le_mul (by linarith [abs_nonneg c.Ts]) hinv (abs_nonneg _) (abs_nonneg _)) b1 (abs_nonneg _) ?_
                exact mul_nonneg (abs_nonneg _) hS0
            _ = _ := by ring
        | false =>
          rw [hc, if_neg (by simp)] at hfac
          simp only [Bool.false_eq_true, if_false]
          have : ∀ Q Dv : ℝ, -(w * Q) - w * (0 - Dv) = -(w * (Q - Dv)) := by
            intros; ring
          rw [this, abs_neg, abs_mul, hfac, mul_one]
          exact mul_le_mul hinv b1 (abs_nonneg _) hS0
      · rw [if_neg h2, if_neg (c := (k : Nat) = k' + 1) (fun h => h2 h.symm)]
        have z1 : D1 (0, 0) = 0 := D1.map_zero
        have z2 : D2 (0, 0) = 0 := D2.map_zero
        rw [z0, z1, z2]
        simpa using hη
  · intro k' b hk' hb
    have := input_bound k' b hb
    exact this
  · intro b hb
    have h1 : |gu (d.ph - 1) b - (residualD c.cont c.Ts (c.stScale i) k i D1 D2 (0, unit _ _ (d.ph - 1) b, 0)
        + residualD c.cont c.Ts (c.stScale i) k i D1 D2 (0, unit _ _ d.ph b, 0))| ≤ S * fac * ε := by
      rw [input_zero b, add_zero]
      exact input_bound (d.ph - 1) b hb
    exact h1
  · have : residualD c.cont c.Ts (c.stScale i) k i D1 D2 (0, 0, 1) = 0 := by
      rw [residualD_apply, xAt_zero, xAt_zero]
      have u0 : uAt d k.castSucc ((0, 0, 1) : Traj (d.ph + 1) d.nx ℝ × Traj (d.ph + 1) d.nu ℝ × ℝ) = 0 := rfl
      have z1 : D1 (0, 0) = 0 := D1.map_zero
      have z2 : D2 (0, 0) = 0 := D2.map_zero
      rw [u0, z1, z2, map_zero]
      simp
    refine le_trans (le_of_eq ?_) hη
    exact (congrArg (fun t : ℝ => |0 - t|) this).trans (by simp)

end dynamics
end Mpc
