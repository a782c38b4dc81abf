import Verif.Proofs.NlAccuracy
import Verif.Props.NlApiGradients

/-
C68: inside every `optimize`, for user functions with Lipschitz derivative, the gradients handed to the solver differ from the
partial derivatives of the functions the solver sees by a bounded multiple of the difference step. Over the real numbers.
-/
namespace Mpc.Props
open Mpc Exec
set_option linter.unusedSectionVars false

section
variable {d : Dims} {dyn : Bool} {ops : List (NlCall d ℝ)} {outs : List (NlOut ℝ)} {m : NlMpc d ℝ} {x0 : Vec ℝ}
  {cs : List (NlCallback ℝ)} {s : NlState d ℝ}

/-- the magnitude of trajectory and slack for a decision vector -/
def TrajWithin (d : Dims) (ops : List (NlCall d ℝ)) (x0 z : Vec ℝ) (M : ℝ) : Prop :=
  NlSpec.Within (NlSpec.codeStates d (NlSpec.stScale ops) x0.get z.get) (NlSpec.inputs d (NlSpec.inScale ops) z.get)
    (z.get (NlSpec.slackIx d)) M

/-- the scaling factors are at most `S` in magnitude -/
structure ScalesWithin (d : Dims) (ops : List (NlCall d ℝ)) (S : ℝ) : Prop where
  one : 1 ≤ S
  states : ∀ a, a < d.nx → |NlSpec.stScale ops a| ≤ S
  inputs : ∀ b, b < d.nu → |NlSpec.inScale ops b| ≤ S

/-- C68 as claimed for the objective: value and gradient are those of the objective as a function of the decision vector, the
gradient up to `ph S L 1e-6 M`. -/
def C68ObjClaim : Prop :=
  ∀ (d : Dims) (dyn : Bool) (ops : List (NlCall d ℝ)) (outs : List (NlOut ℝ)) (m : NlMpc d ℝ) (x0 : Vec ℝ)
    (cs : List (NlCallback ℝ)) (s : NlState d ℝ), InSolver d dyn ops outs m x0 cs s →
    ∀ f, NlSpec.last NlSpec.objectiveOf ops = some f → ∀ L S M, NlSpec.SmoothTraj (NlSpec.costOf f (NlSpec.last NlSpec.outputOf ops)) L →
    0 ≤ L → ScalesWithin d ops S → ∀ z : Vec ℝ, z.size = d.nZ → TrajWithin d ops x0 z M →
    ∃ r s' G, s.evalObj z true = .ok (r, s') ∧ r.grad = some G ∧
      r.value = NlSpec.solverFn d (NlSpec.stScale ops) (NlSpec.inScale ops) x0.get
        (NlSpec.costOf f (NlSpec.last NlSpec.outputOf ops)) z.get ∧
      NlSpec.GradApprox d (NlSpec.solverFn d (NlSpec.stScale ops) (NlSpec.inScale ops) x0.get
        (NlSpec.costOf f (NlSpec.last NlSpec.outputOf ops))) z.get G.get (d.ph * S * (L * (1 / 1000000 * M)))

/-- C68 for the objective, proved part: unscaled states. Missing: state scaling factors other than one (see
`c68_scaled_objective_violated`). -/
theorem c68_objective_partial (h : InSolver d dyn ops outs m x0 cs s) (f : ObjFn d ℝ)
    (hobj : NlSpec.last NlSpec.objectiveOf ops = some f) (L S M : ℝ)
    (hS : NlSpec.SmoothTraj (NlSpec.costOf f (NlSpec.last NlSpec.outputOf ops)) L) (hL : 0 ≤ L) (hsc : ScalesWithin d ops S)
    (h1 : ∀ a, a < d.nx → NlSpec.stScale ops a = 1) (z : Vec ℝ) (hz : z.size = d.nZ) (hM : TrajWithin d ops x0 z M) :
    ∃ r s' G, s.evalObj z true = .ok (r, s') ∧ r.grad = some G ∧
      r.value = NlSpec.solverFn d (NlSpec.stScale ops) (NlSpec.inScale ops) x0.get
        (NlSpec.costOf f (NlSpec.last NlSpec.outputOf ops)) z.get ∧
      NlSpec.GradApprox d (NlSpec.solverFn d (NlSpec.stScale ops) (NlSpec.inScale ops) x0.get
        (NlSpec.costOf f (NlSpec.last NlSpec.outputOf ops))) z.get G.get (d.ph * S * (L * (1 / 1000000 * M))) := by
  obtain ⟨c, hs, e1, e2, e3, e4, e5, e6, e7, e8, e9, ho, hc⟩ := h.config
  obtain ⟨s1, s2, s3⟩ := hsc
  unfold TrajWithin at hM
  rw [← e1] at s3 hM ⊢
  rw [← e2] at h1 hM ⊢
  rw [← e3] at hS ⊢
  rw [← ho] at hM ⊢
  obtain ⟨r, s', G, k1, k2, -, k3, k4⟩ := objective_accuracy_of_holds hs h.hor.ph_int (e4.trans hobj) hS hL s1 s3 h1 z hz hM
  exact ⟨r, s', G, k1, k2, k3, k4⟩

/-- C68 as claimed for the inequality constraints. -/
def C68IneqClaim : Prop :=
  ∀ (d : Dims) (dyn : Bool) (ops : List (NlCall d ℝ)) (outs : List (NlOut ℝ)) (m : NlMpc d ℝ) (x0 : Vec ℝ)
    (cs : List (NlCallback ℝ)) (s : NlState d ℝ), InSolver d dyn ops outs m x0 cs s →
    ∀ F tol, NlSpec.last NlSpec.ineqConOf ops = some (F, tol) → ∀ L S M,
    (∀ i, NlSpec.SmoothTraj (fun X U e => NlSpec.ineqOf F (NlSpec.last NlSpec.outputOf ops) X U e i) L) →
    0 ≤ L → ScalesWithin d ops S → ∀ z : Vec ℝ, z.size = d.nZ → ∀ j : Nat → ℝ, TrajWithin d ops x0 z M →
    ∃ r s', s.evalIneq z j = .ok (r, s') ∧ ∀ i : Fin d.ineq,
      r.value.get i = NlSpec.solverFn d (NlSpec.stScale ops) (NlSpec.inScale ops) x0.get
        (fun X U e => NlSpec.ineqOf F (NlSpec.last NlSpec.outputOf ops) X U e i) z.get ∧
      NlSpec.GradApprox d (NlSpec.solverFn d (NlSpec.stScale ops) (NlSpec.inScale ops) x0.get
        (fun X U e => NlSpec.ineqOf F (NlSpec.last NlSpec.outputOf ops) X U e i)) z.get
        (fun v => r.grad.get (i * d.nZ + v)) (d.ph * S * (L * (1 / 67108864 * M)))

/-- C68 for the inequality constraints, proved part: constraints which do not depend on the input of step `ph`. Missing:
the others (see `c68_last_input_violated`). -/
theorem c68_ineq_partial (h : InSolver d dyn ops outs m x0 cs s)
    (F : Traj (d.ph + 1) d.nx ℝ → Traj (d.ph + 1) d.ny ℝ → Traj (d.ph + 1) d.nu ℝ → ℝ → FVec d.ineq ℝ) (tol : ℝ)
    (hF : NlSpec.last NlSpec.ineqConOf ops = some (F, tol)) (L S M : ℝ)
    (hS : ∀ i, NlSpec.SmoothTraj (fun X U e => NlSpec.ineqOf F (NlSpec.last NlSpec.outputOf ops) X U e i) L) (hL : 0 ≤ L)
    (hsc : ScalesWithin d ops S)
    (hlast : ∀ i X U e b t, NlSpec.ineqOf F (NlSpec.last NlSpec.outputOf ops) X (NlSpec.bump U d.ph b t) e i
      = NlSpec.ineqOf F (NlSpec.last NlSpec.outputOf ops) X U e i)
    (z : Vec ℝ) (hz : z.size = d.nZ) (j : Nat → ℝ) (hM : TrajWithin d ops x0 z M) :
    ∃ r s', s.evalIneq z j = .ok (r, s') ∧ ∀ i : Fin d.ineq,
      r.value.get i = NlSpec.solverFn d (NlSpec.stScale ops) (NlSpec.inScale ops) x0.get
        (fun X U e => NlSpec.ineqOf F (NlSpec.last NlSpec.outputOf ops) X U e i) z.get ∧
      NlSpec.GradApprox d (NlSpec.solverFn d (NlSpec.stScale ops) (NlSpec.inScale ops) x0.get
        (fun X U e => NlSpec.ineqOf F (NlSpec.last NlSpec.outputOf ops) X U e i)) z.get
        (fun v => r.grad.get (i * d.nZ + v)) (d.ph * S * (L * (1 / 67108864 * M))) := by
  obtain ⟨c, hs, e1, e2, e3, e4, e5, e6, e7, e8, e9, ho, hc⟩ := h.config
  obtain ⟨s1, s2, s3⟩ := hsc
  unfold TrajWithin at hM
  rw [← e1] at s3 hM ⊢
  rw [← e2] at s2 hM ⊢
  rw [← e3] at hS hlast ⊢
  rw [← hc] at hM ⊢
  exact ineq_accuracy_of_holds hs h.hor.ph_int (e6 F tol hF) hS hL s1 s2 s3 hlast z hz j hM

/-- C68 for the equality constraints, in full. -/
theorem c68_eq_accuracy (h : InSolver d dyn ops outs m x0 cs s)
    (F : Traj (d.ph + 1) d.nx ℝ → Traj (d.ph + 1) d.nu ℝ → FVec d.eq ℝ) (tol : ℝ)
    (hF : NlSpec.last NlSpec.eqConOf ops = some (F, tol)) (L S M : ℝ)
    (hS : ∀ i, NlSpec.SmoothTraj (fun X U _ => F X U i) L) (hL : 0 ≤ L) (hsc : ScalesWithin d ops S)
    (z : Vec ℝ) (hz : z.size = d.nZ) (j : Nat → ℝ) (hM : TrajWithin d ops x0 z M) :
    ∃ r s', s.evalEq z j = .ok (r, s') ∧ ∀ i : Fin d.eq,
      r.value.get i = NlSpec.solverFn d (NlSpec.stScale ops) (NlSpec.inScale ops) x0.get (fun X U _ => F X U i) z.get ∧
      NlSpec.GradApprox d (NlSpec.solverFn d (NlSpec.stScale ops) (NlSpec.inScale ops) x0.get (fun X U _ => F X U i)) z.get
        (fun v => r.grad.get (i * d.nZ + v)) (d.ph * S * (L * (1 / 67108864 * M))) := by
  obtain ⟨c, hs, e1, e2, e3, e4, e5, e6, e7, e8, e9, ho, hc⟩ := h.config
  obtain ⟨s1, s2, s3⟩ := hsc
  unfold TrajWithin at hM
  rw [← e1] at s3 hM ⊢
  rw [← e2] at s2 hM ⊢
  rw [← hc] at hM ⊢
  exact eq_accuracy_of_holds hs (e7 F tol hF) hS hL s1 s2 s3 z hz j hM

/-- C68 for the model equations, in full: the residual of step `k`, component `a` (of the map, or of the trapezoidal rule for
a continuous-time model), divided by the state scaling. -/
theorem c68_dynamics_accuracy (h : InSolver d dyn ops outs m x0 cs s)
    (F : FVec d.nx ℝ → FVec d.nu ℝ → Nat → FVec d.nx ℝ) (hF : NlSpec.last NlSpec.modelOf ops = some F) (L S M : ℝ)
    (hS : NlSpec.SmoothModel F L) (hL : 0 ≤ L) (hsc : ScalesWithin d ops S)
    (hinv : ∀ a, a < d.nx → 1 ≤ S * |NlSpec.stScale ops a|)
    (z : Vec ℝ) (hz : z.size = d.nZ) (j : Nat → ℝ) (hM : TrajWithin d ops x0 z M)
    (cont : Bool) (Ts : ℝ) (hcont : cont = (NlSpec.last NlSpec.samplingOf ops).isSome)
    (hTs : Ts = (NlSpec.last NlSpec.samplingOf ops).getD 0) :
    ∃ r s', s.evalDyn z true j = .ok (r, s') ∧ ∀ (k : Fin d.ph) (a : Fin d.nx),
      r.value.get (k * d.nx + a) = NlSpec.solverFn d (NlSpec.stScale ops) (NlSpec.inScale ops) x0.get
        (fun X U _ => NlSpec.residual cont Ts (NlSpec.stScale ops) F X U k a) z.get ∧
      NlSpec.GradApprox d (NlSpec.solverFn d (NlSpec.stScale ops) (NlSpec.inScale ops) x0.get
        (fun X U _ => NlSpec.residual cont Ts (NlSpec.stScale ops) F X U k a)) z.get
        (fun v => r.grad.get ((k * d.nx + a) * d.nZ + v))
        (d.ph * S * (S * (if cont then |Ts| else 1) * (L * (1 / 67108864 * M)))) := by
  obtain ⟨c, hs, e1, e2, e3, e4, e5, e6, e7, e8, e9, ho, hc⟩ := h.config
  obtain ⟨s1, s2, s3⟩ := hsc
  unfold TrajWithin at hM
  rw [← e8] at hcont
  rw [← e9] at hTs
  subst hcont hTs
  rw [← e1] at s3 hM ⊢
  rw [← e2] at s2 hinv hM ⊢
  rw [← hc] at hM ⊢
  exact dynamics_accuracy_of_holds hs h.hor.ph_int (e5.trans hF) hS hL s1 s2 hinv s3 z hz j hM

end

/-! ### non-vacuity and the violation -/

section
variable {E : Type} [NormedAddCommGroup E] [NormedSpace ℝ E]

theorem smooth_linear (l : E →L[ℝ] ℝ) : NlSpec.Smooth (fun p => l p) 0 := by
  refine ⟨l.differentiable, fun p q => ?_⟩
  have : ∀ x, fderiv ℝ (fun p => l p) x = l := fun x => l.hasFDerivAt.fderiv
  rw [this, this]; simp

theorem smooth_square (l : E →L[ℝ] ℝ) (hl : ‖l‖ ≤ 1) : NlSpec.Smooth (fun p => l p * l p) 2 := by
  have hd : ∀ x, HasFDerivAt (fun p => l p * l p) ((2 * l x) • l) x := by
    intro x
    have := (l.hasFDerivAt (x := x)).mul (l.hasFDerivAt (x := x))
    rw [← add_smul, ← two_mul] at this
    exact this
  refine ⟨fun x => (hd x).differentiableAt, fun p q => ?_⟩
  rw [(hd p).fderiv, (hd q).fderiv, ← sub_smul, norm_smul, ← mul_sub, ← map_sub, norm_mul, Real.norm_eq_abs, abs_two]
  have h1 : ‖l (p - q)‖ ≤ ‖p - q‖ := (l.le_opNorm _).trans (mul_le_of_le_one_left (norm_nonneg _) hl)
  calc 2 * ‖l (p - q)‖ * ‖l‖ ≤ 2 * ‖l (p - q)‖ * 1 := by
        exact mul_le_mul_of_nonneg_left hl (by positivity)
    _ ≤ 2 * ‖p - q‖ := by linarith

/-- step `k`, component `a` of the states, as a linear function -/
noncomputable def stateEntry (k : Fin (dW.ph + 1)) (a : Fin dW.nx) : (Traj (dW.ph + 1) dW.nx ℝ × Traj (dW.ph + 1) dW.nu ℝ × ℝ) →L[ℝ] ℝ :=
  (NlSpec.compAt dW a).comp (NlSpec.xAt dW k)

theorem stateEntry_norm (k : Fin (dW.ph + 1)) (a : Fin dW.nx) : ‖stateEntry k a‖ ≤ 1 := by
  refine ContinuousLinearMap.opNorm_le_bound _ zero_le_one fun p => ?_
  rw [one_mul]
  exact ((norm_le_pi_norm (p.1 k) a).trans (norm_le_pi_norm p.1 k)).trans (norm_fst_le p)

end

/-- state scaling `sc`, input scaling 2, objective `f`, inequality `g`, quadratic model and equality -/
noncomputable def opsR (sc : ℝ) (f : ObjFn dW ℝ) (g : Traj 2 1 ℝ → Traj 2 1 ℝ → ℝ) : List (NlCall dW ℝ) :=
  [ .setStateScale ⟨1, fun _ => sc⟩,
    .setInputScale ⟨1, fun _ => 2⟩,
    .setObjectiveFunction f true,
    .setStateSpaceFunction (fun x _ _ a => x a * x a) 0 true,
    .setIneqConFunction (fun X _ U _ _ => g X U) 0 true,
    .setEqConFunction (fun X _ _ => X 1 0 * X 1 0) 0 true ]

theorem opsR_in (sc : ℝ) (f : ObjFn dW ℝ) (g : Traj 2 1 ℝ → Traj 2 1 ℝ → ℝ) :
    ∃ outs m s, InSolver dW false (opsR sc f g) outs m ⟨1, fun _ => 0⟩ [] s := by
  have hx : (⟨1, fun _ => 0⟩ : Vec ℝ).size = dW.nx := rfl
  obtain ⟨outs, m, m', r, call, h⟩ := nlAsked_exists (d := dW) (K := ℝ) (dyn := false) (ops := opsR sc f g)
    (x0 := ⟨1, fun _ => 0⟩) (u0 := ⟨1, fun _ => 0⟩) (cs := []) (oc := .threw) dW_ok (by decide) (by decide) (fun _ => 0)
    (by
      intro op h
      unfold opsR at h
      simp only [List.cons_append, List.nil_append, List.mem_cons, List.not_mem_nil, or_false] at h
      rcases h with rfl | rfl | rfl | rfl | rfl | rfl | rfl
      all_goals simp [NlSpec.CallFits])
    (by
      intro p op q e
      have := admFrom_split (d := dW) (dyn := false) (pre := []) (l := opsR sc f g ++ [.optimize ⟨1, fun _ => 0⟩ ⟨1, fun _ => 0⟩
        [] .threw (fun _ => 0)]) ?_ p op q e
      · exact this
      · unfold opsR
        simp only [List.cons_append, List.nil_append, AdmFrom, NlSpec.Admissible, true_and, and_true]
        simp)
  obtain ⟨s, hs⟩ := h.inSolver
  exact ⟨outs, m, s, hs⟩

/-- step `k`, component `b` of the inputs, as a linear function -/
noncomputable def inputEntry (k : Fin (dW.ph + 1)) (b : Fin dW.nu) : (Traj (dW.ph + 1) dW.nx ℝ × Traj (dW.ph + 1) dW.nu ℝ × ℝ) →L[ℝ] ℝ :=
  (ContinuousLinearMap.proj (R := ℝ) (φ := fun _ : Fin dW.nu => ℝ) b).comp (NlSpec.uAt dW k)

theorem opsR_scales (sc : ℝ) (h : |sc| ≤ 2) (f : ObjFn dW ℝ) (g : Traj 2 1 ℝ → Traj 2 1 ℝ → ℝ) : ScalesWithin dW (opsR sc f g) 2 :=
  ⟨by norm_num, fun _ _ => h, fun _ _ => by show |(2 : ℝ)| ≤ 2; norm_num⟩

theorem opsR_within (sc : ℝ) (f : ObjFn dW ℝ) (g : Traj 2 1 ℝ → Traj 2 1 ℝ → ℝ) :
    TrajWithin dW (opsR sc f g) ⟨1, fun _ => 0⟩ ⟨3, fun _ => 0⟩ 1 := by
  refine ⟨le_rfl, fun k a => ?_, fun k b => ?_, ?_⟩
  · unfold NlSpec.codeStates; split_ifs <;> simp
  · unfold NlSpec.inputs NlSpec.inputAt; simp
  · simp

/-- C68 fails for the objective: with a state scaling factor of two the derivative with respect to a state is half of the
true one, whatever the step (the chain rule factor is missing at Objective.hpp:128-137). -/
theorem c68_scaled_objective_violated : ¬ C68ObjClaim := by
  intro H
  obtain ⟨outs, m, s, h⟩ := opsR_in 2 (fun X _ _ _ => X 1 0) (fun _ _ => 0)
  have hS : NlSpec.SmoothTraj (r := 2) (n := 1) (m := 1)
      (NlSpec.costOf (d := dW) (fun X _ _ _ => X 1 0) (NlSpec.last NlSpec.outputOf (opsR 2 (fun X _ _ _ => X 1 0) (fun _ _ => 0)))) 0 :=
    smooth_linear (stateEntry 1 0)
  obtain ⟨r, s', G, k1, k2, -, k4⟩ := H dW false _ _ _ _ _ _ h _ rfl 0 2 1 hS le_rfl (opsR_scales 2 (by norm_num) _ _)
    ⟨3, fun _ => 0⟩ rfl (opsR_within _ _ _)
  obtain ⟨q, -⟩ := c51_api_quotients h ⟨3, fun _ => 0⟩ rfl (fun _ => 0) _ _ _ rfl rfl rfl
  obtain ⟨r', s'', G', hx, hu, he, gx, gu, ge, j1, j2, -, -, j3, j4⟩ := q _ rfl
  rw [k1] at j1
  cases j1
  rw [k2] at j2
  cases j2
  have g0 := j4.states 0 0 (by decide) (by decide)
  rw [j3.states 0 0 (by decide) (by decide), mul_one] at g0
  have g1 : G.get 0 = 1 := by
    have e0 : NlSpec.stateIx dW 0 0 = 0 := rfl
    rw [e0] at g0
    rw [g0]
    show (NlSpec.bump _ 1 0 (hx 0) (1 : Fin 2) (0 : Fin 1) - _) / hx 0 = 1
    unfold NlSpec.bump
    rw [if_pos ⟨rfl, rfl⟩]
    have := j3.posx 0
    exact (congrArg (· / hx 0) (add_sub_cancel_left _ (hx 0))).trans (div_self this.ne')
  obtain ⟨D, hD, hle⟩ := k4 0 (by decide)
  have hD2 : HasDerivAt (fun t : ℝ => 2 * t) 2 (0 : ℝ) := by simpa using (hasDerivAt_id (0 : ℝ)).const_mul 2
  have e2 : D = 2 := HasDerivAt.unique hD hD2
  rw [g1, e2] at hle
  norm_num at hle

/-- C68 fails for the inequality constraints: the derivative of `u_1 <= 0`, `u_1` the input of the last step, is reported as zero
(Constraints.hpp:683-708). -/
theorem c68_last_input_violated : ¬ C68IneqClaim := by
  intro H
  obtain ⟨outs, m, s, h⟩ := opsR_in 1 (fun X _ _ _ => X 1 0) (fun _ U => U 1 0)
  have hS : ∀ i : Fin 1, NlSpec.SmoothTraj (r := 2) (n := 1) (m := 1)
      (fun X U e => NlSpec.ineqOf (d := dW) (fun _ _ U _ _ => U 1 0)
        (NlSpec.last NlSpec.outputOf (opsR 1 (fun X _ _ _ => X 1 0) (fun _ U => U 1 0))) X U e i) 0 :=
    fun _ => smooth_linear (inputEntry 1 0)
  obtain ⟨r, s', k1, k2⟩ := H dW false _ _ _ _ _ _ h _ 0 rfl 0 2 1 hS le_rfl (opsR_scales 1 (by norm_num) _ _)
    ⟨3, fun _ => 0⟩ rfl (fun _ => 0) (opsR_within _ _ _)
  obtain ⟨-, q, -⟩ := c51_api_quotients h ⟨3, fun _ => 0⟩ rfl (fun _ => 0) _ _ _ rfl rfl rfl
  obtain ⟨r', s'', hx, hu, he, gx, gu, ge, j1, -, j3, j4⟩ := q _ 0 rfl
  rw [k1] at j1
  cases j1
  obtain ⟨-, k4⟩ := k2 0
  have g0 := (j4 0 (by decide)).inputs 0 0 (by decide) (by decide)
  have g1 : r.grad.get 1 = 0 := by
    have e0 : 0 * dW.nZ + NlSpec.inputIx dW 0 0 = 1 := rfl
    rw [e0] at g0
    rw [g0]
    have l0 := j3.lastInput 0 0 (by decide)
    simp only [Bool.false_eq_true, if_false] at l0
    have e1 : gu 0 0 0 = 0 := by
      refine l0.trans ?_
      show (NlSpec.bump _ 0 0 _ (1 : Fin 2) (0 : Fin 1) - NlSpec.bump _ 0 0 _ (1 : Fin 2) (0 : Fin 1)) / _ = 0
      unfold NlSpec.bump
      rw [if_neg (by simp), if_neg (by simp), sub_self, zero_div]
    show _ * ∑ k ∈ Finset.range 1, _ = _
    simp [e1]
  obtain ⟨D, hD, hle⟩ := k4 1 (by decide)
  have hD2 : HasDerivAt (fun t : ℝ => 2 * t) 2 (0 : ℝ) := by simpa using (hasDerivAt_id (0 : ℝ)).const_mul 2
  have e2 : D = 2 := HasDerivAt.unique hD hD2
  have e3 : r.grad.get (((0 : Fin 1) : Nat) * dW.nZ + 1) = 0 := g1
  dsimp only at hle
  rw [e3, e2] at hle
  norm_num at hle

/-- the hypotheses of the four theorems hold together for a quadratic objective, model and constraints, at a point with a state
and an input different from zero -/
example : ∃ outs m s f g F E, InSolver dW false (opsR 1 f g) outs m ⟨1, fun _ => 0⟩ [] s ∧
    NlSpec.last NlSpec.objectiveOf (opsR 1 f g) = some f ∧ NlSpec.SmoothTraj (NlSpec.costOf f (NlSpec.last NlSpec.outputOf (opsR 1 f g))) 2 ∧
    ScalesWithin dW (opsR 1 f g) 2 ∧ (∀ a, a < dW.nx → NlSpec.stScale (opsR 1 f g) a = 1) ∧
    TrajWithin dW (opsR 1 f g) ⟨1, fun _ => 0⟩ ⟨3, fun v => if v = 2 then 0 else 1⟩ 2 ∧
    NlSpec.last NlSpec.modelOf (opsR 1 f g) = some F ∧ NlSpec.SmoothModel F 2 ∧
    NlSpec.last NlSpec.eqConOf (opsR 1 f g) = some (E, 0) ∧ (∀ i, NlSpec.SmoothTraj (fun X U _ => E X U i) 2) ∧
    (∀ a, a < dW.nx → 1 ≤ 2 * |NlSpec.stScale (opsR 1 f g) a|) := by
  obtain ⟨outs, m, s, h⟩ := opsR_in 1 (fun X _ _ _ => X 1 0 * X 1 0) (fun X _ => X 1 0 * X 1 0)
  refine ⟨outs, m, s, _, _, _, _, h, rfl, smooth_square _ (stateEntry_norm 1 0), opsR_scales 1 (by norm_num) _ _, fun _ _ => rfl, ?_,
    rfl, ?_, rfl, fun _ => smooth_square _ (stateEntry_norm 1 0), fun _ _ => ?_⟩
  · refine ⟨by norm_num, fun k a => ?_, fun k b => ?_, ?_⟩
    · have : NlSpec.stScale (opsR 1 (fun X _ _ _ => X 1 0 * X 1 0) (fun X _ => X 1 0 * X 1 0)) a = 1 := rfl
      unfold NlSpec.codeStates; rw [this]; dsimp only; split_ifs <;> norm_num
    · have : NlSpec.inScale (opsR 1 (fun X _ _ _ => X 1 0 * X 1 0) (fun X _ => X 1 0 * X 1 0)) b = 2 := rfl
      unfold NlSpec.inputs NlSpec.inputAt; rw [this]; dsimp only; split_ifs <;> norm_num
    · norm_num [NlSpec.slackIx]
  · intro k r
    refine smooth_square (E := FVec dW.nx ℝ × FVec dW.nu ℝ)
      ((NlSpec.compAt dW r).comp (ContinuousLinearMap.fst ℝ (FVec dW.nx ℝ) (FVec dW.nu ℝ))) ?_
    refine ContinuousLinearMap.opNorm_le_bound _ zero_le_one fun p => ?_
    rw [one_mul]
    exact (norm_le_pi_norm p.1 r).trans (norm_fst_le p)
  · show 1 ≤ 2 * |(1 : ℝ)|
    norm_num

end Mpc.Props
