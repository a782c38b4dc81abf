import Verif.Props.NlFunctions
import Verif.Props.NlGradients
import Verif.Props.NlDynamicsConstraints
import Verif.Props.NlEvaluations

/-
C38 to C41 and C51 for complete histories of API calls: the gradients which the solver receives inside `optimize`, after any
calls on the controller and any evaluations the solver has made before.
-/
namespace Mpc.Props
open Mpc Exec
set_option linter.unusedSectionVars false

section
variable {d : Dims} {K : Type} [Field K] [LinearOrder K] [IsStrictOrderedRing K]
variable {dyn : Bool} {ops : List (NlCall d K)} {outs : List (NlOut K)} {m : NlMpc d K} {x0 : Vec K}
  {cs : List (NlCallback K)} {s : NlState d K}

/-- what the objects hold, in terms of the calls -/
theorem InSolver.config (h : InSolver d dyn ops outs m x0 cs s) : ∃ c : NlSpec.Cfg d K, s.Holds c ∧ c.inScale = NlSpec.inScale ops ∧
    c.stScale = NlSpec.stScale ops ∧ c.out = NlSpec.last NlSpec.outputOf ops ∧ c.obj = NlSpec.last NlSpec.objectiveOf ops ∧
    c.field = NlSpec.last NlSpec.modelOf ops ∧ (∀ F tol, NlSpec.last NlSpec.ineqConOf ops = some (F, tol) → c.ineq = some F) ∧
    (∀ F tol, NlSpec.last NlSpec.eqConOf ops = some (F, tol) → c.eq = some F) ∧
    c.cont = (NlSpec.last NlSpec.samplingOf ops).isSome ∧ c.Ts = (NlSpec.last NlSpec.samplingOf ops).getD 0 ∧
    s.obj.x0.get = x0.get ∧ s.con.x0.get = x0.get := by
  have hs := h.holds
  have hl := h.toNlRan.len
  refine ⟨_, hs, after_inScale hl, after_stScale hl, after_out hl, after_obj hl, after_field hl, ?_, ?_, after_cont hl,
    after_Ts hl, hs.ox0 _ rfl, hs.cx0 _ rfl⟩
  · intro F tol hf
    rw [← after_ineq hl] at hf
    cases hi : (NlCtl.after d ops outs).cfg.ineq with
    | none => rw [hi] at hf; cases hf
    | some G => rw [hi] at hf; obtain ⟨rfl, -⟩ := Prod.mk.inj (Option.some.inj hf); rfl
  · intro F tol hf
    rw [← after_eq hl] at hf
    cases hi : (NlCtl.after d ops outs).cfg.eq with
    | none => rw [hi] at hf; cases hf
    | some G => rw [hi] at hf; obtain ⟨rfl, -⟩ := Prod.mk.inj (Option.some.inj hf); rfl

/-- C38 for the API: inside every `optimize`, for an affine model set last. -/
theorem c38_api_gradient_exact (h : InSolver d dyn ops outs m x0 cs s)
    (F : FVec d.nx K → FVec d.nu K → Nat → FVec d.nx K) (hF : NlSpec.last NlSpec.modelOf ops = some F)
    (c0 : Nat → Nat → K) (A B : Nat → Nat → Nat → K) (haff : NlSpec.AffineModel F c0 A B)
    (hsc : ∀ a, a < d.nx → NlSpec.stScale ops a ≠ 0)
    (z z' : Vec K) (g' : Bool) (j j' : Nat → K) (hz : z.size = d.nZ) (hz' : z'.size = d.nZ) :
    ∃ r r' s1 s2, s.evalDyn z true j = .ok (r, s1) ∧ s.evalDyn z' g' j' = .ok (r', s2) ∧
      r.grad.size = d.nZ * (d.ph * d.nx) ∧
      NlSpec.ExactRows d.nZ (d.ph * d.nx) z.get z'.get r.value.get r'.value.get r.grad.get := by
  obtain ⟨c, hs, -, e2, -, -, e5, -⟩ := h.config
  exact dynamics_gradient_of_holds h.hor hs (e5.trans hF) haff (by rw [e2]; exact hsc) z z' g' j j' hz hz'

/-- C39 for the API, partial as `c39_objective_gradient_partial`: unscaled or unused state components. -/
theorem c39_api_gradient_partial (h : InSolver d dyn ops outs m x0 cs s)
    (f : ObjFn d K) (hobj : NlSpec.last NlSpec.objectiveOf ops = some f) (c0 : K) (α β : Nat → Nat → K) (γ : K)
    (haff : NlSpec.IsAffine (NlSpec.costOf f (NlSpec.last NlSpec.outputOf ops)) c0 α β γ)
    (hsc : ∀ a, a < d.nx → NlSpec.stScale ops a = 1 ∨ ∀ k, α k a = 0)
    (z z' : Vec K) (hz : z.size = d.nZ) (hz' : z'.size = d.nZ) :
    ∃ r r' s1 s2 g, s.evalObj z true = .ok (r, s1) ∧ s.evalObj z' true = .ok (r', s2) ∧ r.grad = some g ∧
      g.size = d.nZ ∧
      r'.value - r.value = ∑ v ∈ Finset.range d.nZ, g.get v * (z'.get v - z.get v) := by
  obtain ⟨c, hs, -, e2, e3, e4, -⟩ := h.config
  exact objective_gradient_of_holds h.hor hs (e4.trans hobj) (by rw [e3]; exact haff) (by rw [e2]; exact hsc) z z' hz hz'

/-- C40 for the API, partial as `c40_ineq_gradient_partial`: constraints which do not depend on the input of step `ph`. -/
theorem c40_api_gradient_partial (h : InSolver d dyn ops outs m x0 cs s)
    (F : Traj (d.ph + 1) d.nx K → Traj (d.ph + 1) d.ny K → Traj (d.ph + 1) d.nu K → K → FVec d.ineq K) (tol : K)
    (hF : NlSpec.last NlSpec.ineqConOf ops = some (F, tol))
    (haff : ∀ i : Fin d.ineq, ∃ c0 α β γ,
      NlSpec.IsAffine (fun X U e => NlSpec.ineqOf F (NlSpec.last NlSpec.outputOf ops) X U e i) c0 α β γ ∧ ∀ b, β d.ph b = 0)
    (z z' : Vec K) (j j' : Nat → K) (hz : z.size = d.nZ) (hz' : z'.size = d.nZ) :
    ∃ r r' s1 s2, s.evalIneq z j = .ok (r, s1) ∧ s.evalIneq z' j' = .ok (r', s2) ∧
      NlSpec.ExactRows d.nZ d.ineq z.get z'.get r.value.get r'.value.get r.grad.get := by
  obtain ⟨c, hs, -, -, e3, -, -, e6, -⟩ := h.config
  exact ineq_gradient_of_holds h.hor hs (e6 F tol hF) (by rw [e3]; exact haff) z z' j j' hz hz'

/-- C41 for the API: inside every `optimize`, for an affine equality constraint set last. -/
theorem c41_api_gradient_exact (h : InSolver d dyn ops outs m x0 cs s)
    (F : Traj (d.ph + 1) d.nx K → Traj (d.ph + 1) d.nu K → FVec d.eq K) (tol : K)
    (hF : NlSpec.last NlSpec.eqConOf ops = some (F, tol))
    (haff : ∀ i : Fin d.eq, ∃ c0 α β, NlSpec.IsAffine (fun X U _ => F X U i) c0 α β 0)
    (z z' : Vec K) (j j' : Nat → K) (hz : z.size = d.nZ) (hz' : z'.size = d.nZ) :
    ∃ r r' s1 s2, s.evalEq z j = .ok (r, s1) ∧ s.evalEq z' j' = .ok (r', s2) ∧
      NlSpec.ExactRows d.nZ d.eq z.get z'.get r.value.get r'.value.get r.grad.get := by
  obtain ⟨c, hs, -, -, -, -, -, -, e7, -⟩ := h.config
  exact eq_gradient_of_holds h.hor hs (e7 F tol hF) haff z z' j j' hz hz'

/-- C51 for the API: after any history, for arbitrary user functions, the gradient entries are difference quotients at the
one trajectory of the decision vector which also gives the values. -/
theorem c51_api_quotients (h : InSolver d dyn ops outs m x0 cs s) (z : Vec K) (hz : z.size = d.nZ) (j : Nat → K)
    (X : Traj (d.ph + 1) d.nx K) (U : Traj (d.ph + 1) d.nu K) (e : K)
    (hX : X = NlSpec.codeStates d (NlSpec.stScale ops) x0.get z.get) (hU : U = NlSpec.inputs d (NlSpec.inScale ops) z.get)
    (he : e = z.get (NlSpec.slackIx d)) :
    (∀ f, NlSpec.last NlSpec.objectiveOf ops = some f → ∃ r s' G hx hu he gx gu ge, s.evalObj z true = .ok (r, s') ∧
      r.grad = some G ∧ G.size = d.nZ ∧ r.value = NlSpec.costOf f (NlSpec.last NlSpec.outputOf ops) X U e ∧
      NlSpec.ObjDiff d (NlSpec.costOf f (NlSpec.last NlSpec.outputOf ops)) X U e hx hu he gx gu ge ∧
      NlSpec.RowOf d (fun _ => 1) (NlSpec.inScale ops) gx gu ge G.get) ∧
    (∀ F tol, NlSpec.last NlSpec.ineqConOf ops = some (F, tol) → ∃ r s' hx hu he gx gu ge, s.evalIneq z j = .ok (r, s') ∧
      (∀ i : Fin d.ineq, r.value.get i = NlSpec.ineqOf F (NlSpec.last NlSpec.outputOf ops) X U e i) ∧
      NlSpec.ConDiff d d.ineq (NlSpec.ineqOf F (NlSpec.last NlSpec.outputOf ops)) X U e hx hu he false gx gu ge ∧
      ∀ i, i < d.ineq → NlSpec.RowOf d (NlSpec.stScale ops) (NlSpec.inScale ops) (gx i) (gu i) (ge i)
        (fun v => r.grad.get (i * d.nZ + v))) ∧
    (∀ F tol, NlSpec.last NlSpec.eqConOf ops = some (F, tol) → ∃ r s' hx hu he gx gu, s.evalEq z j = .ok (r, s') ∧
      (∀ i : Fin d.eq, r.value.get i = F X U i) ∧
      NlSpec.ConDiff d d.eq (fun X U _ => F X U) X U e hx hu he true gx gu (fun _ => 0) ∧
      ∀ i, i < d.eq → NlSpec.RowOf d (NlSpec.stScale ops) (NlSpec.inScale ops) (gx i) (gu i) 0
        (fun v => r.grad.get (i * d.nZ + v))) ∧
    (∀ F, NlSpec.last NlSpec.modelOf ops = some F → ∃ r s' t, 0 < t ∧ s.evalDyn z true j = .ok (r, s') ∧
      ∀ (k : Fin d.ph) (a : Fin d.nx),
        r.value.get (k * d.nx + a) = NlSpec.residual (NlSpec.last NlSpec.samplingOf ops).isSome
          ((NlSpec.last NlSpec.samplingOf ops).getD 0) (NlSpec.stScale ops) F X U k a ∧
        NlSpec.DynRow d t (NlSpec.last NlSpec.samplingOf ops).isSome ((NlSpec.last NlSpec.samplingOf ops).getD 0)
          (NlSpec.stScale ops) (NlSpec.inScale ops) F X U k a (fun v => r.grad.get ((k * d.nx + a) * d.nZ + v))) := by
  obtain ⟨c, hs, e1, e2, e3, e4, e5, e6, e7, e8, e9, ho, hc⟩ := h.config
  have hp := h.hor.ph_int
  rw [← e1] at hU ⊢
  rw [← e2] at hX ⊢
  rw [← e3, ← e4, ← e5, ← e8, ← e9]
  subst hX hU he
  refine ⟨?_, ?_, ?_, ?_⟩
  · intro f hf
    obtain ⟨⟨r, s'⟩, e, v, q⟩ := NlState.evalObj_post hs hp hf z hz true
    simp only [if_true] at q
    obtain ⟨G, gx, gu, ge, h1, h2, h3, h4⟩ := q
    rw [ho] at h3 v
    exact ⟨r, s', G, _, _, _, gx, gu, ge, e, h1, h2, v, h3, h4⟩
  · intro F tol hf
    obtain ⟨⟨r, s'⟩, e, -, -, v, gx, gu, ge, h3, h4⟩ := NlState.evalIneq_post hs hp (e6 F tol hf) z hz j
    rw [hc] at h3 v
    exact ⟨r, s', _, _, _, gx, gu, ge, e, v, h3, h4⟩
  · intro F tol hf
    obtain ⟨⟨r, s'⟩, e, -, -, v, gx, gu, h3, h4⟩ := NlState.evalEq_post hs (e7 F tol hf) z hz j
    rw [hc] at h3 v
    exact ⟨r, s', _, _, _, gx, gu, e, v, h3, h4⟩
  · intro F hf
    obtain ⟨⟨r, s'⟩, e, -, -, q⟩ := NlState.evalDyn_traj hs hp hf z hz true j
    refine ⟨r, s', _, Constraints.dv_pos, e, fun k a => ?_⟩
    have := q k a
    rw [hc] at this
    exact ⟨this.1, this.2 rfl⟩

end

/-! ### non-vacuity: the sample history of `Props.NlAsked`, in the middle of its third `optimize`; its model, inequality and
equality constraints are affine -/

example : ∃ outs m s F, InSolver dN false opsN outs m (nvec 2 fun _ => 1) [.con 2 (zN 5) true (fun _ => 0)] s ∧
    NlSpec.last NlSpec.modelOf opsN = some F ∧
    NlSpec.AffineModel F (fun _ _ => 0) (fun _ r a => if r = 0 ∧ a = 1 then 1 else 0) (fun _ r _ => if r = 0 then 0 else 1) ∧
    (∀ a, a < dN.nx → NlSpec.stScale opsN a ≠ 0) := by
  obtain ⟨outs, m, m', r, call, h⟩ := sampleN_asked 1 2 .threw (by rintro _ _ _ _ ⟨⟩)
  obtain ⟨s, hs⟩ := h.inSolver
  refine ⟨outs, m, s, _, hs, rfl, ?_, ?_⟩
  · intro x u k r
    show (if r = 0 then x 1 else u 0) = 0 + ∑ a : Fin 2, _ * x a + ∑ b : Fin 1, _ * u b
    rw [Fin.sum_univ_two, Fin.sum_univ_one]
    by_cases h0 : r = 0
    · subst h0; simp
    · have : (r : Nat) ≠ 0 := fun h => h0 (Fin.ext h)
      simp [h0, this]
  · intro a _
    show (1 : ℚ) ≠ 0
    exact one_ne_zero

end Mpc.Props
