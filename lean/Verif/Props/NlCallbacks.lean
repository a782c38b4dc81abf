import Verif.Props.NlApiGradients

/-
C80: what NLopt reads from its callbacks. Stated for the memory NLopt owns: the returned value of the objective, and the result
and gradient buffers of the constraints.
-/
namespace Mpc.Props
open Mpc Exec
set_option linter.unusedSectionVars false

section
variable {d : Dims} {K : Type} [Field K] [LinearOrder K] [IsStrictOrderedRing K]
variable {dyn : Bool} {ops : List (NlCall d K)} {outs : List (NlOut K)} {m : NlMpc d K} {x0 : Vec K}
  {cs : List (NlCallback K)} {s : NlState d K}

theorem InSolver.opt (h : InSolver d dyn ops outs m x0 cs s) :
    m.o.objective = (NlCtl.after d ops outs).obj ∧ m.o.groups = (NlCtl.after d ops outs).groups :=
  let ⟨g, _, _⟩ := h.toNlRan.agrees
  ⟨g.obj, g.groups⟩

theorem groups_after (hl : outs.length = ops.length) :
    (NlCtl.after d ops outs).groups = ops.filterMap NlSpec.groupOf := by
  refine history_induction (P := fun ops outs => (NlCtl.after d ops outs).groups = ops.filterMap NlSpec.groupOf) rfl ?_ hl
  intro ops outs op o hl ih
  rw [NlMpc.after_snoc hl, List.filterMap_append, ← ih]
  have keep : ∀ c : NlCtl d K, c.groups = c.groups ++ [] := fun c => (List.append_nil _).symm
  cases op with
  | setOptimizerParameters p => cases p <;> exact keep _
  | setStateSpaceFunction F tol acc => cases acc <;> first | exact keep _ | rfl
  | setIneqConFunction F tol acc => cases acc <;> first | exact keep _ | rfl
  | setEqConFunction F tol acc => cases acc <;> first | exact keep _ | rfl
  | setStateBoundsSlice l u s => cases o.refused <;> exact keep _
  | setInputBoundsSlice l u s => cases o.refused <;> exact keep _
  | optimize x0 u0 cs oc j => rcases oc with _ | ⟨z, v, k, _ | _⟩ <;> exact keep _
  | _ => exact keep _

/-- a callback of the constraint number `i`: the solver reads exactly what the evaluation returned -/
theorem InSolver.con (h : InSolver d dyn ops outs m x0 cs s) {i : Nat} {grp : NlGroup K}
    (hi : (ops.filterMap NlSpec.groupOf)[i]? = some grp) {z : Vec K} (hz : z.size = d.nZ) (g : Bool) (junk : Nat → K) :
    ∃ r s' b, s.evalCon z g junk grp.kind = .ok (r, s') ∧ NlMpc.serve m.o s (.con i z g junk) = .ok (some (.con b), s') ∧
      b.value.size = grp.kind.dim d ∧ (∀ j, j < grp.kind.dim d → b.value.get j = r.value.get j) ∧
      (g = false → b.grad = none) ∧
      (g = true → ∃ G, b.grad = some G ∧ G.size = grp.kind.dim d * d.nZ ∧
        ∀ j, j < grp.kind.dim d * d.nZ → G.get j = r.grad.get j) := by
  obtain ⟨-, e2⟩ := h.opt
  have hl := h.toNlRan.len
  have hb := NlMpc.after_bound ops outs
  have hg : m.o.groups[i]? = some grp := by rw [e2, groups_after hl]; exact hi
  have hm : grp ∈ (NlCtl.after d ops outs).groups := by rw [← e2]; exact List.mem_of_getElem? hg
  have hd := hb.dim _ hm
  have := NlMpc.serve_con h.holds h.hor.ph_int hg (by have := hb.set _ hm; revert this; cases grp.kind <;> exact id) hd hz g junk
  rwa [hd] at this

theorem row_lt {n i v N : Nat} (hi : i < n) (hv : v < N) : i * N + v < n * N := by
  have : (i + 1) * N ≤ n * N := Nat.mul_le_mul_right _ hi
  rw [Nat.add_mul, Nat.one_mul] at this
  omega

theorem _root_.Mpc.NlSpec.RowOf.congr {sx su : Nat → K} {gx gu : Nat → Nat → K} {ge : K} {g g' : Nat → K}
    (h : NlSpec.RowOf d sx su gx gu ge g) (e : ∀ v, v < d.nZ → g' v = g v) : NlSpec.RowOf d sx su gx gu ge g' :=
  ⟨fun k a hk ha => by rw [e _ (stateIx_lt hk ha)]; exact h.states k a hk ha,
    fun j b hj hb => by rw [e _ (inputIx_lt hj hb)]; exact h.inputs j b hj hb,
    by rw [e _ (by unfold NlSpec.slackIx Dims.nZ; rw [Nat.mul_comm d.ch]; omega)]; exact h.slack⟩

theorem _root_.Mpc.NlSpec.DynRow.congr {t : K} {cont : Bool} {Ts : K} {sc su : Nat → K}
    {F : FVec d.nx K → FVec d.nu K → Nat → FVec d.nx K} {X : Traj (d.ph + 1) d.nx K} {U : Traj (d.ph + 1) d.nu K}
    {k : Fin d.ph} {r : Fin d.nx} {g g' : Nat → K}
    (h : NlSpec.DynRow d t cont Ts sc su F X U k r g) (e : ∀ v, v < d.nZ → g' v = g v) :
    NlSpec.DynRow d t cont Ts sc su F X U k r g' :=
  ⟨fun k a hk => by rw [e _ (stateIx_lt hk a.2)]; exact h.states k a hk,
    fun j b hj => by rw [e _ (inputIx_lt hj b.2)]; exact h.inputs j b hj,
    by rw [e _ (by unfold NlSpec.slackIx Dims.nZ; rw [Nat.mul_comm d.ch]; omega)]; exact h.slack⟩

/-- C80, objective: inside every `optimize`, after any callbacks, a callback of the objective does not fault, returns the value of
the objective set last, and leaves in the gradient vector, if there is one, the difference quotients of that objective. -/
theorem c80_objective (h : InSolver d dyn ops outs m x0 cs s) (hb : ∃ f, NlCall.setObjectiveFunction f true ∈ ops)
    {f : ObjFn d K} (hf : NlSpec.last NlSpec.objectiveOf ops = some f) (z : Vec K) (hz : z.size = d.ph * d.nx + d.nu * d.ch + 1)
    (g : Bool) (junk : Nat → K)
    (X : Traj (d.ph + 1) d.nx K) (U : Traj (d.ph + 1) d.nu K) (e : K)
    (hX : X = NlSpec.codeStates d (NlSpec.stScale ops) x0.get z.get) (hU : U = NlSpec.inputs d (NlSpec.inScale ops) z.get)
    (he : e = z.get (NlSpec.slackIx d)) :
    ∃ G s', NlMpc.serve m.o s (.obj z g junk) = .ok (some (.obj (f X (NlSpec.outputs (NlSpec.last NlSpec.outputOf ops) X U) U e) G), s') ∧
      (g = false → G.size = 0) ∧
      (g = true → G.size = d.ph * d.nx + d.nu * d.ch + 1 ∧ ∃ hx hu he gx gu ge,
        NlSpec.ObjDiff d (NlSpec.costOf f (NlSpec.last NlSpec.outputOf ops)) X U e hx hu he gx gu ge ∧
        NlSpec.RowOf d (fun _ => 1) (NlSpec.inScale ops) gx gu ge G.get) := by
  have hl := h.toNlRan.len
  have ho : m.o.objective = true := by
    rw [h.opt.1]
    obtain ⟨f0, hm⟩ := hb
    have key : ∀ {ops : List (NlCall d K)} {outs : List (NlOut K)}, outs.length = ops.length →
        NlCall.setObjectiveFunction f0 true ∈ ops → (NlCtl.after d ops outs).obj = true := by
      intro ops outs hl
      refine history_induction (P := fun ops outs => NlCall.setObjectiveFunction f0 true ∈ ops → (NlCtl.after d ops outs).obj = true)
        (fun h => nomatch h) ?_ hl
      intro ops outs op o hl ih hmem
      rw [NlMpc.after_snoc hl]
      rcases List.mem_append.1 hmem with h1 | h1
      · have ih := ih h1
        cases op with
        | setOptimizerParameters p => cases p <;> exact ih
        | setObjectiveFunction f acc => simp [NlCtl.step, ih]
        | setStateBoundsSlice l u s => cases o.refused <;> exact ih
        | setInputBoundsSlice l u s => cases o.refused <;> exact ih
        | optimize x0 u0 cs oc j => rcases oc with _ | ⟨z, v, k, _ | _⟩ <;> exact ih
        | _ => exact ih
      · rw [← List.mem_singleton.1 h1]; simp [NlCtl.step]
    exact key hl hm
  have hs : ({ (NlCtl.after d ops outs).cfg with x0 := some x0.get } : NlSpec.Cfg d K).obj.isSome = true := by
    show (NlCtl.after d ops outs).cfg.obj.isSome = true
    rw [after_obj hl, hf]; rfl
  obtain ⟨r, s', G, e1, e2, e3, e4⟩ := NlMpc.serve_obj h.holds h.hor.ph_int ho hs hz g junk
  obtain ⟨hv, -⟩ := c49_last_functions s h z hz X U _ hX hU rfl
  obtain ⟨r1, s1, e5, hv⟩ := hv f hf g
  rw [e1] at e5; cases e5
  rw [hv, ← he] at e2
  refine ⟨G, s', e2, e3, fun hg => ?_⟩
  subst hg
  obtain ⟨G', hG, hsz, hG'⟩ := e4 rfl
  obtain ⟨hq, -⟩ := c51_api_quotients h z hz junk X U e hX hU he
  obtain ⟨r2, s2, G2, hx, hu, he', gx, gu, ge, e6, e7, -, -, e8, e9⟩ := hq f hf
  rw [e1] at e6; cases e6
  rw [hG] at e7; cases e7
  exact ⟨hsz, hx, hu, he', gx, gu, ge, e8, e9.congr fun v hv => hG' v hv⟩

/-- C80, inequality constraints: a callback of a constraint which `setIneqConFunction` added does not fault and fills the whole
result with the values of the inequality function set last, and the whole gradient, if there is one, with its difference
quotients (row `i`, variable `v` at place `i * n + v`). -/
theorem c80_inequality (h : InSolver d dyn ops outs m x0 cs s) {i : Nat} {t : Vec K}
    (hi : (ops.filterMap NlSpec.groupOf)[i]? = some ⟨.userIneq, t⟩)
    {F : Traj (d.ph + 1) d.nx K → Traj (d.ph + 1) d.ny K → Traj (d.ph + 1) d.nu K → K → FVec d.ineq K} {tol : K}
    (hF : NlSpec.last NlSpec.ineqConOf ops = some (F, tol)) (z : Vec K) (hz : z.size = d.ph * d.nx + d.nu * d.ch + 1)
    (g : Bool) (junk : Nat → K) (X : Traj (d.ph + 1) d.nx K) (U : Traj (d.ph + 1) d.nu K) (e : K)
    (hX : X = NlSpec.codeStates d (NlSpec.stScale ops) x0.get z.get) (hU : U = NlSpec.inputs d (NlSpec.inScale ops) z.get)
    (he : e = z.get (NlSpec.slackIx d)) :
    ∃ b s', NlMpc.serve m.o s (.con i z g junk) = .ok (some (.con b), s') ∧ b.value.size = d.ineq ∧
      (∀ a : Fin d.ineq, b.value.get a = F X (NlSpec.outputs (NlSpec.last NlSpec.outputOf ops) X U) U e a) ∧
      (g = false → b.grad = none) ∧
      (g = true → ∃ G hx hu he gx gu ge, b.grad = some G ∧ G.size = d.ineq * (d.ph * d.nx + d.nu * d.ch + 1) ∧
        NlSpec.ConDiff d d.ineq (NlSpec.ineqOf F (NlSpec.last NlSpec.outputOf ops)) X U e hx hu he false gx gu ge ∧
        ∀ a, a < d.ineq → NlSpec.RowOf d (NlSpec.stScale ops) (NlSpec.inScale ops) (gx a) (gu a) (ge a)
          (fun v => G.get (a * (d.ph * d.nx + d.nu * d.ch + 1) + v))) := by
  obtain ⟨r, s', b, e1, e2, e3, e4, e5, e6⟩ := h.con hi hz g junk
  simp only [NlState.evalCon] at e1
  obtain ⟨-, hv, -⟩ := c49_last_functions s h z hz X U _ hX hU rfl
  obtain ⟨r1, s1, f1, hv⟩ := hv F tol hF junk
  rw [e1] at f1; cases f1
  refine ⟨b, s', e2, e3, fun a => by rw [e4 a a.2, hv a, he], e5, fun hg => ?_⟩
  obtain ⟨G, hG, hs, hG'⟩ := e6 hg
  obtain ⟨-, hq, -⟩ := c51_api_quotients h z hz junk X U e hX hU he
  obtain ⟨r2, s2, hx, hu, he', gx, gu, ge, f2, -, q1, q2⟩ := hq F tol hF
  rw [e1] at f2; cases f2
  exact ⟨G, hx, hu, he', gx, gu, ge, hG, hs, q1, fun a ha => (q2 a ha).congr fun v hv => hG' _ (row_lt ha hv)⟩

/-- C80, equality constraints: the same for `setEqConFunction`. -/
theorem c80_equality (h : InSolver d dyn ops outs m x0 cs s) {i : Nat} {t : Vec K}
    (hi : (ops.filterMap NlSpec.groupOf)[i]? = some ⟨.userEq, t⟩)
    {F : Traj (d.ph + 1) d.nx K → Traj (d.ph + 1) d.nu K → FVec d.eq K} {tol : K}
    (hF : NlSpec.last NlSpec.eqConOf ops = some (F, tol)) (z : Vec K) (hz : z.size = d.ph * d.nx + d.nu * d.ch + 1)
    (g : Bool) (junk : Nat → K) (X : Traj (d.ph + 1) d.nx K) (U : Traj (d.ph + 1) d.nu K) (e : K)
    (hX : X = NlSpec.codeStates d (NlSpec.stScale ops) x0.get z.get) (hU : U = NlSpec.inputs d (NlSpec.inScale ops) z.get)
    (he : e = z.get (NlSpec.slackIx d)) :
    ∃ b s', NlMpc.serve m.o s (.con i z g junk) = .ok (some (.con b), s') ∧ b.value.size = d.eq ∧
      (∀ a : Fin d.eq, b.value.get a = F X U a) ∧
      (g = false → b.grad = none) ∧
      (g = true → ∃ G hx hu he gx gu, b.grad = some G ∧ G.size = d.eq * (d.ph * d.nx + d.nu * d.ch + 1) ∧
        NlSpec.ConDiff d d.eq (fun X U _ => F X U) X U e hx hu he true gx gu (fun _ => 0) ∧
        ∀ a, a < d.eq → NlSpec.RowOf d (NlSpec.stScale ops) (NlSpec.inScale ops) (gx a) (gu a) 0
          (fun v => G.get (a * (d.ph * d.nx + d.nu * d.ch + 1) + v))) := by
  obtain ⟨r, s', b, e1, e2, e3, e4, e5, e6⟩ := h.con hi hz g junk
  simp only [NlState.evalCon] at e1
  obtain ⟨-, -, hv, -⟩ := c49_last_functions s h z hz X U _ hX hU rfl
  obtain ⟨r1, s1, f1, hv⟩ := hv F tol hF junk
  rw [e1] at f1; cases f1
  refine ⟨b, s', e2, e3, fun a => by rw [e4 a a.2, hv a], e5, fun hg => ?_⟩
  obtain ⟨G, hG, hs, hG'⟩ := e6 hg
  obtain ⟨-, -, hq, -⟩ := c51_api_quotients h z hz junk X U e hX hU he
  obtain ⟨r2, s2, hx, hu, he', gx, gu, f2, -, q1, q2⟩ := hq F tol hF
  rw [e1] at f2; cases f2
  exact ⟨G, hx, hu, he', gx, gu, hG, hs, q1, fun a ha => (q2 a ha).congr fun v hv => hG' _ (row_lt ha hv)⟩

/-- C80, dynamics: a callback of a constraint which `setStateSpaceFunction` added fills the result with the defects of the model
set last (component `a` of step `k` at place `k * nx + a`) and the gradient with their derivatives. -/
theorem c80_model (h : InSolver d dyn ops outs m x0 cs s) {i : Nat} {t : Vec K}
    (hi : (ops.filterMap NlSpec.groupOf)[i]? = some ⟨.dynamics, t⟩)
    {F : FVec d.nx K → FVec d.nu K → Nat → FVec d.nx K} (hF : NlSpec.last NlSpec.modelOf ops = some F)
    (z : Vec K) (hz : z.size = d.ph * d.nx + d.nu * d.ch + 1) (g : Bool) (junk : Nat → K)
    (X : Traj (d.ph + 1) d.nx K) (U : Traj (d.ph + 1) d.nu K)
    (hX : X = NlSpec.codeStates d (NlSpec.stScale ops) x0.get z.get) (hU : U = NlSpec.inputs d (NlSpec.inScale ops) z.get) :
    ∃ b s', NlMpc.serve m.o s (.con i z g junk) = .ok (some (.con b), s') ∧ b.value.size = d.ph * d.nx ∧
      (∀ (k : Fin d.ph) (a : Fin d.nx), b.value.get (k * d.nx + a)
        = NlSpec.residual (NlSpec.last NlSpec.samplingOf ops).isSome ((NlSpec.last NlSpec.samplingOf ops).getD 0)
          (NlSpec.stScale ops) F X U k a) ∧
      (g = false → b.grad = none) ∧
      (g = true → ∃ G t, 0 < t ∧ b.grad = some G ∧ G.size = d.ph * d.nx * (d.ph * d.nx + d.nu * d.ch + 1) ∧
        ∀ (k : Fin d.ph) (a : Fin d.nx),
          NlSpec.DynRow d t (NlSpec.last NlSpec.samplingOf ops).isSome ((NlSpec.last NlSpec.samplingOf ops).getD 0)
            (NlSpec.stScale ops) (NlSpec.inScale ops) F X U k a
            (fun v => G.get ((k * d.nx + a) * (d.ph * d.nx + d.nu * d.ch + 1) + v))) := by
  obtain ⟨r, s', b, e1, e2, e3, e4, e5, e6⟩ := h.con hi hz g junk
  simp only [NlState.evalCon] at e1
  obtain ⟨-, -, -, hv⟩ := c49_last_functions s h z hz X U _ hX hU rfl
  obtain ⟨r1, s1, f1, hv⟩ := hv F hF g junk
  rw [e1] at f1; cases f1
  have hlt : ∀ (k : Fin d.ph) (a : Fin d.nx), k.1 * d.nx + a.1 < d.ph * d.nx := fun k a => row_lt k.2 a.2
  refine ⟨b, s', e2, e3, fun k a => by rw [e4 _ (hlt k a), hv k a], e5, fun hg => ?_⟩
  subst hg
  obtain ⟨G, hG, hs, hG'⟩ := e6 rfl
  obtain ⟨-, -, -, hq⟩ := c51_api_quotients h z hz junk X U _ hX hU rfl
  obtain ⟨r2, s2, t', ht, f2, hq⟩ := hq F hF
  rw [e1] at f2; cases f2
  exact ⟨G, t', ht, hG, hs, fun k a => (hq k a).2.congr fun v hv => hG' _ (row_lt (hlt k a) hv)⟩

end

/-- non-vacuity: in the sample history all four theorems apply (the three constraints are number 0, 1 and 2) -/
example : ∃ outs m s, InSolver dN false opsN outs m (nvec 2 fun _ => 1) [.con 2 (zN 5) true (fun _ => 0)] s ∧
    (∃ f, NlCall.setObjectiveFunction f true ∈ opsN) ∧ (∃ f, NlSpec.last NlSpec.objectiveOf opsN = some f) ∧
    (∃ t, (opsN.filterMap NlSpec.groupOf)[0]? = some ⟨.dynamics, t⟩) ∧ (∃ F, NlSpec.last NlSpec.modelOf opsN = some F) ∧
    (∃ t, (opsN.filterMap NlSpec.groupOf)[1]? = some ⟨.userIneq, t⟩) ∧ (∃ F tol, NlSpec.last NlSpec.ineqConOf opsN = some (F, tol)) ∧
    (∃ t, (opsN.filterMap NlSpec.groupOf)[2]? = some ⟨.userEq, t⟩) ∧ ∃ F tol, NlSpec.last NlSpec.eqConOf opsN = some (F, tol) := by
  obtain ⟨outs, m, m', r, call, h⟩ := sampleN_asked 1 2 .threw (by simp)
  obtain ⟨s, hs⟩ := h.inSolver
  refine ⟨outs, m, s, hs, ?_, ⟨_, rfl⟩, ⟨_, rfl⟩, ⟨_, rfl⟩, ⟨_, rfl⟩, ⟨_, _, rfl⟩, ⟨_, rfl⟩, ⟨_, _, rfl⟩⟩
  exact ⟨_, List.mem_cons_of_mem _ (List.mem_cons_self (a := NlCall.setObjectiveFunction _ true))⟩

end Mpc.Props
