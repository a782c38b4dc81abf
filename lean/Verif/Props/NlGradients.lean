import Verif.Proofs.NlEval
import Verif.Props.MoveBlocking

/-
C39, C40, C41: gradients handed to the nonlinear solver, for affine user functions.
-/
namespace Mpc.Props
open Mpc Exec
set_option linter.unusedSectionVars false

section
variable {K : Type} [Field K] [LinearOrder K] [IsStrictOrderedRing K]

/-- C39 as claimed: for every affine objective, the change of the objective between two decision vectors is the
gradient handed to the solver times the change of the vector. -/
def C39Claim (K : Type) [Field K] [LinearOrder K] [IsStrictOrderedRing K] : Prop :=
  ∀ (d : Dims), HorizonsOk d → ∀ (junk : Nat → K) (cont : Bool) (Ts : K) (ops : List (NlOp d K)),
    (∀ o ∈ ops, NlSpec.OpFits d o) → ∀ s, NlState.run d junk cont Ts ops = .ok s →
    ∀ f, (NlSpec.cfgOf d cont Ts ops).obj = some f →
    ∀ c0 α β γ, NlSpec.IsAffine (NlSpec.costOf f (NlSpec.cfgOf d cont Ts ops).out) c0 α β γ →
    ∀ z z' : Vec K, z.size = d.nZ → z'.size = d.nZ →
    ∃ r r' s1 s2 g, s.evalObj z true = .ok (r, s1) ∧ s.evalObj z' true = .ok (r', s2) ∧ r.grad = some g ∧
      g.size = d.nZ ∧
      r'.value - r.value = ∑ v ∈ Finset.range d.nZ, g.get v * (z'.get v - z.get v)

/-- the gradient of the objective, from what the objects hold -/
theorem objective_gradient_of_holds {d : Dims} (hd : HorizonsOk d) {s : NlState d K} {c : NlSpec.Cfg d K} (hs : s.Holds c)
    {f : ObjFn d K} (hobj : c.obj = some f) {c0 : K} {α β : Nat → Nat → K} {γ : K}
    (haff : NlSpec.IsAffine (NlSpec.costOf f c.out) c0 α β γ)
    (hsc : ∀ a, a < d.nx → c.stScale a = 1 ∨ ∀ k, α k a = 0)
    (z z' : Vec K) (hz : z.size = d.nZ) (hz' : z'.size = d.nZ) :
    ∃ r r' s1 s2 g, s.evalObj z true = .ok (r, s1) ∧ s.evalObj z' true = .ok (r', s2) ∧ r.grad = some g ∧
      g.size = d.nZ ∧
      r'.value - r.value = ∑ v ∈ Finset.range d.nZ, g.get v * (z'.get v - z.get v) := by
  obtain ⟨⟨r, s1⟩, e1, v1, g1⟩ := NlState.evalObj_post hs hd.ph_int hobj z hz true
  obtain ⟨⟨r', s2⟩, e2, v2, -⟩ := NlState.evalObj_post hs hd.ph_int hobj z' hz' true
  simp only [if_true] at g1
  obtain ⟨G, gx, gu, ge, k1, k2, k3, k4⟩ := g1
  obtain ⟨a1, a2, a3, a4⟩ := haff.objDiff k3
  refine ⟨r, r', s1, s2, G, e1, e2, k1, k2, ?_⟩
  dsimp only at v1 v2
  rw [v1, v2]
  refine haff.chain hd.ch_pos hd.ch_le _ _ _ _ _ _ gu ?_ k4.inputs (k4.slack.trans a4) a2 a3
  intro k a hk ha
  rw [k4.states k a hk ha, a1 k a hk ha]
  rcases hsc a ha with h | h
  · rw [h]
  · rw [h]; ring

/-- C39, proved part: exact for every state component which is not scaled or on which the objective does not
depend. Missing: components with a scaling factor other than one (see `c39_scaled_objective_gradient_violated`). -/
theorem c39_objective_gradient_partial (d : Dims) (hd : HorizonsOk d) (junk : Nat → K) (cont : Bool) (Ts : K)
    (ops : List (NlOp d K)) (hf : ∀ o ∈ ops, NlSpec.OpFits d o) (s : NlState d K)
    (hr : NlState.run d junk cont Ts ops = .ok s) (f : ObjFn d K) (hobj : (NlSpec.cfgOf d cont Ts ops).obj = some f)
    (c0 : K) (α β : Nat → Nat → K) (γ : K)
    (haff : NlSpec.IsAffine (NlSpec.costOf f (NlSpec.cfgOf d cont Ts ops).out) c0 α β γ)
    (hsc : ∀ a, a < d.nx → (NlSpec.cfgOf d cont Ts ops).stScale a = 1 ∨ ∀ k, α k a = 0)
    (z z' : Vec K) (hz : z.size = d.nZ) (hz' : z'.size = d.nZ) :
    ∃ r r' s1 s2 g, s.evalObj z true = .ok (r, s1) ∧ s.evalObj z' true = .ok (r', s2) ∧ r.grad = some g ∧
      g.size = d.nZ ∧
      r'.value - r.value = ∑ v ∈ Finset.range d.nZ, g.get v * (z'.get v - z.get v) :=
  objective_gradient_of_holds hd (NlState.run_holds hd.ch_pos hd.ch_le hd.ph_int junk cont Ts ops hf hr) hobj haff hsc z z' hz hz'

/-- C40 as claimed: for every affine inequality constraint, value changes are Jacobian times change. -/
def C40Claim (K : Type) [Field K] [LinearOrder K] [IsStrictOrderedRing K] : Prop :=
  ∀ (d : Dims), HorizonsOk d → ∀ (junk : Nat → K) (cont : Bool) (Ts : K) (ops : List (NlOp d K)),
    (∀ o ∈ ops, NlSpec.OpFits d o) → ∀ s, NlState.run d junk cont Ts ops = .ok s →
    ∀ F, (NlSpec.cfgOf d cont Ts ops).ineq = some F →
    (∀ i : Fin d.ineq, ∃ c0 α β γ,
      NlSpec.IsAffine (fun X U e => NlSpec.ineqOf F (NlSpec.cfgOf d cont Ts ops).out X U e i) c0 α β γ) →
    ∀ (z z' : Vec K) (j j' : Nat → K), z.size = d.nZ → z'.size = d.nZ →
    ∃ r r' s1 s2, s.evalIneq z j = .ok (r, s1) ∧ s.evalIneq z' j' = .ok (r', s2) ∧
      NlSpec.ExactRows d.nZ d.ineq z.get z'.get r.value.get r'.value.get r.grad.get

/-- the gradient of the inequality constraints, from what the objects hold -/
theorem ineq_gradient_of_holds {d : Dims} (hd : HorizonsOk d) {s : NlState d K} {cf : NlSpec.Cfg d K} (hs : s.Holds cf)
    {F : Traj (d.ph + 1) d.nx K → Traj (d.ph + 1) d.ny K → Traj (d.ph + 1) d.nu K → K → FVec d.ineq K}
    (hF : cf.ineq = some F)
    (haff : ∀ i : Fin d.ineq, ∃ c0 α β γ,
      NlSpec.IsAffine (fun X U e => NlSpec.ineqOf F cf.out X U e i) c0 α β γ ∧ ∀ b, β d.ph b = 0)
    (z z' : Vec K) (j j' : Nat → K) (hz : z.size = d.nZ) (hz' : z'.size = d.nZ) :
    ∃ r r' s1 s2, s.evalIneq z j = .ok (r, s1) ∧ s.evalIneq z' j' = .ok (r', s2) ∧
      NlSpec.ExactRows d.nZ d.ineq z.get z'.get r.value.get r'.value.get r.grad.get := by
  obtain ⟨⟨r, s1⟩, e1, -, -, v1, gx, gu, ge, k3, k4⟩ := NlState.evalIneq_post hs hd.ph_int hF z hz j
  obtain ⟨⟨r', s2⟩, e2, -, -, v2, -⟩ := NlState.evalIneq_post hs hd.ph_int hF z' hz' j'
  refine ⟨r, r', s1, s2, e1, e2, ?_⟩
  intro c hc
  obtain ⟨c0, α, β, γ, haff, hβ⟩ := haff ⟨c, hc⟩
  obtain ⟨a1, a2, a3, a4⟩ := haff.conDiff k3
  have w1 := v1 ⟨c, hc⟩
  have w2 := v2 ⟨c, hc⟩
  dsimp only at w1 w2
  rw [w1, w2]
  have row := k4 c hc
  refine haff.chain hd.ch_pos hd.ch_le _ _ _ _ _ (fun v => r.grad.get (c * d.nZ + v)) (gu c) ?_ row.inputs
    (row.slack.trans a4) a2 ?_
  · intro k a hk ha
    rw [row.states k a hk ha, a1 k a hk ha]
  · intro b hb
    have := a3 b hb
    simp only [Bool.false_eq_true, if_false] at this
    rw [this, hβ]; ring

/-- C40, proved part: exact for affine constraints which do not depend on the input of the last step `ph`.
Missing: constraints on that input (see `c40_last_input_violated`). -/
theorem c40_ineq_gradient_partial (d : Dims) (hd : HorizonsOk d) (junk : Nat → K) (cont : Bool) (Ts : K)
    (ops : List (NlOp d K)) (hf : ∀ o ∈ ops, NlSpec.OpFits d o) (s : NlState d K)
    (hr : NlState.run d junk cont Ts ops = .ok s)
    (F : Traj (d.ph + 1) d.nx K → Traj (d.ph + 1) d.ny K → Traj (d.ph + 1) d.nu K → K → FVec d.ineq K)
    (hF : (NlSpec.cfgOf d cont Ts ops).ineq = some F)
    (haff : ∀ i : Fin d.ineq, ∃ c0 α β γ,
      NlSpec.IsAffine (fun X U e => NlSpec.ineqOf F (NlSpec.cfgOf d cont Ts ops).out X U e i) c0 α β γ ∧
      ∀ b, β d.ph b = 0)
    (z z' : Vec K) (j j' : Nat → K) (hz : z.size = d.nZ) (hz' : z'.size = d.nZ) :
    ∃ r r' s1 s2, s.evalIneq z j = .ok (r, s1) ∧ s.evalIneq z' j' = .ok (r', s2) ∧
      NlSpec.ExactRows d.nZ d.ineq z.get z'.get r.value.get r'.value.get r.grad.get :=
  ineq_gradient_of_holds hd (NlState.run_holds hd.ch_pos hd.ch_le hd.ph_int junk cont Ts ops hf hr) hF haff z z' j j' hz hz'

/-- the gradient of the equality constraints, from what the objects hold -/
theorem eq_gradient_of_holds {d : Dims} (hd : HorizonsOk d) {s : NlState d K} {cf : NlSpec.Cfg d K} (hs : s.Holds cf)
    {F : Traj (d.ph + 1) d.nx K → Traj (d.ph + 1) d.nu K → FVec d.eq K} (hF : cf.eq = some F)
    (haff : ∀ i : Fin d.eq, ∃ c0 α β, NlSpec.IsAffine (fun X U _ => F X U i) c0 α β 0)
    (z z' : Vec K) (j j' : Nat → K) (hz : z.size = d.nZ) (hz' : z'.size = d.nZ) :
    ∃ r r' s1 s2, s.evalEq z j = .ok (r, s1) ∧ s.evalEq z' j' = .ok (r', s2) ∧
      NlSpec.ExactRows d.nZ d.eq z.get z'.get r.value.get r'.value.get r.grad.get := by
  obtain ⟨⟨r, s1⟩, e1, -, -, v1, gx, gu, k3, k4⟩ := NlState.evalEq_post hs hF z hz j
  obtain ⟨⟨r', s2⟩, e2, -, -, v2, -⟩ := NlState.evalEq_post hs hF z' hz' j'
  refine ⟨r, r', s1, s2, e1, e2, ?_⟩
  intro c hc
  obtain ⟨c0, α, β, haff⟩ := haff ⟨c, hc⟩
  obtain ⟨a1, a2, a3, -⟩ := haff.conDiff (φ := fun X U _ => F X U) k3
  have w1 := v1 ⟨c, hc⟩
  have w2 := v2 ⟨c, hc⟩
  dsimp only at w1 w2
  rw [w1, w2]
  have row := k4 c hc
  refine haff.chain hd.ch_pos hd.ch_le _ _ _ _ _ (fun v => r.grad.get (c * d.nZ + v)) (gu c) ?_ row.inputs
    row.slack a2 ?_
  · intro k a hk ha
    rw [row.states k a hk ha, a1 k a hk ha]
  · intro b hb
    have := a3 b hb
    simp only [if_true] at this
    exact this

/-- C41: for every affine user equality constraint, after any history, the Jacobian handed to the solver is exact. -/
theorem c41_eq_gradient_exact (d : Dims) (hd : HorizonsOk d) (junk : Nat → K) (cont : Bool) (Ts : K)
    (ops : List (NlOp d K)) (hf : ∀ o ∈ ops, NlSpec.OpFits d o) (s : NlState d K)
    (hr : NlState.run d junk cont Ts ops = .ok s)
    (F : Traj (d.ph + 1) d.nx K → Traj (d.ph + 1) d.nu K → FVec d.eq K)
    (hF : (NlSpec.cfgOf d cont Ts ops).eq = some F)
    (haff : ∀ i : Fin d.eq, ∃ c0 α β, NlSpec.IsAffine (fun X U _ => F X U i) c0 α β 0)
    (z z' : Vec K) (j j' : Nat → K) (hz : z.size = d.nZ) (hz' : z'.size = d.nZ) :
    ∃ r r' s1 s2, s.evalEq z j = .ok (r, s1) ∧ s.evalEq z' j' = .ok (r', s2) ∧
      NlSpec.ExactRows d.nZ d.eq z.get z'.get r.value.get r'.value.get r.grad.get :=
  eq_gradient_of_holds hd (NlState.run_holds hd.ch_pos hd.ch_le hd.ph_int junk cont Ts ops hf hr) hF haff z z' j j' hz hz'

end

/-! ### Witnesses -/

/-- one state, one input, one output, `ph = ch = 1`, one inequality and one equality constraint -/
abbrev dW : Dims := ⟨1, 1, 0, 1, 1, 1, 1, 1⟩

theorem dW_ok : HorizonsOk dW := ⟨by decide, by decide, by decide⟩

/-- row 1, component 0 of a sequence over `dW` -/
def last1 {c : Nat} (hc : 0 < c) (X : Traj 2 c ℚ) : ℚ := X ⟨1, by omega⟩ ⟨0, hc⟩

theorem sum2 (f : Fin 2 → Fin 1 → ℚ) : ∑ k : Fin 2, ∑ a : Fin 1, f k a = f 0 0 + f 1 0 := by
  simp [Fin.sum_univ_succ]

theorem sumZ (f : Nat → ℚ) : ∑ v ∈ Finset.range 3, f v = f 0 + f 1 + f 2 := by
  simp [Finset.sum_range_succ]

/-- state scaling 2, objective `x_1`, measured state 0 -/
def opsW39 : List (NlOp dW ℚ) :=
  [.stateScaling ⟨1, fun _ => 2⟩, .objFn (fun X _ _ _ => X (1 : Fin 2) (0 : Fin 1)), .measure ⟨1, fun _ => 0⟩]

theorem opsW39_fits : ∀ o ∈ opsW39, NlSpec.OpFits dW o := by
  intro o ho
  simp only [opsW39, List.mem_cons, List.not_mem_nil, or_false] at ho
  rcases ho with rfl | rfl | rfl <;> simp [NlSpec.OpFits]

theorem opsW39_affine : NlSpec.IsAffine (r := 2) (n := 1) (m := 1)
    (NlSpec.costOf (d := dW) (fun X _ _ _ => X (1 : Fin 2) (0 : Fin 1)) (NlSpec.cfgOf dW false (1 : ℚ) opsW39).out) 0
    (fun k _ => if k = 1 then 1 else 0) (fun _ _ => 0) 0 := by
  intro X U e
  rw [sum2, sum2]
  simp [NlSpec.costOf]

/-- C39 fails: with a state scaling factor other than one, the objective gradient with respect to a state is too small
by that factor (the chain rule factor is missing at Objective.hpp:128-137, present at Constraints.hpp:257-272). -/
theorem c39_scaled_objective_gradient_violated : ¬ C39Claim ℚ := by
  intro H
  obtain ⟨s, hs⟩ := NlState.run_setters (d := dW) dW_ok.ch_pos dW_ok.ch_le dW_ok.ph_int (fun _ => (0 : ℚ)) false 1
    opsW39 opsW39_fits (by
      intro o ho
      simp only [opsW39, List.mem_cons, List.not_mem_nil, or_false] at ho
      rcases ho with rfl | rfl | rfl <;> trivial)
  have hh := NlState.run_holds dW_ok.ch_pos dW_ok.ch_le dW_ok.ph_int _ _ _ opsW39 opsW39_fits hs
  obtain ⟨r, r', s1, s2, g, e1, e2, hg, -, hv⟩ := H dW dW_ok _ _ _ opsW39 opsW39_fits s hs _ rfl _ _ _ _ opsW39_affine
    ⟨3, fun _ => 0⟩ ⟨3, fun v => if v = 0 then 1 else 0⟩ rfl rfl
  obtain ⟨v1, q1⟩ := (NlState.evalObj_post hh dW_ok.ph_int rfl ⟨3, fun _ => 0⟩ rfl true).of_eq e1
  obtain ⟨v2, -⟩ := (NlState.evalObj_post hh dW_ok.ph_int rfl ⟨3, fun v => if v = 0 then 1 else 0⟩ rfl true).of_eq e2
  simp only [if_true] at q1
  obtain ⟨G, gx, gu, ge, k1, k2, k3, k4⟩ := q1
  dsimp only at v1 v2 k1
  rw [hg] at k1
  cases k1
  obtain ⟨a1, -⟩ := opsW39_affine.objDiff k3
  have g0 := k4.states 0 0 (by decide) (by decide)
  rw [a1 0 0 (by decide) (by decide)] at g0
  have e0 : NlSpec.stateIx dW 0 0 = 0 := rfl
  rw [e0] at g0
  rw [v1, v2] at hv
  have hn : dW.nZ = 3 := rfl
  rw [hn, sumZ, g0] at hv
  simp [NlSpec.costOf, NlSpec.codeStates, NlSpec.cfgOf, opsW39, NlSpec.Cfg.step, NlSpec.Cfg.fresh, NlSpec.stateIx]
    at hv

/-- inequality constraint `u_1 <= 0` where `u_1` is the input of the last step -/
def opsW40 : List (NlOp dW ℚ) :=
  [.ineqFn (fun _ _ U _ _ => U (1 : Fin 2) (0 : Fin 1)) 0, .measure ⟨1, fun _ => 0⟩]

theorem opsW40_fits : ∀ o ∈ opsW40, NlSpec.OpFits dW o := by
  intro o ho
  simp only [opsW40, List.mem_cons, List.not_mem_nil, or_false] at ho
  rcases ho with rfl | rfl <;> simp [NlSpec.OpFits]

theorem opsW40_affine (i : Fin 1) : NlSpec.IsAffine (r := 2) (n := 1) (m := 1)
    (fun X U e => NlSpec.ineqOf (d := dW) (fun _ _ U _ _ => U (1 : Fin 2) (0 : Fin 1))
      (NlSpec.cfgOf dW false (1 : ℚ) opsW40).out X U e i) 0
    (fun _ _ => 0) (fun k _ => if k = 1 then 1 else 0) 0 := by
  intro X U e
  rw [sum2, sum2]
  simp [NlSpec.ineqOf]

/-- C40 fails: the Jacobian of an inequality constraint on the input of the last step `ph` is zero (its row is never
perturbed, Constraints.hpp:683-708; compare Constraints.hpp:799-832). -/
theorem c40_last_input_violated : ¬ C40Claim ℚ := by
  intro H
  obtain ⟨s, hs⟩ := NlState.run_setters (d := dW) dW_ok.ch_pos dW_ok.ch_le dW_ok.ph_int (fun _ => (0 : ℚ)) false 1
    opsW40 opsW40_fits (by
      intro o ho
      simp only [opsW40, List.mem_cons, List.not_mem_nil, or_false] at ho
      rcases ho with rfl | rfl <;> trivial)
  have hh := NlState.run_holds dW_ok.ch_pos dW_ok.ch_le dW_ok.ph_int _ _ _ opsW40 opsW40_fits hs
  obtain ⟨r, r', s1, s2, e1, e2, hv⟩ := H dW dW_ok _ _ _ opsW40 opsW40_fits s hs _ rfl
    (fun i => ⟨_, _, _, _, opsW40_affine i⟩)
    ⟨3, fun _ => 0⟩ ⟨3, fun v => if v = 1 then 1 else 0⟩ (fun _ => 0) (fun _ => 0) rfl rfl
  obtain ⟨-, -, v1, gx, gu, ge, k3, k4⟩ :=
    (NlState.evalIneq_post hh dW_ok.ph_int rfl ⟨3, fun _ => 0⟩ rfl (fun _ => 0)).of_eq e1
  obtain ⟨-, -, v2, -⟩ :=
    (NlState.evalIneq_post hh dW_ok.ph_int rfl ⟨3, fun v => if v = 1 then 1 else 0⟩ rfl (fun _ => 0)).of_eq e2
  have w1 := v1 (0 : Fin 1)
  have w2 := v2 (0 : Fin 1)
  have hv := hv 0 (by decide)
  obtain ⟨-, -, a3, -⟩ := (opsW40_affine (0 : Fin 1)).conDiff k3
  have g1 := (k4 0 (by decide)).inputs 0 0 (by decide) (by decide)
  have b1 := a3 0 (by decide)
  have e0 : NlSpec.inputIx dW 0 0 = 1 := rfl
  have hn : dW.nZ = 3 := rfl
  simp only [Fin.val_zero] at w1 w2 b1
  rw [w1, w2, hn, sumZ] at hv
  rw [e0, hn] at g1
  have hr : Finset.range dW.ph = {0} := rfl
  rw [hr, Finset.sum_singleton, if_pos (by decide)] at g1
  have hb : dW.ph - 1 = 0 := rfl
  rw [hb] at b1
  rw [b1] at g1
  dsimp only at g1
  rw [g1] at hv
  simp [NlSpec.ineqOf, NlSpec.inputs, NlSpec.inputAt, NlSpec.cfgOf, opsW40, NlSpec.Cfg.step, NlSpec.Cfg.fresh,
    NlSpec.inputIx] at hv

/-! ### Non-vacuity: two states, one input, `ph = 2`, `ch = 1`, scalings 2, 3 and 5, all three user functions -/

/-- dimensions of the example -/
abbrev dV : Dims := ⟨2, 1, 0, 1, 2, 1, 1, 1⟩

theorem dV_ok : HorizonsOk dV := ⟨by decide, by decide, by decide⟩

/-- a history with all user functions set; the objective ignores the scaled component, the inequality constraint
ignores the last input, the equality constraint uses everything -/
def opsV : List (NlOp dV ℚ) :=
  [.stateScaling ⟨2, fun a => if a = 0 then 2 else 1⟩, .inputScaling ⟨1, fun _ => 5⟩,
   .objFn (fun X _ U e => 3 * X (2 : Fin 3) (1 : Fin 2) - U (2 : Fin 3) (0 : Fin 1) + 7 * e),
   .ineqFn (fun X _ U e _ => X (1 : Fin 3) (0 : Fin 2) + U (1 : Fin 3) (0 : Fin 1) - e) 0,
   .eqFn (fun X U _ => X (2 : Fin 3) (0 : Fin 2) + 4 * U (2 : Fin 3) (0 : Fin 1) - 1) 0,
   .measure ⟨2, fun _ => 1⟩]

theorem opsV_fits : ∀ o ∈ opsV, NlSpec.OpFits dV o := by
  intro o ho
  simp only [opsV, List.mem_cons, List.not_mem_nil, or_false] at ho
  rcases ho with rfl | rfl | rfl | rfl | rfl | rfl <;> simp [NlSpec.OpFits]

theorem opsV_run : ∃ s, NlState.run dV (fun _ => (0 : ℚ)) false 1 opsV = .ok s :=
  NlState.run_setters dV_ok.ch_pos dV_ok.ch_le dV_ok.ph_int _ _ _ _ opsV_fits (by
    intro o ho
    simp only [opsV, List.mem_cons, List.not_mem_nil, or_false] at ho
    rcases ho with rfl | rfl | rfl | rfl | rfl | rfl <;> trivial)

theorem sum32 (f : Fin 3 → Fin 2 → ℚ) :
    ∑ k : Fin 3, ∑ a : Fin 2, f k a = f 0 0 + f 0 1 + (f 1 0 + f 1 1) + (f 2 0 + f 2 1) := by
  simp [Fin.sum_univ_succ]; ring

theorem sum31 (f : Fin 3 → Fin 1 → ℚ) : ∑ k : Fin 3, ∑ a : Fin 1, f k a = f 0 0 + f 1 0 + f 2 0 := by
  simp [Fin.sum_univ_succ]; ring

/-- the hypotheses of `c39_objective_gradient_partial` are met with a scaled state component -/
example : ∃ s f c0 α β γ, NlState.run dV (fun _ => (0 : ℚ)) false 1 opsV = .ok s ∧
    (NlSpec.cfgOf dV false 1 opsV).obj = some f ∧
    NlSpec.IsAffine (NlSpec.costOf f (NlSpec.cfgOf dV false 1 opsV).out) c0 α β γ ∧
    (∀ a, a < dV.nx → (NlSpec.cfgOf dV false 1 opsV).stScale a = 1 ∨ ∀ k, α k a = 0) ∧
    (NlSpec.cfgOf dV false 1 opsV).stScale 0 = 2 := by
  obtain ⟨s, hs⟩ := opsV_run
  refine ⟨s, _, 0, fun k a => if k = 2 ∧ a = 1 then 3 else 0, fun k _ => if k = 2 then -1 else 0, 7, hs, rfl, ?_, ?_,
    rfl⟩
  · intro X U e
    have h1 := sum32 (fun k a => (if (k : Nat) = 2 ∧ (a : Nat) = 1 then (3 : ℚ) else 0) * X k a)
    have h2 := sum31 (fun k a => (if (k : Nat) = 2 then (-1 : ℚ) else 0) * U k a)
    refine Eq.trans ?_ (congrArg₂ (fun p q => 0 + p + q + 7 * e) h1.symm h2.symm)
    simp [NlSpec.costOf]; ring
  · intro a ha
    have : a = 0 ∨ a = 1 := by simp at ha; omega
    rcases this with rfl | rfl
    · right; intro k; simp
    · left; rfl

/-- the hypotheses of `c40_ineq_gradient_partial` are met -/
example : ∃ F, (NlSpec.cfgOf dV false (1 : ℚ) opsV).ineq = some F ∧ ∀ i : Fin dV.ineq, ∃ c0 α β γ,
    NlSpec.IsAffine (fun X U e => NlSpec.ineqOf F (NlSpec.cfgOf dV false 1 opsV).out X U e i) c0 α β γ ∧
    ∀ b, β dV.ph b = 0 := by
  refine ⟨_, rfl, fun i => ⟨0, fun k a => if k = 1 ∧ a = 0 then 1 else 0, fun k _ => if k = 1 then 1 else 0, -1, ?_, ?_⟩⟩
  · intro X U e
    have h1 := sum32 (fun k a => (if (k : Nat) = 1 ∧ (a : Nat) = 0 then (1 : ℚ) else 0) * X k a)
    have h2 := sum31 (fun k a => (if (k : Nat) = 1 then (1 : ℚ) else 0) * U k a)
    refine Eq.trans ?_ (congrArg₂ (fun p q => 0 + p + q + (-1) * e) h1.symm h2.symm)
    simp [NlSpec.ineqOf]; ring
  · intro b; simp

/-- the hypotheses of `c41_eq_gradient_exact` are met -/
example : ∃ F, (NlSpec.cfgOf dV false (1 : ℚ) opsV).eq = some F ∧ ∀ i : Fin dV.eq, ∃ c0 α β,
    NlSpec.IsAffine (fun X U _ => F X U i) c0 α β 0 := by
  refine ⟨_, rfl, fun i => ⟨-1, fun k a => if k = 2 ∧ a = 0 then 1 else 0, fun k _ => if k = 2 then 4 else 0, ?_⟩⟩
  intro X U e
  have h1 := sum32 (fun k a => (if (k : Nat) = 2 ∧ (a : Nat) = 0 then (1 : ℚ) else 0) * X k a)
  have h2 := sum31 (fun k a => (if (k : Nat) = 2 then (4 : ℚ) else 0) * U k a)
  refine Eq.trans ?_ (congrArg₂ (fun p q => -1 + p + q + 0 * e) h1.symm h2.symm)
  simp; ring

end Mpc.Props
