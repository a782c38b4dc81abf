import Verif.Proofs.NlRoundSparse
import Verif.Props.NlApiGradients
import Verif.Props.NlStart
import Verif.Props.Rounding

/-
C110 and C111: the nonlinear controller in floating-point arithmetic. `R` is any rounding with `eps ≤ 1/8`, for instance the one of
`double` (`Rounding.binary K 53`). The calls before and the solver calls made so far are those of `InSolver`; then the solver makes any
number of evaluations in rounded arithmetic. The user functions are any functions, so they may round inside.
-/
namespace Mpc.Props
open Mpc Exec
set_option linter.unusedSectionVars false

section
variable {d : Dims} {K : Type} [Field K] [LinearOrder K] [IsStrictOrderedRing K]

/-- `s` is reached from `s0` by rounded evaluations, at any points, with and without gradients -/
inductive RoundedFrom (R : Rounding K) (s0 : NlState d K) : NlState d K → Prop
  | start : RoundedFrom R s0 s0
  | obj {s : NlState d K} (z : Vec K) (g : Bool) {r : ObjCost K × NlState d K} :
      RoundedFrom R s0 s → z.size = d.nZ → s.evalObjR R.rnd z g = .ok r → RoundedFrom R s0 r.2
  | ineq {s : NlState d K} (z : Vec K) (junk : Nat → K) {r : ConCost K × NlState d K} :
      RoundedFrom R s0 s → z.size = d.nZ → s.evalIneqR R.rnd z junk = .ok r → RoundedFrom R s0 r.2
  | eq {s : NlState d K} (z : Vec K) (junk : Nat → K) {r : ConCost K × NlState d K} :
      RoundedFrom R s0 s → z.size = d.nZ → s.evalEqR R.rnd z junk = .ok r → RoundedFrom R s0 r.2
  | dyn {s : NlState d K} (z : Vec K) (g : Bool) (junk : Nat → K) {r : ConCost K × NlState d K} :
      RoundedFrom R s0 s → z.size = d.nZ → s.evalDynR R.rnd z g junk = .ok r → RoundedFrom R s0 r.2

/-- After the history `ops`, inside a call `optimize(x0, ..)`, after any evaluations the solver has made, the last ones in the
arithmetic of `R`. -/
def InRounded (R : Rounding K) (d : Dims) (dyn : Bool) (ops : List (NlCall d K)) (outs : List (NlOut K)) (m : NlMpc d K) (x0 : Vec K)
    (s : NlState d K) : Prop :=
  ∃ cs s0, InSolver d dyn ops outs m x0 cs s0 ∧ RoundedFrom R s0 s

variable {R : Rounding K} {dyn : Bool} {ops : List (NlCall d K)} {outs : List (NlOut K)} {m : NlMpc d K} {x0 : Vec K}
  {s : NlState d K}

theorem _root_.Mpc.NlState.Holds.rounded (he : R.eps ≤ 1 / 8) (hp : d.ph < 2 ^ 31) {s0 : NlState d K} {c : NlSpec.Cfg d K} (h : s0.Holds c) :
    RoundedFrom R s0 s → s.Holds c := by
  intro hr
  induction hr with
  | start => exact h
  | obj z g _ hz hr ih => exact NlState.evalObjR_holds he ih hp hz hr
  | ineq z junk _ hz hr ih => exact NlState.evalIneqR_holds he ih hp hz hr
  | eq z junk _ hz hr ih => exact NlState.evalEqR_holds he ih hz hr
  | dyn z g junk _ hz hr ih => exact NlState.evalDynR_holds ih hp hz hr

theorem InRounded.hor (h : InRounded R d dyn ops outs m x0 s) : d.ph < 2 ^ 31 := by
  obtain ⟨cs, s0, h1, -⟩ := h; exact h1.hor.ph_int

theorem InRounded.dims (h : InRounded R d dyn ops outs m x0 s) : 0 < d.ch ∧ d.ch ≤ d.ph := by
  obtain ⟨cs, s0, h1, -⟩ := h
  have h2 := h1.holds
  have h3 := h2.good.ch_pos
  have h4 := h2.good.ch_le
  rw [h2.dims] at h3 h4
  exact ⟨h3, h4⟩

/-- what the objects hold, in terms of the calls -/
theorem InRounded.config (he : R.eps ≤ 1 / 8) (h : InRounded R d dyn ops outs m x0 s) : ∃ c : NlSpec.Cfg d K, s.Holds c ∧
    c.inScale = NlSpec.inScale ops ∧
    c.stScale = NlSpec.stScale ops ∧ c.out = NlSpec.last NlSpec.outputOf ops ∧ c.obj = NlSpec.last NlSpec.objectiveOf ops ∧
    c.field = NlSpec.last NlSpec.modelOf ops ∧ (∀ F tol, NlSpec.last NlSpec.ineqConOf ops = some (F, tol) → c.ineq = some F) ∧
    (∀ F tol, NlSpec.last NlSpec.eqConOf ops = some (F, tol) → c.eq = some F) ∧
    c.cont = (NlSpec.last NlSpec.samplingOf ops).isSome ∧ c.Ts = (NlSpec.last NlSpec.samplingOf ops).getD 0 ∧
    s.obj.x0.get = x0.get ∧ s.con.x0.get = x0.get := by
  obtain ⟨cs, s0, h1, h2⟩ := h
  have hs := h1.holds
  have hl := h1.toNlRan.len
  have hs' := hs.rounded he h1.hor.ph_int h2
  refine ⟨_, hs', after_inScale hl, after_stScale hl, after_out hl, after_obj hl, after_field hl, ?_, ?_, after_cont hl,
    after_Ts hl, hs'.ox0 _ rfl, hs'.cx0 _ rfl⟩
  · intro F tol hf
    rw [← after_ineq hl] at hf
    cases hi : (NlCtl.after d ops outs).cfg.ineq with
    | none => rw [hi] at hf; cases hf
    | some G => rw [hi] at hf; obtain ⟨rfl, -⟩ := Prod.mk.inj (Option.some.inj hf); rfl
  · intro F tol hf
    rw [← after_eq hl] at hf
    cases hi : (NlCtl.after d ops outs).cfg.eq with
    | none => rw [hi] at hf; cases hf
    | some G => rw [hi] at hf; obtain ⟨rfl, -⟩ := Prod.mk.inj (Option.some.inj hf); rfl

/-! ### C110 -/

/-- C110: the objective reaches the solver as the user's function returned it, for states and inputs which are those of the decision
vector up to a few units in the last place, and for exactly the slack of the decision vector. -/
theorem c110_objective (he : R.eps ≤ 1 / 8) (h : InRounded R d dyn ops outs m x0 s) (f : ObjFn d K)
    (hf : NlSpec.last NlSpec.objectiveOf ops = some f) (z : Vec K) (hz : z.size = d.nZ) (g : Bool) :
    ∃ r s1 X U, s.evalObjR R.rnd z g = .ok (r, s1) ∧
      NlSpec.Decoded R d (NlSpec.stScale ops) (NlSpec.inScale ops) x0.get z.get X U ∧
      r.value = NlSpec.costOf f (NlSpec.last NlSpec.outputOf ops) X U (z.get (NlSpec.slackIx d)) := by
  obtain ⟨c, hs, e1, e2, e3, e4, -, -, -, -, -, ex, -⟩ := h.config he
  obtain ⟨⟨r, s1⟩, hr, hp⟩ := NlState.evalObjR_post he hs h.hor (e4.trans hf) z hz g rfl rfl
  obtain ⟨-, hv, -⟩ := hp
  refine ⟨r, s1, _, _, hr, NlSpec.decoded (lt_of_le_of_lt he (by norm_num)) _ _ _ _, ?_⟩
  rw [← ex, ← e1, ← e2, ← e3]
  exact hv

/-- C110 for the inequality constraints. -/
theorem c110_inequality (he : R.eps ≤ 1 / 8) (h : InRounded R d dyn ops outs m x0 s)
    (F : Traj (d.ph + 1) d.nx K → Traj (d.ph + 1) d.ny K → Traj (d.ph + 1) d.nu K → K → FVec d.ineq K) (tol : K)
    (hF : NlSpec.last NlSpec.ineqConOf ops = some (F, tol)) (z : Vec K) (hz : z.size = d.nZ) (junk : Nat → K) :
    ∃ r s1 X U, s.evalIneqR R.rnd z junk = .ok (r, s1) ∧
      NlSpec.Decoded R d (NlSpec.stScale ops) (NlSpec.inScale ops) x0.get z.get X U ∧ r.value.size = d.ineq ∧
      ∀ i : Fin d.ineq, r.value.get i
        = NlSpec.ineqOf F (NlSpec.last NlSpec.outputOf ops) X U (z.get (NlSpec.slackIx d)) i := by
  obtain ⟨c, hs, e1, e2, e3, -, -, e6, -, -, -, -, ex⟩ := h.config he
  obtain ⟨⟨r, s1⟩, hr, hp⟩ := NlState.evalIneqR_post he hs h.hor (e6 F tol hF) z hz junk rfl rfl
  obtain ⟨-, h1, -, hv, -⟩ := hp
  refine ⟨r, s1, _, _, hr, NlSpec.decoded (lt_of_le_of_lt he (by norm_num)) _ _ _ _, h1, ?_⟩
  rw [← ex, ← e1, ← e2, ← e3]
  exact hv

/-- C110 for the equality constraints. -/
theorem c110_equality (he : R.eps ≤ 1 / 8) (h : InRounded R d dyn ops outs m x0 s)
    (F : Traj (d.ph + 1) d.nx K → Traj (d.ph + 1) d.nu K → FVec d.eq K) (tol : K)
    (hF : NlSpec.last NlSpec.eqConOf ops = some (F, tol)) (z : Vec K) (hz : z.size = d.nZ) (junk : Nat → K) :
    ∃ r s1 X U, s.evalEqR R.rnd z junk = .ok (r, s1) ∧
      NlSpec.Decoded R d (NlSpec.stScale ops) (NlSpec.inScale ops) x0.get z.get X U ∧ r.value.size = d.eq ∧
      ∀ i : Fin d.eq, r.value.get i = F X U i := by
  obtain ⟨c, hs, e1, e2, -, -, -, -, e7, -, -, -, ex⟩ := h.config he
  obtain ⟨⟨r, s1⟩, hr, hp⟩ := NlState.evalEqR_post he hs (e7 F tol hF) z hz junk rfl rfl
  obtain ⟨-, h1, -, hv, -⟩ := hp
  refine ⟨r, s1, _, _, hr, NlSpec.decoded (lt_of_le_of_lt he (by norm_num)) _ _ _ _, h1, ?_⟩
  rw [← ex, ← e1, ← e2]
  exact hv

/-- C110: with unit scalings, states and inputs which the arithmetic can represent are passed on exactly. -/
theorem c110_exact (he : R.eps ≤ 1 / 8) (h : InRounded R d dyn ops outs m x0 s) (f : ObjFn d K)
    (hf : NlSpec.last NlSpec.objectiveOf ops = some f) (z : Vec K) (hz : z.size = d.nZ) (g : Bool)
    (hsx : ∀ a, NlSpec.stScale ops a = 1) (hsu : ∀ b, NlSpec.inScale ops b = 1) (hx0 : ∀ a, R.rnd (x0.get a) = x0.get a)
    (hzr : ∀ v, R.rnd (z.get v) = z.get v) :
    ∃ r s1, s.evalObjR R.rnd z g = .ok (r, s1) ∧
      r.value = NlSpec.costOf f (NlSpec.last NlSpec.outputOf ops) (NlSpec.codeStates d (NlSpec.stScale ops) x0.get z.get)
        (NlSpec.inputs d (NlSpec.inScale ops) z.get) (z.get (NlSpec.slackIx d)) := by
  obtain ⟨c, hs, e1, e2, e3, e4, -, -, -, -, -, ex, -⟩ := h.config he
  obtain ⟨⟨r, s1⟩, hr, hp⟩ := NlState.evalObjR_post he hs h.hor (e4.trans hf) z hz g rfl rfl
  obtain ⟨-, hv, -⟩ := hp
  refine ⟨r, s1, hr, hv.trans ?_⟩
  rw [ex, e1, e2, e3]
  congr 1
  · funext k a
    unfold NlSpec.codeStatesR NlSpec.codeStates
    simp only [hsx, div_one, R.one, one_mul, hx0, hzr]
  · funext k b
    unfold NlSpec.inputsR NlSpec.inputs NlSpec.inputAt
    simp only [hsu, one_mul, hzr]

/-! ### C110: without rounding, these are the evaluations of the exact model -/

theorem sumToR_id (n : Nat) (f : Nat → K) : sumToR id n f = sumTo n f := by
  induction n with
  | zero => rfl
  | succ n ih => rw [sumToR, sumTo, ih]; rfl

theorem mulVecR_id : (Mat.mulVecR id : Mat K → Vec K → _) = Mat.mulVec := by
  funext m v; unfold Mat.mulVecR Mat.mulVec; simp only [sumToR_id, id_eq]

theorem mulR_id : (Mat.mulR id : Mat K → Mat K → _) = Mat.mul := by
  funext m v; unfold Mat.mulR Mat.mul; simp only [sumToR_id, id_eq]

/-- C110: without rounding the evaluations are those of the exact model (to which C34 to C51 apply). -/
theorem c110_without_rounding (s : NlState d K) (z : Vec K) (g : Bool) (junk : Nat → K) :
    s.evalObjR (Rounding.exact K).rnd z g = s.evalObj z g ∧ s.evalIneqR (Rounding.exact K).rnd z junk = s.evalIneq z junk ∧
    s.evalEqR (Rounding.exact K).rnd z junk = s.evalEq z junk ∧ s.evalDynR (Rounding.exact K).rnd z g junk = s.evalDyn z g junk := by
  show s.evalObjR id z g = _ ∧ s.evalIneqR id z junk = _ ∧ s.evalEqR id z junk = _ ∧ s.evalDynR id z g junk = _
  refine ⟨?_, ?_, ?_, ?_⟩
  · unfold NlState.evalObjR NlState.evalObj Objective.evaluateR Mapping.unwrapVectorR
    rw [mulVecR_id]; rfl
  · unfold NlState.evalIneqR NlState.evalIneq Constraints.evaluateIneqR Mapping.unwrapVectorR Constraints.glueJacobianR
    rw [mulVecR_id, mulR_id]; rfl
  · unfold NlState.evalEqR NlState.evalEq Constraints.evaluateEqR Mapping.unwrapVectorR Constraints.glueJacobianR
    rw [mulVecR_id, mulR_id]; rfl
  · unfold NlState.evalDynR NlState.evalDyn Constraints.evaluateStateModelEqR Constraints.getStateEqConstraintsR Constraints.stepDiscreteR
      Constraints.stepContinuousR Mapping.unwrapVectorR Constraints.glueJacobianR
    rw [mulVecR_id, mulR_id]; rfl

/-! ### C111 -/

/-- C111: whatever is rounded away, the derivative of an inequality constraint with respect to a variable on which it does not depend
is exactly zero. -/
theorem c111_inequality (he : R.eps ≤ 1 / 8) (h : InRounded R d dyn ops outs m x0 s)
    (F : Traj (d.ph + 1) d.nx K → Traj (d.ph + 1) d.ny K → Traj (d.ph + 1) d.nu K → K → FVec d.ineq K) (tol : K)
    (hF : NlSpec.last NlSpec.ineqConOf ops = some (F, tol)) (z : Vec K) (hz : z.size = d.nZ) (junk : Nat → K) :
    ∃ r s1, s.evalIneqR R.rnd z junk = .ok (r, s1) ∧ r.grad.size = d.nZ * d.ineq ∧
      ∀ i : Fin d.ineq, NlSpec.ZeroWhereIgnored d (fun X U e => NlSpec.ineqOf F (NlSpec.last NlSpec.outputOf ops) X U e i)
        (fun v => r.grad.get (i * d.nZ + v)) := by
  obtain ⟨c, hs, e1, e2, e3, -, -, e6, -, -, -, -, ex⟩ := h.config he
  obtain ⟨⟨r, s1⟩, hr, hp⟩ := NlState.evalIneqR_post he hs h.hor (e6 F tol hF) z hz junk rfl rfl
  obtain ⟨-, -, h1, -, gx, gu, ge, hd, hrow⟩ := hp
  rw [e3] at hd
  have hrow := fun i : Fin d.ineq => hrow i i.2
  exact ⟨r, s1, hr, h1, fun i => ⟨fun k a hk ha hi => (hrow i).state_zero hk ha (hd.state_zero i hk ha hi),
    fun j b hj hb hi => (hrow i).input_zero hj hb fun k hk hm => hd.input_zero h.dims.1 h.dims.2 i hk hb (by rw [hm]; exact hi),
    fun hi => by rw [(hrow i).slack]; exact hd.slack_zero i hi⟩⟩

/-- C111 for the equality constraints. -/
theorem c111_equality (he : R.eps ≤ 1 / 8) (h : InRounded R d dyn ops outs m x0 s)
    (F : Traj (d.ph + 1) d.nx K → Traj (d.ph + 1) d.nu K → FVec d.eq K) (tol : K)
    (hF : NlSpec.last NlSpec.eqConOf ops = some (F, tol)) (z : Vec K) (hz : z.size = d.nZ) (junk : Nat → K) :
    ∃ r s1, s.evalEqR R.rnd z junk = .ok (r, s1) ∧ r.grad.size = d.nZ * d.eq ∧
      ∀ i : Fin d.eq, NlSpec.ZeroWhereIgnored d (fun X U (_ : K) => F X U i) (fun v => r.grad.get (i * d.nZ + v)) := by
  obtain ⟨c, hs, e1, e2, -, -, -, -, e7, -, -, -, ex⟩ := h.config he
  obtain ⟨⟨r, s1⟩, hr, hp⟩ := NlState.evalEqR_post he hs (e7 F tol hF) z hz junk rfl rfl
  obtain ⟨-, -, h1, -, gx, gu, hd, hrow⟩ := hp
  have hrow := fun i : Fin d.eq => hrow i i.2
  exact ⟨r, s1, hr, h1, fun i => ⟨fun k a hk ha hi => (hrow i).state_zero hk ha (hd.state_zero i hk ha hi),
    fun j b hj hb hi => (hrow i).input_zero hj hb fun k hk hm => hd.input_zero h.dims.1 h.dims.2 i hk hb (by rw [hm]; exact hi),
    fun hi => (hrow i).slack⟩⟩

/-- C111 for the model equations: the equation of step `k`, component `r`, has derivative exactly zero with respect to the states of
other steps than `k` and `k + 1`, the inputs of other steps, the slack, and the states and inputs on which component `r` of the model
does not depend. -/
theorem c111_dynamics (he : R.eps ≤ 1 / 8) (h : InRounded R d dyn ops outs m x0 s)
    (F : FVec d.nx K → FVec d.nu K → Nat → FVec d.nx K) (hF : NlSpec.last NlSpec.modelOf ops = some F)
    (z : Vec K) (hz : z.size = d.nZ) (junk : Nat → K) :
    ∃ r s1, s.evalDynR R.rnd z true junk = .ok (r, s1) ∧ r.grad.size = d.nZ * (d.ph * d.nx) ∧
      ∀ (k : Fin d.ph) (q : Fin d.nx),
        (∀ k' (a : Fin d.nx), k' < d.ph → ((k' ≠ k ∧ k' + 1 ≠ k) ∨ (q ≠ a ∧ NlSpec.ModelIgnoresState F q a)) →
          r.grad.get ((k * d.nx + q) * d.nZ + NlSpec.stateIx d k' a) = 0) ∧
        (∀ j (b : Fin d.nu), j < d.ch → (min (k : Nat) (d.ch - 1) ≠ j ∨ NlSpec.ModelIgnoresInput F q b) →
          r.grad.get ((k * d.nx + q) * d.nZ + NlSpec.inputIx d j b) = 0) ∧
        r.grad.get ((k * d.nx + q) * d.nZ + NlSpec.slackIx d) = 0 := by
  obtain ⟨c, hs, -, -, -, -, e5, -⟩ := h.config he
  obtain ⟨⟨r, s1⟩, hr, hp⟩ := NlState.evalDynR_post (R := R) hs h.hor (e5.trans hF) z hz true junk rfl rfl
  obtain ⟨-, -, h1, hrow⟩ := hp
  refine ⟨r, s1, hr, h1, fun k q => ?_⟩
  have hk := (hrow k q).2 rfl
  exact ⟨fun k' a hk' hh => hk.state_zero hk' a hh, fun j b hj hh => hk.input_zero hj b hh, hk.slack⟩

end
end Mpc.Props

/-! ### witnesses -/

namespace Mpc.Props
open Mpc Exec

theorem double_eps : double.eps ≤ 1 / 8 := by
  show (1 / 2 : ℚ) ^ 53 ≤ 1 / 8
  norm_num

/-- inside `optimize`, before any evaluation, after a history of calls -/
theorem rounded_of {ops : List (NlCall dN ℚ)} (x0 : ℚ) (hf : ∀ op ∈ ops, NlSpec.CallFits dN op) (ha : AdmFrom dN false [] ops) :
    ∃ outs m s, InRounded double dN false ops outs m (nvec 2 fun _ => x0) s := by
  obtain ⟨outs, m, m', r, call, h⟩ := asked_of x0 0 .threw (by rintro _ _ _ _ ⟨⟩) hf ha
  obtain ⟨s, hs⟩ := h.inSolver
  exact ⟨outs, m, s, [], s, hs, .start⟩

/-- the calls of `opsN` without the two calls of `optimize` -/
abbrev opsD : List (NlCall dN ℚ) := opsN.take 10

theorem opsD_rounded (x0 : ℚ) : ∃ outs m s, InRounded double dN false opsD outs m (nvec 2 fun _ => x0) s := by
  refine rounded_of x0 (fun op h => opsN_fits op (List.mem_of_mem_take h)) ?_
  show AdmFrom dN false [] (opsN.take 10)
  unfold opsN
  simp only [List.take_succ_cons, List.take_zero, AdmFrom, NlSpec.Admissible, NlSpec.SliceUsable, true_and, and_true]
  exact ⟨by decide, .inr (by decide), _, rfl⟩

/-- non-vacuity of C110 and C111: after all setters and a first evaluation in `double` with a gradient, at a decision vector which is
not representable, the objective, both constraints and the model equations can be evaluated -/
example : ∃ outs m s1 s, InRounded double dN false opsD outs m (nvec 2 fun _ => 1 / 3) s1 ∧
    InRounded double dN false opsD outs m (nvec 2 fun _ => 1 / 3) s ∧ (∃ r, s1.evalObjR double.rnd (zN (1 / 3)) true = .ok (r, s)) ∧
    (∃ f, NlSpec.last NlSpec.objectiveOf opsD = some f) ∧ (∃ F tol, NlSpec.last NlSpec.ineqConOf opsD = some (F, tol)) ∧
    (∃ F tol, NlSpec.last NlSpec.eqConOf opsD = some (F, tol)) ∧ (∃ F, NlSpec.last NlSpec.modelOf opsD = some F) ∧
    (zN (1 / 3)).size = dN.nZ := by
  obtain ⟨outs, m, s, h⟩ := opsD_rounded (1 / 3)
  obtain ⟨r, s1, X, U, hr, -⟩ := c110_objective double_eps h _ rfl (zN (1 / 3)) rfl true
  obtain ⟨cs, s0, h1, h2⟩ := h
  exact ⟨outs, m, s, s1, ⟨cs, s0, h1, h2⟩, ⟨cs, s0, h1, .obj _ _ h2 rfl hr⟩, ⟨r, hr⟩, ⟨_, rfl⟩, ⟨_, _, rfl⟩, ⟨_, _, rfl⟩, ⟨_, rfl⟩, rfl⟩

/-- non-vacuity of C111: the inequality `Y(1,0) <= 5` with output `y = x(0)` ignores the inputs, the slack, and all states but
`X(1,0)`; the equality `X(3,1) = 0` ignores `X(3,0)` -/
example : NlSpec.IgnoresState (fun X U (e : ℚ) => NlSpec.ineqOf (d := dN) (fun _ Y _ _ _ => Y 1 0 - 5) (some fun _ x _ _ _ => x 0) X U e 0) 2 0 ∧
    NlSpec.IgnoresInput dN (fun X U (e : ℚ) => NlSpec.ineqOf (d := dN) (fun _ Y _ _ _ => Y 1 0 - 5) (some fun _ x _ _ _ => x 0) X U e 0) 0 0 ∧
    NlSpec.IgnoresSlack (fun X U (e : ℚ) => NlSpec.ineqOf (d := dN) (fun _ Y _ _ _ => Y 1 0 - 5) (some fun _ x _ _ _ => x 0) X U e 0) := by
  refine ⟨?_, ?_, ?_⟩
  · intro X X' U e h
    show X 1 0 - 5 = X' 1 0 - 5
    rw [h 1 0 (by rintro ⟨h, -⟩; exact absurd h (by decide))]
  · intro X U U' e h
    rfl
  · intro X U e e'
    rfl

/-- non-vacuity of `c111_dynamics`: component 0 of the model `x0' = x1, x1' = u` ignores the input, component 1 the states -/
example : NlSpec.ModelIgnoresInput (fun (x : FVec 2 ℚ) (u : FVec 1 ℚ) (_ : Nat) (a : Fin 2) => if a = 0 then x 1 else u 0) 0 0 ∧
    NlSpec.ModelIgnoresState (fun (x : FVec 2 ℚ) (u : FVec 1 ℚ) (_ : Nat) (a : Fin 2) => if a = 0 then x 1 else u 0) 1 0 :=
  ⟨fun _ _ _ _ _ => rfl, fun _ _ _ _ _ => rfl⟩

end Mpc.Props
