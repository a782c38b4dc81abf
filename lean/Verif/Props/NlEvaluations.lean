import Verif.Proofs.NlDetermined
import Verif.Props.NlDynamicsConstraints

/-
C42, C51, C53: outputs along the horizon, numerical differentiation of arbitrary user functions, and independence of
evaluations from earlier ones.
-/
namespace Mpc.Props
open Mpc Exec
set_option linter.unusedSectionVars false

variable {K : Type} [Field K] [LinearOrder K] [IsStrictOrderedRing K]

/-! ### C42 -/

/-- C42: after any history and for any sequences, the output sequence has in row `k` the user's last set output
function of row `k` of states and inputs with step index `k` (called on a zeroed vector); zero without a function. -/
theorem c42_outputs (d : Dims) (hd : HorizonsOk d) (junk : Nat → K) (cont : Bool) (Ts : K)
    (ops : List (NlOp d K)) (hf : ∀ o ∈ ops, NlSpec.OpFits d o) (s : NlState d K)
    (hr : NlState.run d junk cont Ts ops = .ok s) (X U : Mat K) (hX : X.rows = d.ph + 1 ∧ X.cols = d.nx)
    (hU : U.rows = d.ph + 1 ∧ U.cols = d.nu) :
    ∃ Y, s.M.getOutput X U = .ok Y ∧ Y.rows = d.ph + 1 ∧ Y.cols = d.ny ∧
      ∀ (k : Fin (d.ph + 1)) (i : Fin d.ny), Y.get k i =
        match (NlSpec.cfgOf d cont Ts ops).out with
        | none => 0
        | some g => g (fun _ => 0) (fun a => X.get k a) (fun b => U.get k b) k i := by
  have hs := NlState.run_holds hd.ch_pos hd.ch_le hd.ph_int junk cont Ts ops hf hr
  obtain ⟨Y, h1, h2, h3⟩ := s.M.getOutput_ok X U hd.ph_int hX hU
  refine ⟨Y, h1, h2.1, h2.2, fun k i => ?_⟩
  have := congrFun (congrFun h3 k) i
  rw [hs.out] at this
  refine this.trans ?_
  cases (NlSpec.cfgOf d cont Ts ops).out <;> rfl

/-- C42: the output sequence which the objective and the inequality constraints are given is that one. -/
theorem c42_user_functions_get_outputs (d : Dims) (hd : HorizonsOk d) (junk : Nat → K) (cont : Bool) (Ts : K)
    (ops : List (NlOp d K)) (hf : ∀ o ∈ ops, NlSpec.OpFits d o) (s : NlState d K)
    (hr : NlState.run d junk cont Ts ops = .ok s) (c : NlSpec.Cfg d K) (hc : c = NlSpec.cfgOf d cont Ts ops)
    (x0 : Nat → K) (hx0 : c.x0 = some x0) (z : Vec K) (hz : z.size = d.nZ) :
    ∃ (X : Traj (d.ph + 1) d.nx K) (U : Traj (d.ph + 1) d.nu K) (Y : Traj (d.ph + 1) d.ny K),
      (∀ k i, Y k i = match c.out with
        | none => 0
        | some g => g (fun _ => 0) (X k) (U k) k i) ∧
      (∀ f, c.obj = some f → ∀ g, ∃ r s', s.evalObj z g = .ok (r, s') ∧
        r.value = f X Y U (z.get (NlSpec.slackIx d))) ∧
      (∀ F, c.ineq = some F → ∀ j, ∃ r s', s.evalIneq z j = .ok (r, s') ∧
        ∀ i : Fin d.ineq, r.value.get i = F X Y U (z.get (NlSpec.slackIx d)) i) := by
  subst hc
  have hs := NlState.run_holds hd.ch_pos hd.ch_le hd.ph_int junk cont Ts ops hf hr
  generalize NlSpec.cfgOf d cont Ts ops = c at hs hx0
  have ho := hs.ox0 x0 hx0
  have hcx := hs.cx0 x0 hx0
  refine ⟨NlSpec.codeStates d c.stScale x0 z.get, NlSpec.inputs d c.inScale z.get,
    NlSpec.outputs c.out (NlSpec.codeStates d c.stScale x0 z.get) (NlSpec.inputs d c.inScale z.get),
    ?_, ?_, ?_⟩
  · intro k i; cases c.out <;> rfl
  · intro f hfo g
    obtain ⟨⟨r, s'⟩, e, v, -⟩ := NlState.evalObj_post hs hd.ph_int hfo z hz g
    rw [ho] at v
    exact ⟨r, s', e, v⟩
  · intro F hF j
    obtain ⟨⟨r, s'⟩, e, -, -, v, -⟩ := NlState.evalIneq_post hs hd.ph_int hF z hz j
    rw [hcx] at v
    exact ⟨r, s', e, v⟩

/-! ### C51 -/

/-- C51, objective: after any history and for every user function (linear or not), one trajectory `(X, U, e)` gives the
value, and every entry of the gradient is a difference quotient in which exactly one entry of that same trajectory is
moved (the two rows `ph-1` and `ph` of the last input together), all others being unperturbed. -/
theorem c51_objective_quotients (d : Dims) (hd : HorizonsOk d) (junk : Nat → K) (cont : Bool) (Ts : K)
    (ops : List (NlOp d K)) (hf : ∀ o ∈ ops, NlSpec.OpFits d o) (s : NlState d K)
    (hr : NlState.run d junk cont Ts ops = .ok s) (c : NlSpec.Cfg d K) (hc : c = NlSpec.cfgOf d cont Ts ops)
    (f : ObjFn d K) (hobj : c.obj = some f) (z : Vec K) (hz : z.size = d.nZ) :
    ∃ r s' G X U e hx hu he gx gu ge, s.evalObj z true = .ok (r, s') ∧ r.grad = some G ∧ G.size = d.nZ ∧
      r.value = NlSpec.costOf f c.out X U e ∧
      NlSpec.ObjDiff d (NlSpec.costOf f c.out) X U e hx hu he gx gu ge ∧
      NlSpec.RowOf d (fun _ => 1) c.inScale gx gu ge G.get := by
  subst hc
  have hs := NlState.run_holds hd.ch_pos hd.ch_le hd.ph_int junk cont Ts ops hf hr
  obtain ⟨⟨r, s'⟩, e, v, h⟩ := NlState.evalObj_post hs hd.ph_int hobj z hz true
  simp only [if_true] at h
  obtain ⟨G, gx, gu, ge, h1, h2, h3, h4⟩ := h
  exact ⟨r, s', G, _, _, _, _, _, _, gx, gu, ge, e, h1, h2, v, h3, h4⟩

/-- C51, inequality constraints -/
theorem c51_ineq_quotients (d : Dims) (hd : HorizonsOk d) (junk : Nat → K) (cont : Bool) (Ts : K)
    (ops : List (NlOp d K)) (hf : ∀ o ∈ ops, NlSpec.OpFits d o) (s : NlState d K)
    (hr : NlState.run d junk cont Ts ops = .ok s) (c : NlSpec.Cfg d K) (hc : c = NlSpec.cfgOf d cont Ts ops)
    (F : Traj (d.ph + 1) d.nx K → Traj (d.ph + 1) d.ny K → Traj (d.ph + 1) d.nu K → K → FVec d.ineq K)
    (hF : c.ineq = some F) (z : Vec K) (hz : z.size = d.nZ) (j : Nat → K) :
    ∃ r s' X U e hx hu he gx gu ge, s.evalIneq z j = .ok (r, s') ∧
      (∀ i : Fin d.ineq, r.value.get i = NlSpec.ineqOf F c.out X U e i) ∧
      NlSpec.ConDiff d d.ineq (NlSpec.ineqOf F c.out) X U e hx hu he false gx gu ge ∧
      ∀ i, i < d.ineq → NlSpec.RowOf d c.stScale c.inScale (gx i) (gu i) (ge i)
        (fun v => r.grad.get (i * d.nZ + v)) := by
  subst hc
  have hs := NlState.run_holds hd.ch_pos hd.ch_le hd.ph_int junk cont Ts ops hf hr
  obtain ⟨⟨r, s'⟩, e, -, -, v, gx, gu, ge, h3, h4⟩ := NlState.evalIneq_post hs hd.ph_int hF z hz j
  exact ⟨r, s', _, _, _, _, _, _, gx, gu, ge, e, v, h3, h4⟩

/-- C51, equality constraints -/
theorem c51_eq_quotients (d : Dims) (hd : HorizonsOk d) (junk : Nat → K) (cont : Bool) (Ts : K)
    (ops : List (NlOp d K)) (hf : ∀ o ∈ ops, NlSpec.OpFits d o) (s : NlState d K)
    (hr : NlState.run d junk cont Ts ops = .ok s) (c : NlSpec.Cfg d K) (hc : c = NlSpec.cfgOf d cont Ts ops)
    (F : Traj (d.ph + 1) d.nx K → Traj (d.ph + 1) d.nu K → FVec d.eq K)
    (hF : c.eq = some F) (z : Vec K) (hz : z.size = d.nZ) (j : Nat → K) :
    ∃ r s' X U e hx hu he gx gu, s.evalEq z j = .ok (r, s') ∧
      (∀ i : Fin d.eq, r.value.get i = F X U i) ∧
      NlSpec.ConDiff d d.eq (fun X U _ => F X U) X U e hx hu he true gx gu (fun _ => 0) ∧
      ∀ i, i < d.eq → NlSpec.RowOf d c.stScale c.inScale (gx i) (gu i) 0
        (fun v => r.grad.get (i * d.nZ + v)) := by
  subst hc
  have hs := NlState.run_holds hd.ch_pos hd.ch_le hd.ph_int junk cont Ts ops hf hr
  obtain ⟨⟨r, s'⟩, e, -, -, v, gx, gu, h3, h4⟩ := NlState.evalEq_post hs hF z hz j
  exact ⟨r, s', _, _, _, _, _, _, gx, gu, e, v, h3, h4⟩

/-- C51, model equations: value and gradient rows at the same sequences, the gradient made of central difference
quotients of the user's model at exactly those states and inputs -/
theorem c51_dynamics_quotients (d : Dims) (hd : HorizonsOk d) (junk : Nat → K) (cont : Bool) (Ts : K)
    (ops : List (NlOp d K)) (hf : ∀ o ∈ ops, NlSpec.OpFits d o) (s : NlState d K)
    (hr : NlState.run d junk cont Ts ops = .ok s) (c : NlSpec.Cfg d K) (hc : c = NlSpec.cfgOf d cont Ts ops)
    (F : FVec d.nx K → FVec d.nu K → Nat → FVec d.nx K) (hF : c.field = some F) (z : Vec K) (hz : z.size = d.nZ)
    (j : Nat → K) :
    ∃ r s' X U t, 0 < t ∧ s.evalDyn z true j = .ok (r, s') ∧
      ∀ (k : Fin d.ph) (a : Fin d.nx),
        r.value.get (k * d.nx + a) = NlSpec.residual c.cont c.Ts c.stScale F X U k a ∧
        NlSpec.DynRow d t c.cont c.Ts c.stScale c.inScale F X U k a
          (fun v => r.grad.get ((k * d.nx + a) * d.nZ + v)) := by
  subst hc
  have hs := NlState.run_holds hd.ch_pos hd.ch_le hd.ph_int junk cont Ts ops hf hr
  obtain ⟨⟨r, s'⟩, e, -, -, h⟩ := NlState.evalDyn_traj hs hd.ph_int hF z hz true j
  exact ⟨r, s', _, _, _, Constraints.dv_pos, e, fun k a => ⟨(h k a).1, (h k a).2 rfl⟩⟩

/-! ### C53 -/

/-- Two histories of setters and evaluations, on objects created with different memory contents, which end in the same
configuration with the same measured state. -/
structure SameCfg (d : Dims) (c : NlSpec.Cfg d K) (s1 s2 : NlState d K) : Prop where
  first : ∃ junk cont Ts ops, (∀ o ∈ ops, NlSpec.OpFits d o) ∧ NlState.run d junk cont Ts ops = .ok s1 ∧
    NlSpec.cfgOf d cont Ts ops = c
  second : ∃ junk cont Ts ops, (∀ o ∈ ops, NlSpec.OpFits d o) ∧ NlState.run d junk cont Ts ops = .ok s2 ∧
    NlSpec.cfgOf d cont Ts ops = c
  measured : ∃ x0, c.x0 = some x0

/-- two states of the evaluation objects with the same settings and the same measured state -/
def Both (c : NlSpec.Cfg d K) (s1 s2 : NlState d K) : Prop :=
  s1.Holds c ∧ s2.Holds c ∧ s1.obj.x0.get = s2.obj.x0.get ∧ s1.con.x0.get = s2.con.x0.get

theorem SameCfg.holds {d : Dims} (hd : HorizonsOk d) {c : NlSpec.Cfg d K} {s1 s2 : NlState d K} (h : SameCfg d c s1 s2) :
    Both c s1 s2 := by
  obtain ⟨j1, c1, t1, o1, f1, r1, e1⟩ := h.first
  obtain ⟨j2, c2, t2, o2, f2, r2, e2⟩ := h.second
  obtain ⟨x0, hx⟩ := h.measured
  have h1 := NlState.run_holds hd.ch_pos hd.ch_le hd.ph_int j1 c1 t1 o1 f1 r1
  have h2 := NlState.run_holds hd.ch_pos hd.ch_le hd.ph_int j2 c2 t2 o2 f2 r2
  rw [e1] at h1
  rw [e2] at h2
  exact ⟨h1, h2, (h1.ox0 x0 hx).trans (h2.ox0 x0 hx).symm, (h1.cx0 x0 hx).trans (h2.cx0 x0 hx).symm⟩

/-- the same for any two states with the same settings -/
theorem both_objective (d : Dims) (hd : HorizonsOk d) (c : NlSpec.Cfg d K) (s1 s2 : NlState d K)
    (h : Both c s1 s2) (f : ObjFn d K) (hf : c.obj = some f) (z : Vec K) (hz : z.size = d.nZ) (g : Bool) :
    ∃ r1 r2 t1 t2, s1.evalObj z g = .ok (r1, t1) ∧ s2.evalObj z g = .ok (r2, t2) ∧ r1.value = r2.value ∧
      (g = true → ∃ G1 G2, r1.grad = some G1 ∧ r2.grad = some G2 ∧ G1.size = d.nZ ∧ G2.size = d.nZ ∧
        NlSpec.Agree d.nZ G1.get G2.get) := by
  obtain ⟨h1, h2, hx, -⟩ := h
  obtain ⟨⟨r1, t1⟩, e1, v1, g1⟩ := NlState.evalObj_post h1 hd.ph_int hf z hz g
  obtain ⟨⟨r2, t2⟩, e2, v2, g2⟩ := NlState.evalObj_post h2 hd.ph_int hf z hz g
  rw [hx] at v1 g1
  refine ⟨r1, r2, t1, t2, e1, e2, v1.trans v2.symm, ?_⟩
  intro hg
  rw [if_pos hg] at g1 g2
  obtain ⟨G1, gx, gu, ge, a1, a2, a3, a4⟩ := g1
  obtain ⟨G2, gx', gu', ge', b1, b2, b3, b4⟩ := g2
  obtain ⟨q1, q2, q3⟩ := a3.unique b3
  exact ⟨G1, G2, a1, b1, a2, b2, a4.unique b4 q1 q2 q3⟩

/-- C53, objective: the value and every entry of the gradient agree. -/
theorem c53_objective_independent (d : Dims) (hd : HorizonsOk d) (c : NlSpec.Cfg d K) (s1 s2 : NlState d K)
    (h : SameCfg d c s1 s2) (f : ObjFn d K) (hf : c.obj = some f) (z : Vec K) (hz : z.size = d.nZ) (g : Bool) :
    ∃ r1 r2 t1 t2, s1.evalObj z g = .ok (r1, t1) ∧ s2.evalObj z g = .ok (r2, t2) ∧ r1.value = r2.value ∧
      (g = true → ∃ G1 G2, r1.grad = some G1 ∧ r2.grad = some G2 ∧ G1.size = d.nZ ∧ G2.size = d.nZ ∧
        NlSpec.Agree d.nZ G1.get G2.get) :=
  both_objective d hd c s1 s2 (h.holds hd) f hf z hz g

/-- values and gradient of two constraint evaluations agree -/
structure SameCost (n N : Nat) (r1 r2 : ConCost K) : Prop where
  size1 : r1.value.size = n
  size2 : r2.value.size = n
  value : NlSpec.Agree n r1.value.get r2.value.get
  grad : NlSpec.Agree (n * N) r1.grad.get r2.grad.get

theorem agree_rows {n N : Nat} {g g' : Nat → K}
    (h : ∀ i, i < n → NlSpec.Agree N (fun v => g (i * N + v)) (fun v => g' (i * N + v))) :
    NlSpec.Agree (n * N) g g' := by
  intro i hi
  obtain ⟨k, a, hk, ha, rfl⟩ := exists_block hi
  exact h k hk a ha

/-- the same for any two states with the same settings -/
theorem both_ineq (d : Dims) (hd : HorizonsOk d) (c : NlSpec.Cfg d K) (s1 s2 : NlState d K)
    (h : Both c s1 s2) (z : Vec K) (hz : z.size = d.nZ) (j1 j2 : Nat → K) :
    ∃ r1 r2 t1 t2, s1.evalIneq z j1 = .ok (r1, t1) ∧ s2.evalIneq z j2 = .ok (r2, t2) ∧
      SameCost d.ineq d.nZ r1 r2 := by
  obtain ⟨h1, h2, -, hx⟩ := h
  cases hF : c.ineq with
  | some F =>
    obtain ⟨⟨r1, t1⟩, e1, n1, -, v1, gx, gu, ge, a3, a4⟩ := NlState.evalIneq_post h1 hd.ph_int hF z hz j1
    obtain ⟨⟨r2, t2⟩, e2, n2, -, v2, gx', gu', ge', b3, b4⟩ := NlState.evalIneq_post h2 hd.ph_int hF z hz j2
    rw [hx] at v1 a3
    refine ⟨r1, r2, t1, t2, e1, e2, n1, n2, fun i hi => (v1 ⟨i, hi⟩).trans (v2 ⟨i, hi⟩).symm, agree_rows ?_⟩
    intro i hi
    obtain ⟨q1, q2, q3⟩ := a3.unique b3 ⟨i, hi⟩
    exact (a4 i hi).unique (b4 i hi) q1 q2 q3
  | none =>
    have f1 : s1.con.ieqUser = none := by rw [h1.ineq, hF]; rfl
    have f2 : s2.con.ieqUser = none := by rw [h2.ineq, hF]; rfl
    obtain ⟨⟨r1, t1⟩, e1, -, -, -, -, n1, v1, g1⟩ :=
      Constraints.evaluateIneq_none s1.con h1.csz f1 s1.mp h1.good h1.dims s1.M j1 z hz
    obtain ⟨⟨r2, t2⟩, e2, -, -, -, -, n2, v2, g2⟩ :=
      Constraints.evaluateIneq_none s2.con h2.csz f2 s2.mp h2.good h2.dims s2.M j2 z hz
    refine ⟨r1, r2, _, _, by unfold NlState.evalIneq; rw [e1]; rfl, by unfold NlState.evalIneq; rw [e2]; rfl, n1, n2,
      fun i _ => (v1 i).trans (v2 i).symm, fun i _ => (g1 i).trans (g2 i).symm⟩

/-- C53, inequality constraints, with or without a user function -/
theorem c53_ineq_independent (d : Dims) (hd : HorizonsOk d) (c : NlSpec.Cfg d K) (s1 s2 : NlState d K)
    (h : SameCfg d c s1 s2) (z : Vec K) (hz : z.size = d.nZ) (j1 j2 : Nat → K) :
    ∃ r1 r2 t1 t2, s1.evalIneq z j1 = .ok (r1, t1) ∧ s2.evalIneq z j2 = .ok (r2, t2) ∧
      SameCost d.ineq d.nZ r1 r2 :=
  both_ineq d hd c s1 s2 (h.holds hd) z hz j1 j2

/-- the same for any two states with the same settings -/
theorem both_eq (d : Dims) (hd : HorizonsOk d) (c : NlSpec.Cfg d K) (s1 s2 : NlState d K)
    (h : Both c s1 s2) (z : Vec K) (hz : z.size = d.nZ) (j1 j2 : Nat → K) :
    ∃ r1 r2 t1 t2, s1.evalEq z j1 = .ok (r1, t1) ∧ s2.evalEq z j2 = .ok (r2, t2) ∧
      SameCost d.eq d.nZ r1 r2 := by
  obtain ⟨h1, h2, -, hx⟩ := h
  cases hF : c.eq with
  | some F =>
    obtain ⟨⟨r1, t1⟩, e1, n1, -, v1, gx, gu, a3, a4⟩ := NlState.evalEq_post h1 hF z hz j1
    obtain ⟨⟨r2, t2⟩, e2, n2, -, v2, gx', gu', b3, b4⟩ := NlState.evalEq_post h2 hF z hz j2
    rw [hx] at v1 a3
    refine ⟨r1, r2, t1, t2, e1, e2, n1, n2, fun i hi => (v1 ⟨i, hi⟩).trans (v2 ⟨i, hi⟩).symm, agree_rows ?_⟩
    intro i hi
    obtain ⟨q1, q2, q3⟩ := a3.unique b3 ⟨i, hi⟩
    exact (a4 i hi).unique (b4 i hi) q1 q2 rfl
  | none =>
    have f1 : s1.con.eqUser = none := by rw [h1.eq, hF]; rfl
    have f2 : s2.con.eqUser = none := by rw [h2.eq, hF]; rfl
    obtain ⟨⟨r1, t1⟩, e1, -, -, -, -, n1, v1, g1⟩ :=
      Constraints.evaluateEq_none s1.con h1.csz f1 s1.mp h1.good h1.dims j1 z hz
    obtain ⟨⟨r2, t2⟩, e2, -, -, -, -, n2, v2, g2⟩ :=
      Constraints.evaluateEq_none s2.con h2.csz f2 s2.mp h2.good h2.dims j2 z hz
    refine ⟨r1, r2, _, _, by unfold NlState.evalEq; rw [e1]; rfl, by unfold NlState.evalEq; rw [e2]; rfl, n1, n2,
      fun i _ => (v1 i).trans (v2 i).symm, fun i _ => (g1 i).trans (g2 i).symm⟩

/-- C53, equality constraints, with or without a user function -/
theorem c53_eq_independent (d : Dims) (hd : HorizonsOk d) (c : NlSpec.Cfg d K) (s1 s2 : NlState d K)
    (h : SameCfg d c s1 s2) (z : Vec K) (hz : z.size = d.nZ) (j1 j2 : Nat → K) :
    ∃ r1 r2 t1 t2, s1.evalEq z j1 = .ok (r1, t1) ∧ s2.evalEq z j2 = .ok (r2, t2) ∧
      SameCost d.eq d.nZ r1 r2 :=
  both_eq d hd c s1 s2 (h.holds hd) z hz j1 j2

/-- the same for any two states with the same settings -/
theorem both_dynamics (d : Dims) (hd : HorizonsOk d) (c : NlSpec.Cfg d K) (s1 s2 : NlState d K)
    (h : Both c s1 s2) (F : FVec d.nx K → FVec d.nu K → Nat → FVec d.nx K) (hF : c.field = some F)
    (z : Vec K) (hz : z.size = d.nZ) (g : Bool) (j1 j2 : Nat → K) :
    ∃ r1 r2 t1 t2, s1.evalDyn z g j1 = .ok (r1, t1) ∧ s2.evalDyn z g j2 = .ok (r2, t2) ∧
      r1.value.size = d.ph * d.nx ∧ r2.value.size = d.ph * d.nx ∧
      NlSpec.Agree (d.ph * d.nx) r1.value.get r2.value.get ∧
      (g = true → NlSpec.Agree (d.ph * d.nx * d.nZ) r1.grad.get r2.grad.get) := by
  obtain ⟨h1, h2, -, hx⟩ := h
  obtain ⟨⟨r1, t1⟩, e1, n1, -, v1⟩ := NlState.evalDyn_traj h1 hd.ph_int hF z hz g j1
  obtain ⟨⟨r2, t2⟩, e2, n2, -, v2⟩ := NlState.evalDyn_traj h2 hd.ph_int hF z hz g j2
  rw [hx] at v1
  refine ⟨r1, r2, t1, t2, e1, e2, n1, n2, ?_, fun hg => agree_rows ?_⟩
  · intro i hi
    obtain ⟨k, a, hk, ha, rfl⟩ := exists_block hi
    exact (v1 ⟨k, hk⟩ ⟨a, ha⟩).1.trans (v2 ⟨k, hk⟩ ⟨a, ha⟩).1.symm
  · intro i hi
    obtain ⟨k, a, hk, ha, rfl⟩ := exists_block hi
    exact ((v1 ⟨k, hk⟩ ⟨a, ha⟩).2 hg).unique ((v2 ⟨k, hk⟩ ⟨a, ha⟩).2 hg)

/-- C53, model equations (the gradient only when the solver asks for it; otherwise it is not copied back,
NLOptimizer.hpp:753-775) -/
theorem c53_dynamics_independent (d : Dims) (hd : HorizonsOk d) (c : NlSpec.Cfg d K) (s1 s2 : NlState d K)
    (h : SameCfg d c s1 s2) (F : FVec d.nx K → FVec d.nu K → Nat → FVec d.nx K) (hF : c.field = some F)
    (z : Vec K) (hz : z.size = d.nZ) (g : Bool) (j1 j2 : Nat → K) :
    ∃ r1 r2 t1 t2, s1.evalDyn z g j1 = .ok (r1, t1) ∧ s2.evalDyn z g j2 = .ok (r2, t2) ∧
      r1.value.size = d.ph * d.nx ∧ r2.value.size = d.ph * d.nx ∧
      NlSpec.Agree (d.ph * d.nx) r1.value.get r2.value.get ∧
      (g = true → NlSpec.Agree (d.ph * d.nx * d.nZ) r1.grad.get r2.grad.get) :=
  both_dynamics d hd c s1 s2 (h.holds hd) F hF z hz g j1 j2

/-! ### Non-vacuity -/

/-- a nonlinear objective, an output map, scalings, a measured state, then evaluations at another point -/
def opsV53 (z : Vec ℚ) : List (NlOp dV ℚ) :=
  opsV ++ [.outFn (fun _ x u _ _ => x (0 : Fin 2) * u (0 : Fin 1)),
    .objFn (fun X Y U e => X (2 : Fin 3) (1 : Fin 2) ^ 2 + Y (1 : Fin 3) (0 : Fin 1) * U (2 : Fin 3) (0 : Fin 1) + e)]
    ++ [.evalObj z true]

theorem opsV53_fits (z : Vec ℚ) (hz : z.size = dV.nZ) : ∀ o ∈ opsV53 z, NlSpec.OpFits dV o := by
  intro o ho
  simp only [opsV53, List.mem_append] at ho
  rcases ho with (ho | ho) | ho
  · exact opsV_fits o ho
  · simp only [List.mem_cons, List.not_mem_nil, or_false] at ho
    rcases ho with rfl | rfl <;> trivial
  · simp only [List.mem_cons, List.not_mem_nil, or_false] at ho
    subst ho
    exact hz

theorem opsV53_run (j : Nat → ℚ) (z : Vec ℚ) (hz : z.size = dV.nZ) :
    ∃ s, NlState.run dV j false 1 (opsV53 z) = .ok s := by
  have hset : ∀ o ∈ opsV ++ [NlOp.outFn (fun _ x u _ _ => x (0 : Fin 2) * u (0 : Fin 1)),
      .objFn (fun X Y U e => X (2 : Fin 3) (1 : Fin 2) ^ 2
        + Y (1 : Fin 3) (0 : Fin 1) * U (2 : Fin 3) (0 : Fin 1) + e)], NlSpec.OpFits dV o :=
    fun o ho => opsV53_fits z hz o (by simp only [opsV53]; exact List.mem_append_left _ ho)
  obtain ⟨s, hs⟩ := NlState.run_setters dV_ok.ch_pos dV_ok.ch_le dV_ok.ph_int j false 1 _ hset (by
    intro o ho
    simp only [opsV, List.mem_append, List.mem_cons, List.not_mem_nil, or_false] at ho
    rcases ho with (rfl | rfl | rfl | rfl | rfl | rfl) | rfl | rfl <;> trivial)
  have hh := NlState.run_holds dV_ok.ch_pos dV_ok.ch_le dV_ok.ph_int _ _ _ _ hset hs
  obtain ⟨⟨r, s'⟩, e, -⟩ := NlState.evalObj_post hh dV_ok.ph_int rfl z hz true
  refine ⟨s', ?_⟩
  unfold NlState.run at hs ⊢
  rw [opsV53, List.foldl_append, hs]
  simp only [List.foldl_cons, List.foldl_nil, ok_bind, NlState.exec]
  rw [e]
  rfl

/-- two different histories (different memory, different points evaluated before) meet the hypotheses of C53, with a
nonlinear objective, which also meets those of C42 and C51 -/
example : ∃ s1 s2 : NlState dV ℚ,
    SameCfg dV (NlSpec.cfgOf dV false 1 (opsV53 ⟨dV.nZ, fun _ => 0⟩)) s1 s2 ∧
    ∃ f, (NlSpec.cfgOf dV false (1 : ℚ) (opsV53 ⟨dV.nZ, fun _ => 0⟩)).obj = some f := by
  obtain ⟨s1, h1⟩ := opsV53_run (fun _ => 0) ⟨dV.nZ, fun _ => 0⟩ rfl
  obtain ⟨s2, h2⟩ := opsV53_run (fun i => i) ⟨dV.nZ, fun i => 3 * i⟩ rfl
  exact ⟨s1, s2, ⟨⟨_, _, _, _, opsV53_fits _ rfl, h1, rfl⟩, ⟨_, _, _, _, opsV53_fits _ rfl, h2, rfl⟩, ⟨_, rfl⟩⟩, _, rfl⟩

end Mpc.Props
