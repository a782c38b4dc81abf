import Verif.Proofs.NlDynamics
import Verif.Spec.NlCfg

/-
Every history of operations leaves the objects in a state described by its configuration.
-/
namespace Mpc
open Exec
set_option linter.unusedSectionVars false

variable {d : Dims} {K : Type} [Field K] [LinearOrder K] [IsStrictOrderedRing K]

/-- the objects hold configuration `c` -/
structure NlState.Holds (s : NlState d K) (c : NlSpec.Cfg d K) : Prop where
  good : s.mp.Good
  dims : s.mp.dims = d
  inS : s.mp.inputScaling.get = c.inScale
  stS : s.mp.stateScaling.get = c.stScale
  cont : s.M.continuous = c.cont
  Ts : s.M.Ts = c.Ts
  field : s.M.vectorField = c.field.map (fun F _ => F)
  out : s.M.outUser = c.out
  obj : s.obj.fuser = c.obj
  ineq : s.con.ieqUser = c.ineq.map (fun F _ => F)
  eq : s.con.eqUser = c.eq.map (fun F _ => F)
  osz : s.obj.Sized
  csz : s.con.Sized
  ox0 : ∀ x, c.x0 = some x → s.obj.x0.get = x
  cx0 : ∀ x, c.x0 = some x → s.con.x0.get = x

namespace Constraints

/-- an evaluation of the inequality constraints with no user function -/
theorem evaluateIneq_none (o : Constraints d K) (ho : o.Sized) (hf : o.ieqUser = none) (mp : Mapping K) (hm : mp.Good)
    (hd : mp.dims = d) (M : NlModel d K) (junk : Nat → K) (x : Vec K) (hx : x.size = d.nZ) :
    Post (o.evaluateIneq mp M junk x) (fun r => r.2.Sized ∧ r.2.x0 = o.x0 ∧ r.2.ieqUser = o.ieqUser ∧
      r.2.eqUser = o.eqUser ∧ r.1.value.size = d.ineq ∧ (∀ i, r.1.value.get i = 0) ∧ (∀ i, r.1.grad.get i = 0)) := by
  subst hd
  unfold evaluateIneq
  dsimp only
  refine Post.bind (Mapping.unwrapVector_post mp hm x o.x0 o.Xmat o.Umat hx ho.x0 ho.X.1 ho.X.2 ho.U.1 ho.U.2) ?_
  rintro ⟨X, U, e⟩ hw
  have hXs : X.Is (mp.dims.ph + 1) mp.dims.nx := ⟨hw.xr, hw.xc⟩
  have hUs : U.Is (mp.dims.ph + 1) mp.dims.nu := ⟨hw.ur, hw.uc⟩
  rw [hf]
  dsimp only
  exact post_pure ⟨⟨ho.x0, hXs, hUs, ho.ceq, ho.Jceq, ho.ci, ho.Ji, ho.ce, ho.Je⟩, rfl, rfl, rfl, ho.ci,
    fun _ => rfl, fun _ => rfl⟩

/-- an evaluation of the equality constraints with no user function -/
theorem evaluateEq_none (o : Constraints d K) (ho : o.Sized) (hf : o.eqUser = none) (mp : Mapping K) (hm : mp.Good)
    (hd : mp.dims = d) (junk : Nat → K) (x : Vec K) (hx : x.size = d.nZ) :
    Post (o.evaluateEq mp junk x) (fun r => r.2.Sized ∧ r.2.x0 = o.x0 ∧ r.2.ieqUser = o.ieqUser ∧
      r.2.eqUser = o.eqUser ∧ r.1.value.size = d.eq ∧ (∀ i, r.1.value.get i = 0) ∧ (∀ i, r.1.grad.get i = 0)) := by
  subst hd
  unfold evaluateEq
  dsimp only
  refine Post.bind (Mapping.unwrapVector_post mp hm x o.x0 o.Xmat o.Umat hx ho.x0 ho.X.1 ho.X.2 ho.U.1 ho.U.2) ?_
  rintro ⟨X, U, e⟩ hw
  have hXs : X.Is (mp.dims.ph + 1) mp.dims.nx := ⟨hw.xr, hw.xc⟩
  have hUs : U.Is (mp.dims.ph + 1) mp.dims.nu := ⟨hw.ur, hw.uc⟩
  rw [hf]
  dsimp only
  exact post_pure ⟨⟨ho.x0, hXs, hUs, ho.ceq, ho.Jceq, ho.ci, ho.Ji, ho.ce, ho.Je⟩, rfl, rfl, rfl, ho.ce,
    fun _ => rfl, fun _ => rfl⟩

/-- evaluations never change the user functions -/
theorem evaluateIneq_keeps (o : Constraints d K) (mp : Mapping K) (M : NlModel d K) (junk : Nat → K) (x : Vec K)
    {r : ConCost K × Constraints d K} (h : o.evaluateIneq mp M junk x = .ok r) :
    r.2.ieqUser = o.ieqUser ∧ r.2.eqUser = o.eqUser := by
  unfold evaluateIneq at h
  dsimp only at h
  obtain ⟨w, -, h⟩ := bind_eq_ok.1 h
  cases hf : o.ieqUser with
  | none =>
    rw [hf] at h
    dsimp only at h
    cases h
    exact ⟨rfl, rfl⟩
  | some f =>
    rw [hf] at h
    dsimp only at h
    obtain ⟨v, -, h⟩ := bind_eq_ok.1 h
    obtain ⟨J, -, h⟩ := bind_eq_ok.1 h
    obtain ⟨G, -, h⟩ := bind_eq_ok.1 h
    obtain ⟨G', -, h⟩ := bind_eq_ok.1 h
    cases h
    exact ⟨rfl, rfl⟩

theorem evaluateEq_keeps (o : Constraints d K) (mp : Mapping K) (junk : Nat → K) (x : Vec K)
    {r : ConCost K × Constraints d K} (h : o.evaluateEq mp junk x = .ok r) :
    r.2.ieqUser = o.ieqUser ∧ r.2.eqUser = o.eqUser := by
  unfold evaluateEq at h
  dsimp only at h
  obtain ⟨w, -, h⟩ := bind_eq_ok.1 h
  cases hf : o.eqUser with
  | none =>
    rw [hf] at h
    dsimp only at h
    cases h
    exact ⟨rfl, rfl⟩
  | some f =>
    rw [hf] at h
    dsimp only at h
    obtain ⟨v, -, h⟩ := bind_eq_ok.1 h
    obtain ⟨J, -, h⟩ := bind_eq_ok.1 h
    obtain ⟨G, -, h⟩ := bind_eq_ok.1 h
    obtain ⟨G', -, h⟩ := bind_eq_ok.1 h
    cases h
    exact ⟨rfl, rfl⟩

theorem evaluateStateModelEq_keeps (o : Constraints d K) (mp : Mapping K) (M : NlModel d K) (junk : Nat → K)
    (x : Vec K) (g : Bool) {r : ConCost K × Constraints d K} (h : o.evaluateStateModelEq mp M junk x g = .ok r) :
    r.2.ieqUser = o.ieqUser ∧ r.2.eqUser = o.eqUser := by
  unfold evaluateStateModelEq at h
  dsimp only at h
  obtain ⟨w, -, h⟩ := bind_eq_ok.1 h
  obtain ⟨v, -, h⟩ := bind_eq_ok.1 h
  cases h
  exact ⟨rfl, rfl⟩

theorem evaluateStateModelEq_needs_model (o : Constraints d K) (mp : Mapping K) (M : NlModel d K)
    (hM : M.vectorField = none) (junk : Nat → K)
    (x : Vec K) (g : Bool) {r : ConCost K × Constraints d K} (h : o.evaluateStateModelEq mp M junk x g = .ok r) :
    d.ph = 0 := by
  have hcall : ∀ (buf : FVec d.nx K) x u p, M.callState buf x u p = .error .cppThrow := by
    intro buf x u p
    unfold NlModel.callState
    rw [hM]
  unfold evaluateStateModelEq at h
  dsimp only at h
  obtain ⟨w, -, h⟩ := bind_eq_ok.1 h
  obtain ⟨v, hv, -⟩ := bind_eq_ok.1 h
  unfold getStateEqConstraints at hv
  dsimp only at hv
  obtain ⟨t, ht, -⟩ := bind_eq_ok.1 hv
  have := forFrom_inv (fun i _ => i = 0) rfl ?_ ht
  · simpa using this
  · intro i t t' _ _ _ hs
    exfalso
    split_ifs at hs
    · unfold stepContinuous at hs
      dsimp only at hs
      obtain ⟨_, _, hs⟩ := bind_eq_ok.1 hs
      obtain ⟨_, _, hs⟩ := bind_eq_ok.1 hs
      obtain ⟨_, _, hs⟩ := bind_eq_ok.1 hs
      rw [hcall] at hs
      cases hs
    · unfold stepDiscrete at hs
      dsimp only at hs
      obtain ⟨_, _, hs⟩ := bind_eq_ok.1 hs
      obtain ⟨_, _, hs⟩ := bind_eq_ok.1 hs
      rw [hcall] at hs
      cases hs

end Constraints

namespace NlState

theorem evalObj_holds {s : NlState d K} {c : NlSpec.Cfg d K} (h : s.Holds c) (hp : d.ph < 2 ^ 31) {z : Vec K}
    (hz : z.size = d.nZ) {g : Bool} {r : ObjCost K × NlState d K} (hr : s.evalObj z g = .ok r) : r.2.Holds c := by
  unfold evalObj at hr
  obtain ⟨q, hq, hr⟩ := bind_eq_ok.1 hr
  cases hr
  cases hf : s.obj.fuser with
  | none =>
    exfalso
    unfold Objective.evaluate at hq
    dsimp only at hq
    obtain ⟨w, -, hq⟩ := bind_eq_ok.1 hq
    rw [hf] at hq
    obtain ⟨v, hv, -⟩ := bind_eq_ok.1 hq
    unfold Objective.callObj at hv
    obtain ⟨Y, -, hv⟩ := bind_eq_ok.1 hv
    cases hv
  | some f =>
    obtain ⟨h1, h2, h3, -⟩ := (Objective.evaluate_post s.obj h.osz f hf s.mp h.good h.dims s.M z hz hp g).of_eq hq
    exact ⟨h.good, h.dims, h.inS, h.stS, h.cont, h.Ts, h.field, h.out, h2.trans h.obj, h.ineq, h.eq, h1, h.csz,
      fun x hx => by dsimp only; rw [h3]; exact h.ox0 x hx, h.cx0⟩

theorem evalIneq_holds {s : NlState d K} {c : NlSpec.Cfg d K} (h : s.Holds c) (hp : d.ph < 2 ^ 31) {z : Vec K}
    (hz : z.size = d.nZ) {junk : Nat → K} {r : ConCost K × NlState d K} (hr : s.evalIneq z junk = .ok r) :
    r.2.Holds c := by
  unfold evalIneq at hr
  obtain ⟨q, hq, hr⟩ := bind_eq_ok.1 hr
  cases hr
  have hk := Constraints.evaluateIneq_keeps _ _ _ _ _ hq
  have : q.2.Sized ∧ q.2.x0 = s.con.x0 := by
    cases hf : c.ineq with
    | none =>
      have hf' : s.con.ieqUser = none := by rw [h.ineq, hf]; rfl
      obtain ⟨h1, h2, -⟩ :=
        (Constraints.evaluateIneq_none s.con h.csz hf' s.mp h.good h.dims s.M junk z hz).of_eq hq
      exact ⟨h1, h2⟩
    | some F =>
      have hf' : s.con.ieqUser = some fun _ => F := by rw [h.ineq, hf]; rfl
      obtain ⟨h1, h2, -⟩ := (Constraints.evaluateIneq_post s.con h.csz _ hf' F (fun _ _ _ _ _ => rfl) s.mp h.good
        h.dims s.M junk z hz hp).of_eq hq
      exact ⟨h1, h2⟩
  exact ⟨h.good, h.dims, h.inS, h.stS, h.cont, h.Ts, h.field, h.out, h.obj, hk.1.trans h.ineq, hk.2.trans h.eq, h.osz,
    this.1, h.ox0, fun x hx => by dsimp only; rw [this.2]; exact h.cx0 x hx⟩

theorem evalEq_holds {s : NlState d K} {c : NlSpec.Cfg d K} (h : s.Holds c) {z : Vec K}
    (hz : z.size = d.nZ) {junk : Nat → K} {r : ConCost K × NlState d K} (hr : s.evalEq z junk = .ok r) :
    r.2.Holds c := by
  unfold evalEq at hr
  obtain ⟨q, hq, hr⟩ := bind_eq_ok.1 hr
  cases hr
  have hk := Constraints.evaluateEq_keeps _ _ _ _ hq
  have : q.2.Sized ∧ q.2.x0 = s.con.x0 := by
    cases hf : c.eq with
    | none =>
      have hf' : s.con.eqUser = none := by rw [h.eq, hf]; rfl
      obtain ⟨h1, h2, -⟩ :=
        (Constraints.evaluateEq_none s.con h.csz hf' s.mp h.good h.dims junk z hz).of_eq hq
      exact ⟨h1, h2⟩
    | some F =>
      have hf' : s.con.eqUser = some fun _ => F := by rw [h.eq, hf]; rfl
      obtain ⟨h1, h2, -⟩ := (Constraints.evaluateEq_post s.con h.csz _ hf' F (fun _ _ _ => rfl) s.mp h.good
        h.dims junk z hz).of_eq hq
      exact ⟨h1, h2⟩
  exact ⟨h.good, h.dims, h.inS, h.stS, h.cont, h.Ts, h.field, h.out, h.obj, hk.1.trans h.ineq, hk.2.trans h.eq, h.osz,
    this.1, h.ox0, fun x hx => by dsimp only; rw [this.2]; exact h.cx0 x hx⟩

theorem evalDyn_holds {s : NlState d K} {c : NlSpec.Cfg d K} (h : s.Holds c) (hp : d.ph < 2 ^ 31) {z : Vec K}
    (hz : z.size = d.nZ) {g : Bool} {junk : Nat → K} {r : ConCost K × NlState d K}
    (hr : s.evalDyn z g junk = .ok r) : r.2.Holds c := by
  have hpos : 0 < d.ph := by have h1 := h.good.ch_pos; have h2 := h.good.ch_le; rw [h.dims] at h1 h2; omega
  unfold evalDyn at hr
  obtain ⟨q, hq, hr⟩ := bind_eq_ok.1 hr
  cases hr
  have hk := Constraints.evaluateStateModelEq_keeps _ _ _ _ _ _ hq
  have : q.2.Sized ∧ q.2.x0 = s.con.x0 := by
    cases hf : c.field with
    | none =>
      exfalso
      have hf' : s.M.vectorField = none := by rw [h.field, hf]; rfl
      have := Constraints.evaluateStateModelEq_needs_model s.con s.mp s.M hf' junk z g hq
      omega
    | some F =>
      have hf' : s.M.vectorField = some fun _ => F := by rw [h.field, hf]; rfl
      obtain ⟨h1, h2, -⟩ := (Constraints.evaluateStateModelEq_post s.con h.csz s.mp h.good h.dims s.M _ hf' F
        (fun _ _ _ _ => rfl) junk z hz hp g).of_eq hq
      exact ⟨h1, h2⟩
  exact ⟨h.good, h.dims, h.inS, h.stS, h.cont, h.Ts, h.field, h.out, h.obj, hk.1.trans h.ineq, hk.2.trans h.eq, h.osz,
    this.1, h.ox0, fun x hx => by dsimp only; rw [this.2]; exact h.cx0 x hx⟩

theorem init_holds (hch : 0 < d.ch) (hle : d.ch ≤ d.ph) (hp : d.ph < 2 ^ 31) (junk : Nat → K) (cont : Bool) (Ts : K) :
    Post (init d junk cont Ts) (fun s => s.Holds (NlSpec.Cfg.fresh d cont Ts)) := by
  unfold init
  refine Post.bind (Mapping.init_post d hch hle hp) ?_
  rintro m ⟨h1, h2, h3, h4⟩
  exact post_pure ⟨h1, h2, funext h3, funext h4, rfl, rfl, rfl, rfl, rfl, rfl, rfl, ⟨rfl, ⟨rfl, rfl⟩, ⟨rfl, rfl⟩⟩,
    ⟨rfl, ⟨rfl, rfl⟩, ⟨rfl, rfl⟩, rfl, ⟨rfl, rfl⟩, rfl, ⟨rfl, rfl⟩, rfl, ⟨rfl, rfl⟩⟩, (fun _ h => by cases h),
    (fun _ h => by cases h)⟩

theorem exec_holds {s s' : NlState d K} {c : NlSpec.Cfg d K} (h : s.Holds c) (hp : d.ph < 2 ^ 31) (o : NlOp d K)
    (ho : NlSpec.OpFits d o) (hr : s.exec o = .ok s') : s'.Holds (c.step o) := by
  cases o with
  | inputScaling v =>
    simp only [exec] at hr
    obtain ⟨m, hm, hr⟩ := bind_eq_ok.1 hr
    cases hr
    have hd := h.dims
    obtain ⟨g1, g2, g3, g4⟩ := (Mapping.setInputScaling_post s.mp h.good (by rw [hd]; exact hp) v
      (by rw [hd]; exact ho)).of_eq hm
    exact ⟨g1, g2.trans hd, by dsimp only; rw [g3]; rfl, by dsimp only; rw [g4]; exact h.stS, h.cont, h.Ts, h.field,
      h.out, h.obj, h.ineq, h.eq, h.osz, h.csz, h.ox0, h.cx0⟩
  | stateScaling v =>
    simp only [exec] at hr
    cases hr
    exact ⟨Mapping.setStateScaling_good s.mp h.good v (by rw [h.dims]; exact ho), h.dims, h.inS, rfl, h.cont, h.Ts,
      h.field, h.out, h.obj, h.ineq, h.eq, h.osz, h.csz, h.ox0, h.cx0⟩
  | continuous b Ts =>
    cases hr
    exact ⟨h.good, h.dims, h.inS, h.stS, rfl, rfl, h.field, h.out, h.obj, h.ineq, h.eq, h.osz, h.csz, h.ox0, h.cx0⟩
  | stateFn F =>
    cases hr
    exact ⟨h.good, h.dims, h.inS, h.stS, h.cont, h.Ts, rfl, h.out, h.obj, h.ineq, h.eq, h.osz, h.csz, h.ox0, h.cx0⟩
  | outFn g =>
    cases hr
    exact ⟨h.good, h.dims, h.inS, h.stS, h.cont, h.Ts, h.field, rfl, h.obj, h.ineq, h.eq, h.osz, h.csz, h.ox0, h.cx0⟩
  | objFn f =>
    cases hr
    exact ⟨h.good, h.dims, h.inS, h.stS, h.cont, h.Ts, h.field, h.out, rfl, h.ineq, h.eq,
      ⟨h.osz.x0, h.osz.X, h.osz.U⟩, h.csz, h.ox0, h.cx0⟩
  | ineqFn F tol =>
    cases hr
    exact ⟨h.good, h.dims, h.inS, h.stS, h.cont, h.Ts, h.field, h.out, h.obj, rfl, h.eq, h.osz,
      ⟨h.csz.x0, h.csz.X, h.csz.U, h.csz.ceq, h.csz.Jceq, h.csz.ci, h.csz.Ji, h.csz.ce, h.csz.Je⟩, h.ox0, h.cx0⟩
  | eqFn F tol =>
    cases hr
    exact ⟨h.good, h.dims, h.inS, h.stS, h.cont, h.Ts, h.field, h.out, h.obj, h.ineq, rfl, h.osz,
      ⟨h.csz.x0, h.csz.X, h.csz.U, h.csz.ceq, h.csz.Jceq, h.csz.ci, h.csz.Ji, h.csz.ce, h.csz.Je⟩, h.ox0, h.cx0⟩
  | measure x =>
    cases hr
    exact ⟨h.good, h.dims, h.inS, h.stS, h.cont, h.Ts, h.field, h.out, h.obj, h.ineq, h.eq,
      ⟨ho, h.osz.X, h.osz.U⟩,
      ⟨ho, h.csz.X, h.csz.U, h.csz.ceq, h.csz.Jceq, h.csz.ci, h.csz.Ji, h.csz.ce, h.csz.Je⟩,
      fun y hy => by cases hy; rfl, fun y hy => by cases hy; rfl⟩
  | evalObj z g =>
    simp only [exec] at hr
    obtain ⟨q, hq, hr⟩ := bind_eq_ok.1 hr
    cases hr
    exact evalObj_holds h hp ho hq
  | evalIneq z junk =>
    simp only [exec] at hr
    obtain ⟨q, hq, hr⟩ := bind_eq_ok.1 hr
    cases hr
    exact evalIneq_holds h hp ho hq
  | evalEq z junk =>
    simp only [exec] at hr
    obtain ⟨q, hq, hr⟩ := bind_eq_ok.1 hr
    cases hr
    exact evalEq_holds h ho hq
  | evalDyn z g junk =>
    simp only [exec] at hr
    obtain ⟨q, hq, hr⟩ := bind_eq_ok.1 hr
    cases hr
    exact evalDyn_holds h hp ho hq

theorem run_holds (hch : 0 < d.ch) (hle : d.ch ≤ d.ph) (hp : d.ph < 2 ^ 31) (junk : Nat → K) (cont : Bool) (Ts : K)
    (ops : List (NlOp d K)) (hf : ∀ o ∈ ops, NlSpec.OpFits d o) {s : NlState d K}
    (hr : run d junk cont Ts ops = .ok s) : s.Holds (NlSpec.cfgOf d cont Ts ops) := by
  induction ops using List.reverseRecOn generalizing s with
  | nil => exact (init_holds hch hle hp junk cont Ts).of_eq hr
  | append_singleton ops o ih =>
    unfold run at hr
    rw [List.foldl_append] at hr
    obtain ⟨t, ht, hr⟩ := bind_eq_ok.1 hr
    have := ih (fun o ho => hf o (by simp [ho])) ht
    have h2 := exec_holds this hp o (hf o (by simp)) hr
    unfold NlSpec.cfgOf
    rw [List.foldl_append]
    exact h2

/-- operations which only configure -/
def _root_.Mpc.NlOp.IsSetter : NlOp d K → Prop
  | .evalObj _ _ | .evalIneq _ _ | .evalEq _ _ | .evalDyn _ _ _ => False
  | _ => True

/-- configuring never fails -/
theorem run_setters (hch : 0 < d.ch) (hle : d.ch ≤ d.ph) (hp : d.ph < 2 ^ 31) (junk : Nat → K) (cont : Bool) (Ts : K)
    (ops : List (NlOp d K)) (hf : ∀ o ∈ ops, NlSpec.OpFits d o) (hs : ∀ o ∈ ops, o.IsSetter) :
    ∃ s, run d junk cont Ts ops = .ok s := by
  induction ops using List.reverseRecOn with
  | nil =>
    obtain ⟨s, h, -⟩ := init_holds hch hle hp junk cont Ts
    exact ⟨s, h⟩
  | append_singleton ops o ih =>
    obtain ⟨s, h⟩ := ih (fun o ho => hf o (by simp [ho])) (fun o ho => hs o (by simp [ho]))
    have hh := run_holds hch hle hp junk cont Ts ops (fun o ho => hf o (by simp [ho])) h
    unfold run at h ⊢
    rw [List.foldl_append, h]
    have ho := hs o (by simp)
    have hfo := hf o (by simp)
    cases o with
    | inputScaling v =>
      obtain ⟨m, hm, -⟩ := Mapping.setInputScaling_post s.mp hh.good (by rw [hh.dims]; exact hp) v
        (by rw [hh.dims]; exact hfo)
      refine ⟨{ s with mp := m }, ?_⟩
      simp only [List.foldl_cons, List.foldl_nil, ok_bind, exec, hm]
      rfl
    | evalObj _ _ => exact absurd ho id
    | evalIneq _ _ => exact absurd ho id
    | evalEq _ _ => exact absurd ho id
    | evalDyn _ _ _ => exact absurd ho id
    | _ => exact ⟨_, rfl⟩

end NlState
end Mpc
