import Verif.Model.NlCalls
import Verif.Proofs.NlLoops

/-
Running the programs of Model/NlCalls.
-/
namespace Mpc
open Exec
set_option linter.unusedSectionVars false

namespace Prog
variable {d : Dims} {K : Type} {α β σ : Type} (F : ∀ c : UserCall d K, c.Ans)

@[simp] theorem run_pure (a : α) : (pure a : Prog d K α).run F = .ok a := rfl
@[simp] theorem run_lift (e : Exec α) : (liftM e : Prog d K α).run F = e := rfl
@[simp] theorem run_done (e : Exec α) : (done e : Prog d K α).run F = e := rfl
@[simp] theorem run_call (c : UserCall d K) : (call c).run F = .ok (F c) := rfl

theorem run_andThen (p : Prog d K α) (f : α → Prog d K β) : (p.andThen f).run F = p.run F >>= fun a => (f a).run F := by
  induction p with
  | done r => cases r <;> rfl
  | ask c k ih => exact ih (F c)

@[simp] theorem run_bind (p : Prog d K α) (f : α → Prog d K β) : (p >>= f).run F = p.run F >>= fun a => (f a).run F := run_andThen F p f

theorem run_forFrom (n : Nat) (body : Nat → σ → Prog d K σ) : ∀ lo s,
    (forFrom lo n s body).run F = Exec.forFrom lo n s fun i s => (body i s).run F := by
  induction n with
  | zero => intro lo s; rfl
  | succ n ih =>
    intro lo s
    unfold forFrom Exec.forFrom
    rw [run_bind]
    congr 1
    funext s'
    exact ih _ _

@[simp] theorem run_forRange (n : Nat) (s : σ) (body : Nat → σ → Prog d K σ) :
    (forRange n s body).run F = Exec.forRange n s fun i s => (body i s).run F := run_forFrom F n body 0 s

end Prog

/-! ### with the functions which are set, the results are those of Objective.lean and Constraints.lean -/

/-- `F` are the functions which are set -/
structure NlState.Answers {d : Dims} {K : Type} [Zero K] (s : NlState d K) (F : ∀ c : UserCall d K, c.Ans) : Prop where
  state : ∀ f, s.M.vectorField = some f → ∀ buf x u k, f buf x u k = F (.state x u k)
  out : ∀ f, s.M.outUser = some f → ∀ x u k, f (fun _ => 0) x u k = F (.out x u k)
  obj : ∀ f, s.obj.fuser = some f → ∀ X Y U e, f X Y U e = F (.obj X Y U e)
  ineq : ∀ f, s.con.ieqUser = some f → ∀ buf X Y U e, f buf X Y U e = F (.ineq X Y U e)
  eq : ∀ f, s.con.eqUser = some f → ∀ buf X U, f buf X U = F (.eq X U)

section
variable {d : Dims} {K : Type} {F : ∀ c : UserCall d K, c.Ans} {M : NlModel d K}

theorem NlModel.getOutputP_run [Zero K] (ho : ∀ f, M.outUser = some f → ∀ x u k, f (fun _ => 0) x u k = F (.out x u k)) (X U : Mat K) :
    (M.getOutputP X U).run F = M.getOutput X U := by
  unfold NlModel.getOutputP NlModel.getOutput
  cases h : M.outUser with
  | none => rfl
  | some f =>
    dsimp only
    rw [Prog.run_forRange]
    congr 1
    funext i Y
    simp only [Prog.run_bind, Prog.run_lift, Prog.run_call, ok_bind, ho f h]

theorem NlModel.callStateP_run [Zero K] (hs : ∀ f, M.vectorField = some f → ∀ buf x u k, f buf x u k = F (.state x u k))
    (buf : FVec d.nx K) (x u : Vec K) (p : Nat) : (M.callStateP x u p).run F = M.callState buf x u p := by
  unfold NlModel.callStateP NlModel.callState
  cases h : M.vectorField with
  | none => rfl
  | some f =>
    dsimp only
    simp only [Prog.run_bind, Prog.run_lift, Prog.run_call, ok_bind, hs f h, Prog.run_pure]
    rfl

variable [Field K] [LinearOrder K]

theorem Objective.callObjP_run (ho : ∀ f, M.outUser = some f → ∀ x u k, f (fun _ => 0) x u k = F (.out x u k)) {f : Option (ObjFn d K)}
    (hf : ∀ g, f = some g → ∀ X Y U e, g X Y U e = F (.obj X Y U e)) (X U : Mat K) (e : K) :
    (callObjP f M X U e).run F = callObj f M X U e := by
  unfold callObjP callObj
  rw [Prog.run_bind, NlModel.getOutputP_run ho]
  congr 1
  funext Y
  cases f with
  | none => rfl
  | some g =>
    dsimp only
    simp only [Prog.run_bind, Prog.run_lift, Prog.run_call, hf g rfl, Prog.run_pure, ok_bind]
    rfl

theorem Objective.computeJacobianP_run (ho : ∀ f, M.outUser = some f → ∀ x u k, f (fun _ => 0) x u k = F (.out x u k))
    {f : Option (ObjFn d K)} (hf : ∀ g, f = some g → ∀ X Y U e, g X Y U e = F (.obj X Y U e)) (X U : Mat K) (f0 e : K) :
    (computeJacobianP f M X U f0 e).run F = computeJacobian f M X U f0 e := by
  unfold computeJacobianP computeJacobian
  simp only [Prog.run_bind, Prog.run_lift, Prog.run_forRange, Prog.run_pure, Objective.callObjP_run ho hf]
  rfl

theorem Objective.evaluateP_run (o : Objective d K) (mp : Mapping K)
    (ho : ∀ f, M.outUser = some f → ∀ x u k, f (fun _ => 0) x u k = F (.out x u k))
    (hf : ∀ g, o.fuser = some g → ∀ X Y U e, g X Y U e = F (.obj X Y U e)) (x : Vec K) (g : Bool) :
    (o.evaluateP mp M x g).run F = o.evaluate mp M x g := by
  unfold evaluateP evaluate
  simp only [Prog.run_bind, Prog.run_lift, Objective.callObjP_run ho hf]
  congr 1
  funext w
  congr 1
  funext v
  cases g with
  | false => rfl
  | true =>
    simp only [if_true, Prog.run_bind, Objective.computeJacobianP_run ho hf, Prog.run_lift]
    rfl

namespace Constraints

theorem callIneqP_run (ho : ∀ f, M.outUser = some f → ∀ x u k, f (fun _ => 0) x u k = F (.out x u k)) {f : IConFn d K}
    (hf : ∀ buf X Y U e, f buf X Y U e = F (.ineq X Y U e)) (buf : FVec d.ineq K) (X U : Mat K) (e : K) :
    (callIneqP M X U e).run F = callIneq f M buf X U e := by
  unfold callIneqP callIneq
  simp only [Prog.run_bind, Prog.run_lift, Prog.run_call, NlModel.getOutputP_run ho, ok_bind, hf, Prog.run_pure]
  rfl

theorem callEqP_run {f : EConFn d K} (hf : ∀ buf X U, f buf X U = F (.eq X U)) (buf : FVec d.eq K) (X U : Mat K) :
    (callEqP (d := d) X U).run F = callEq f buf X U := by
  unfold callEqP callEq
  simp only [Prog.run_bind, Prog.run_lift, Prog.run_call, ok_bind, hf, Prog.run_pure]
  rfl

theorem computeIneqJacobianP_run (ho : ∀ f, M.outUser = some f → ∀ x u k, f (fun _ => 0) x u k = F (.out x u k)) {f : IConFn d K}
    (hf : ∀ buf X Y U e, f buf X Y U e = F (.ineq X Y U e)) (junk : Nat → K) (X U : Mat K) (e : K) :
    (computeIneqJacobianP M X U e).run F = computeIneqJacobian f M junk X U e := by
  unfold computeIneqJacobianP computeIneqJacobian
  simp only [Prog.run_bind, Prog.run_lift, Prog.run_forRange, Prog.run_pure, callIneqP_run ho hf (fun i => junk i)]
  rfl

theorem computeEqJacobianP_run {f : EConFn d K} (hf : ∀ buf X U, f buf X U = F (.eq X U)) (junk : Nat → K) (X U : Mat K) :
    (computeEqJacobianP (d := d) X U).run F = computeEqJacobian f junk X U := by
  unfold computeEqJacobianP computeEqJacobian
  simp only [Prog.run_bind, Prog.run_lift, Prog.run_forRange, Prog.run_pure, callEqP_run hf (fun i => junk i)]
  rfl

theorem computeStateEqJacobianP_run (hs : ∀ f, M.vectorField = some f → ∀ buf x u k, f buf x u k = F (.state x u k)) (junk : Nat → K)
    (x u : Vec K) (p : Nat) : (computeStateEqJacobianP M x u p).run F = computeStateEqJacobian M junk x u p := by
  unfold computeStateEqJacobianP computeStateEqJacobian
  simp only [Prog.run_bind, Prog.run_lift, Prog.run_forRange, Prog.run_pure, NlModel.callStateP_run hs (fun i => junk i)]
  rfl

theorem stepContinuousP_run (mp : Mapping K) (hs : ∀ f, M.vectorField = some f → ∀ buf x u k, f buf x u k = F (.state x u k))
    (junk : Nat → K) (X U : Mat K) (g : Bool) (i : Nat) (s) :
    (stepContinuousP mp M X U g i s).run F = stepContinuous mp M junk X U g i s := by
  unfold stepContinuousP stepContinuous
  cases g <;>
    simp only [Prog.run_bind, Prog.run_lift, Prog.run_pure, NlModel.callStateP_run hs (fun i => junk i), if_true, Bool.false_eq_true,
      if_false, computeStateEqJacobianP_run hs junk] <;> rfl

theorem stepDiscreteP_run (mp : Mapping K) (hs : ∀ f, M.vectorField = some f → ∀ buf x u k, f buf x u k = F (.state x u k))
    (junk : Nat → K) (X U : Mat K) (g : Bool) (i : Nat) (s) :
    (stepDiscreteP mp M X U g i s).run F = stepDiscrete mp M junk X U g i s := by
  unfold stepDiscreteP stepDiscrete
  cases g <;>
    simp only [Prog.run_bind, Prog.run_lift, Prog.run_pure, NlModel.callStateP_run hs (fun i => junk i), if_true, Bool.false_eq_true,
      if_false, computeStateEqJacobianP_run hs junk] <;> rfl

theorem evaluateStateModelEqP_run (c : Constraints d K) (mp : Mapping K)
    (hs : ∀ f, M.vectorField = some f → ∀ buf x u k, f buf x u k = F (.state x u k)) (junk : Nat → K) (x : Vec K) (g : Bool) :
    (c.evaluateStateModelEqP mp M junk x g).run F = c.evaluateStateModelEq mp M junk x g := by
  unfold evaluateStateModelEqP evaluateStateModelEq getStateEqConstraintsP getStateEqConstraints
  cases hc : M.continuous <;> cases g <;>
    simp only [Prog.run_bind, Prog.run_lift, Prog.run_pure, Prog.run_forRange, if_true, Bool.false_eq_true,
      if_false, stepContinuousP_run mp hs junk, stepDiscreteP_run mp hs junk] <;> rfl

theorem evaluateIneqP_run (c : Constraints d K) (mp : Mapping K)
    (ho : ∀ f, M.outUser = some f → ∀ x u k, f (fun _ => 0) x u k = F (.out x u k))
    (hf : ∀ f, c.ieqUser = some f → ∀ buf X Y U e, f buf X Y U e = F (.ineq X Y U e)) (junk : Nat → K) (x : Vec K) :
    (c.evaluateIneqP mp M junk x).run F = c.evaluateIneq mp M junk x := by
  unfold evaluateIneqP evaluateIneq
  cases h : c.ieqUser with
  | none => simp only [Prog.run_bind, Prog.run_lift, Prog.run_pure]; rfl
  | some f =>
    simp only [Prog.run_bind, Prog.run_lift, Prog.run_pure, computeIneqJacobianP_run ho (hf f h) junk]
    congr 1
    funext w
    rw [callIneqP_run ho (hf f h) (c.cineqUser.viewF d.ineq)]
    rfl

theorem evaluateEqP_run (c : Constraints d K) (mp : Mapping K)
    (hf : ∀ f, c.eqUser = some f → ∀ buf X U, f buf X U = F (.eq X U)) (junk : Nat → K) (x : Vec K) :
    (c.evaluateEqP mp junk x).run F = c.evaluateEq mp junk x := by
  unfold evaluateEqP evaluateEq
  cases h : c.eqUser with
  | none => simp only [Prog.run_bind, Prog.run_lift, Prog.run_pure]; rfl
  | some f =>
    simp only [Prog.run_bind, Prog.run_lift, Prog.run_pure, computeEqJacobianP_run (hf f h) junk]
    congr 1
    funext w
    rw [callEqP_run (hf f h) (c.ceqUser.viewF d.eq)]
    rfl

end Constraints

namespace NlState
variable {s : NlState d K}

theorem evalObjP_run (h : s.Answers F) (z : Vec K) (g : Bool) : (s.evalObjP z g).run F = s.evalObj z g := by
  unfold evalObjP evalObj
  rw [Prog.run_bind, Objective.evaluateP_run s.obj s.mp h.out h.obj]
  rfl

theorem evalIneqP_run (h : s.Answers F) (z : Vec K) (junk : Nat → K) : (s.evalIneqP z junk).run F = s.evalIneq z junk := by
  unfold evalIneqP evalIneq
  rw [Prog.run_bind, Constraints.evaluateIneqP_run s.con s.mp h.out h.ineq]
  rfl

theorem evalEqP_run (h : s.Answers F) (z : Vec K) (junk : Nat → K) : (s.evalEqP z junk).run F = s.evalEq z junk := by
  unfold evalEqP evalEq
  rw [Prog.run_bind, Constraints.evaluateEqP_run s.con s.mp h.eq]
  rfl

theorem evalDynP_run (h : s.Answers F) (z : Vec K) (g : Bool) (junk : Nat → K) :
    (s.evalDynP z g junk).run F = s.evalDyn z g junk := by
  unfold evalDynP evalDyn
  rw [Prog.run_bind, Constraints.evaluateStateModelEqP_run s.con s.mp h.state]
  rfl

end NlState
end
end Mpc
