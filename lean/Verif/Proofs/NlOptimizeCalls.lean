import Verif.Model.NlOptimizeCalls
import Verif.Proofs.NlCalls

/-
Running a whole `optimize`.
-/
namespace Mpc
open Exec
set_option linter.unusedSectionVars false
variable {d : Dims} {K : Type} [Field K] [LinearOrder K] {F : ∀ c : UserCall d K, c.Ans}

namespace Constraints

theorem feasIneqP_run (o : Constraints d K) {M : NlModel d K} (ho : ∀ f, M.outUser = some f → ∀ x u k, f (fun _ => 0) x u k = F (.out x u k))
    (hf : ∀ f, o.ieqUser = some f → ∀ buf X Y U e, f buf X Y U e = F (.ineq X Y U e)) (X U : Mat K) (e : K) :
    (feasIneqP o M X U e).run F = feasIneq Flt.fin o.ieqTol M o.ieqUser o.cineqUser X U e := by
  unfold feasIneqP feasIneq
  cases h : o.ieqUser with
  | none => rfl
  | some f =>
    dsimp only
    unfold callIneqP
    simp only [Prog.run_bind, Prog.run_lift, Prog.run_call, NlModel.getOutputP_run ho, ok_bind, hf f h, Prog.run_pure, bind_assoc]
    rfl

theorem feasEqP_run (o : Constraints d K) (hf : ∀ f, o.eqUser = some f → ∀ buf X U, f buf X U = F (.eq X U)) (X U : Mat K) :
    (feasEqP o X U).run F = feasEq Flt.fin o.eqTol false o.eqUser o.ceqUser X U := by
  unfold feasEqP feasEq
  cases h : o.eqUser with
  | none => rfl
  | some f =>
    dsimp only
    unfold callEqP
    simp only [Prog.run_bind, Prog.run_lift, Prog.run_call, ok_bind, hf f h, Prog.run_pure, bind_assoc]
    rfl

theorem isFeasibleP_run (o : Constraints d K) (mp : Mapping K) {M : NlModel d K}
    (ho : ∀ f, M.outUser = some f → ∀ x u k, f (fun _ => 0) x u k = F (.out x u k))
    (hi : ∀ f, o.ieqUser = some f → ∀ buf X Y U e, f buf X Y U e = F (.ineq X Y U e))
    (he : ∀ f, o.eqUser = some f → ∀ buf X U, f buf X U = F (.eq X U)) (z : Vec K) :
    (o.isFeasibleP mp M z).run F = o.isFeasible mp M z := by
  unfold isFeasibleP isFeasible feasible
  simp only [Prog.run_bind, Prog.run_lift, bind_assoc]
  congr 1
  funext w
  rw [feasIneqP_run o ho hi]
  congr 1
  funext i
  split_ifs
  · rw [Prog.run_bind, feasEqP_run o he, bind_assoc]
    rfl
  · rfl

end Constraints

namespace NlState
variable {s : NlState d K}

theorem objWrapperP_run (h : s.Answers F) (grad z : Vec K) : (s.objWrapperP grad z).run F = s.objWrapper grad z := by
  unfold objWrapperP objWrapper
  rw [Prog.run_bind, evalObjP_run h]
  congr 1
  funext r
  split_ifs
  · cases r.1.grad with
    | none => rfl
    | some G => dsimp only; rw [Prog.run_bind]; rfl
  · rfl

theorem conWrapperP_run (h : s.Answers F) (k : NlGroupKind) (b : NlBuffers K) (z : Vec K) (junk : Nat → K) :
    (s.conWrapperP k b z junk).run F = s.conWrapper k b z junk := by
  unfold conWrapperP
  rw [Prog.run_bind]
  cases k with
  | dynamics => show (s.evalDynP z b.grad.isSome junk).run F >>= _ = s.eqConWrapper b z junk; rw [evalDynP_run h]; simp only [Prog.run_bind, Prog.run_lift]; rfl
  | userIneq => show (s.evalIneqP z junk).run F >>= _ = s.userIneqWrapper b z junk; rw [evalIneqP_run h]; simp only [Prog.run_bind, Prog.run_lift]; rfl
  | userEq => show (s.evalEqP z junk).run F >>= _ = s.userEqWrapper b z junk; rw [evalEqP_run h]; simp only [Prog.run_bind, Prog.run_lift]; rfl

end NlState

namespace NlMpc

theorem serveP_run (o : NlOpt K) {s : NlState d K} (h : s.Answers F) (c : NlCallback K) : (serveP o s c).run F = serve o s c := by
  cases c with
  | obj z g junk =>
    unfold serveP serve
    dsimp only
    split_ifs
    · rw [Prog.run_bind, NlState.objWrapperP_run h]; rfl
    · rw [Prog.run_bind, NlState.objWrapperP_run h]; rfl
    · rfl
  | con i z g junk =>
    unfold serveP serve
    dsimp only
    cases o.groups[i]? with
    | none => rfl
    | some grp => dsimp only; rw [Prog.run_bind, NlState.conWrapperP_run h]; rfl

theorem acceptP_run (m : NlMpc d K) (ho : ∀ f, m.s.M.outUser = some f → ∀ x u k, f (fun _ => 0) x u k = F (.out x u k)) (x0 : Vec K)
    (value : Ext K) (code : Int) (feas : Bool) (junk : Nat → K) :
    (m.acceptP x0 value code feas junk).run F = m.accept x0 value code feas junk := by
  unfold acceptP accept
  simp only [Prog.run_bind, Prog.run_lift, NlModel.getOutputP_run ho]
  rfl

theorem finishP_run (m : NlMpc d K) (h : m.s.Answers F) (x0 : Vec K) (junk : Nat → K) (out : NlOutcome K) :
    (finishP m x0 junk out).run F = finish m x0 junk out := by
  cases out with
  | threw => rfl
  | answered z value code t =>
    unfold finishP finish
    cases t with
    | true => rfl
    | false =>
      simp only [Bool.false_eq_true, if_false, Prog.run_bind, Constraints.isFeasibleP_run m.s.con m.s.mp h.out h.ineq h.eq z]
      congr 1
      funext f
      refine acceptP_run (F := F) _ ?_ _ _ _ _ _
      exact h.out

end NlMpc
end Mpc
