import Verif.Proofs.LinHist

/-
What the setters leave alone, and totality of safe histories.
-/
namespace Mpc
open Exec
set_option linter.unusedSectionVars false

namespace LMpc
variable {K : Type} [Zero K] [One K] [Add K] [Mul K] [Neg K] [Div K] [NatCast K] [ExactOps K] [DecidableEq K] {d : Dims} {m : LMpc K} {c : Spec.LinConfig K}

/-- `o'` is `o` up to references and disturbances. -/
def SameSolver (o o' : LOpt K) : Prop :=
  ∃ Y U D M, o' = { o with outSysRef := Y, cmdSysRef := U, deltaCmdSysRef := D, extInputMeas := M }

theorem SameSolver.refl (o : LOpt K) : SameSolver o o := ⟨_, _, _, _, rfl⟩

theorem SameSolver.trans {o o' o'' : LOpt K} (h : SameSolver o o') (h' : SameSolver o' o'') : SameSolver o o'' := by
  obtain ⟨_, _, _, _, rfl⟩ := h
  obtain ⟨_, _, _, _, rfl⟩ := h'
  exact ⟨_, _, _, _, rfl⟩

theorem onBuilder_frame {f : Builder K → Exec (Builder K × Bool)} {r} (hr : m.onBuilder f = .ok r) : r.1.o = m.o := by
  simp only [onBuilder, bind_eq_ok] at hr
  obtain ⟨q, _, h2⟩ := hr
  cases h2
  rfl

theorem sliceOp_frame {h : Nat} {sl : HorizonSlice} {whole loop : Exec (LMpc K × LOut K)}
    (hw : ∀ r, whole = .ok r → SameSolver m.o r.1.o) (hl : ∀ r, loop = .ok r → SameSolver m.o r.1.o)
    {r} (hr : sliceOp m h sl whole loop = .ok r) : SameSolver m.o r.1.o := by
  unfold sliceOp at hr
  by_cases hu : isSliceUnset sl = true
  · rw [if_pos hu] at hr
    exact hw r hr
  · rw [if_neg hu, bind_eq_ok] at hr
    obtain ⟨v, _, hr⟩ := hr
    cases v with
    | true => exact hl r hr
    | false => cases hr; exact SameSolver.refl _

theorem builder_same {f : Builder K → Exec (Builder K × Bool)} {r} (hr : m.onBuilder f = .ok r) :
    SameSolver m.o r.1.o := by
  rw [onBuilder_frame hr]; exact SameSolver.refl _

theorem optimizer_same {f : LOpt K → Exec (LOpt K × Bool)} (hf : ∀ r, f m.o = .ok r → SameSolver m.o r.1)
    {r} (hr : m.onOptimizer f = .ok r) : SameSolver m.o r.1.o := by
  simp only [onOptimizer, bind_eq_ok] at hr
  obtain ⟨q, h1, h2⟩ := hr
  cases h2
  exact hf q h1

theorem sliceLoop_same {sl : HorizonSlice} {o : LOpt K} {f : Nat → LOpt K → Exec (LOpt K × Bool)}
    (hf : ∀ i o r, f i o = .ok r → SameSolver o r.1) {r} (hr : sliceLoop sl o f = .ok r) : SameSolver o r.1 := by
  unfold sliceLoop at hr
  refine forFrom_inv (Inv := fun _ s => SameSolver o s.1) (SameSolver.refl _) ?_ hr
  rintro i ⟨s, b⟩ t _ _ h he
  simp only at he h
  cases b with
  | true => exact h.trans (hf i s t he)
  | false => cases he; exact h

theorem setReferencesAt_same {o : LOpt K} {i : Nat} {y u du : Vec K} {r} (h : o.setReferencesAt i y u du = .ok r) :
    SameSolver o r.1 := by
  simp only [LOpt.setReferencesAt, bind_eq_ok] at h
  obtain ⟨_, _, _, _, _, _, h⟩ := h
  cases h
  exact ⟨_, _, _, _, rfl⟩

theorem setExogenousInputsAt_same {o : LOpt K} {i : Nat} {v : Vec K} {r} (h : o.setExogenousInputsAt i v = .ok r) :
    SameSolver o r.1 := by
  simp only [LOpt.setExogenousInputsAt, bind_eq_ok] at h
  obtain ⟨_, _, h⟩ := h
  cases h
  exact ⟨_, _, _, _, rfl⟩

/-- A call which neither solves nor configures the solver. -/
def IsSetter : LOp K → Bool
  | .optimize _ _ _ => false
  | .setOptimizerParameters _ => false
  | .setSolverWarmStart _ _ => false
  | _ => true

theorem step_frame {op : LOp K} (hop : IsSetter op = true) {r} (hr : m.step op = .ok r) : SameSolver m.o r.1.o := by
  cases op with
  | setStateSpaceModel A B C => simp only [step] at hr; exact builder_same hr
  | setDisturbances Bd Dd => simp only [step] at hr; exact builder_same hr
  | setObjectiveWeights OW UW DW => simp only [step] at hr; exact builder_same hr
  | setObjectiveWeightsSlice OW UW DW sl =>
    refine sliceOp_frame (fun r hr => ?_) (fun r hr => builder_same hr) ((setObjectiveWeightsSlice_eq OW UW DW sl).symm.trans hr)
    simp only [bind_eq_ok] at hr
    obtain ⟨_, _, _, _, _, _, hr⟩ := hr
    exact builder_same hr
  | setStateBounds mn mx => simp only [step] at hr; exact builder_same hr
  | setStateBoundsSlice mn mx sl =>
    refine sliceOp_frame (fun r hr => ?_) (fun r hr => builder_same hr) ((setStateBoundsSlice_eq mn mx sl).symm.trans hr)
    simp only [bind_eq_ok] at hr
    obtain ⟨_, _, _, _, hr⟩ := hr
    exact builder_same hr
  | setInputBounds mn mx => simp only [step] at hr; exact builder_same hr
  | setInputBoundsSlice mn mx sl =>
    refine sliceOp_frame (fun r hr => ?_) (fun r hr => builder_same hr) ((setInputBoundsSlice_eq mn mx sl).symm.trans hr)
    simp only [bind_eq_ok] at hr
    obtain ⟨_, _, _, _, hr⟩ := hr
    exact builder_same hr
  | setOutputBounds mn mx => simp only [step] at hr; exact builder_same hr
  | setOutputBoundsSlice mn mx sl =>
    refine sliceOp_frame (fun r hr => ?_) (fun r hr => builder_same hr) ((setOutputBoundsSlice_eq mn mx sl).symm.trans hr)
    simp only [bind_eq_ok] at hr
    obtain ⟨_, _, _, _, hr⟩ := hr
    exact builder_same hr
  | setScalarConstraintSlice mn mx X U sl =>
    refine sliceOp_frame (fun r hr => ?_) (fun r hr => builder_same hr) ((setScalarConstraintSlice_eq mn mx X U sl).symm.trans hr)
    simp only [bind_eq_ok] at hr
    obtain ⟨_, _, _, _, hr⟩ := hr
    exact builder_same hr
  | setScalarConstraintAt i mn mx X U =>
    simp only [step, setScalarConstraintAt] at hr
    by_cases hi : i ≥ m.d.ph
    · rw [if_pos hi] at hr; cases hr; exact SameSolver.refl _
    · rw [if_neg hi] at hr; exact builder_same hr
  | setExogenousInputs M => cases hr; exact ⟨_, _, _, _, rfl⟩
  | setExogenousInputsSlice v sl =>
    refine sliceOp_frame (fun r hr => ?_) (fun r hr => ?_) ((setExogenousInputsSlice_eq v sl).symm.trans hr)
    · simp only [bind_eq_ok] at hr
      obtain ⟨_, _, hr⟩ := hr
      cases hr; exact ⟨_, _, _, _, rfl⟩
    · exact optimizer_same (fun r h => sliceLoop_same (fun i o r h => setExogenousInputsAt_same h) h) hr
  | setReferences Y U D => cases hr; exact ⟨_, _, _, _, rfl⟩
  | setReferencesSlice y u du sl =>
    refine sliceOp_frame (fun r hr => ?_) (fun r hr => ?_) ((setReferencesSlice_eq y u du sl).symm.trans hr)
    · simp only [bind_eq_ok] at hr
      obtain ⟨_, _, _, _, _, _, hr⟩ := hr
      cases hr; exact ⟨_, _, _, _, rfl⟩
    · exact optimizer_same (fun r h => sliceLoop_same (fun i o r h => setReferencesAt_same h) h) hr
  | setOptimizerParameters p => cases hop
  | setSolverWarmStart x y => cases hop
  | setDiscretizationSamplingTime ts => cases hr; exact SameSolver.refl _
  | setInputScale s => cases hr; exact SameSolver.refl _
  | setStateScale s => cases hr; exact SameSolver.refl _
  | optimize x0 u0 oc => cases hop

theorem step_warm (hd : d.Valid) (hm : Inv d m c) (hw : WarmSafe d m) {op : LOp K} (hs : Spec.Sized d op)
    (hsafe : Safe d op) {r} (hr : m.step op = .ok r) : WarmSafe d r.1 := by
  by_cases hop : IsSetter op = true
  · obtain ⟨_, _, _, _, h⟩ := step_frame hop hr
    unfold WarmSafe
    rw [h]
    exact hw
  · cases op with
    | setOptimizerParameters p =>
      cases p with
      | linear p => cases hr; exact hw
      | other => cases hr
    | setSolverWarmStart x y => cases hr; exact hsafe
    | optimize x0 u0 oc =>
      have hr2 := hr
      simp only [step, bind_eq_ok] at hr2
      obtain ⟨q, hq, hr2⟩ := hr2
      obtain ⟨⟨st, obj, sol, rfl⟩, hwf⟩ := LOpt.run_ok_cases hd.ph_pos hm.opt hm.builder.shaped hm.builder.dims hs.1 hs.2 hq
      have := (LOpt.run_post hd.ph_pos hm.opt hm.builder.shaped hm.builder.dims hs.1 hs.2 (status := st) (obj := obj)
        (sol := sol) hwf).of_eq hq
      obtain ⟨_, _, h3⟩ := this
      cases hr2
      unfold WarmSafe
      rcases sol with _ | ⟨x, y⟩
      · simp only at h3
        dsimp only
        rw [h3]; exact hw
      · obtain ⟨S, U, Y, _, h3⟩ := h3
        dsimp only
        rw [h3]; exact .inr (.inr ⟨le_refl _, le_refl _⟩)
    | _ => exact absurd rfl hop

/-- Every history of safe calls ends normally. -/
theorem exec_total (hd : d.Valid) (hph : d.ph < 2 ^ 30) (hch : d.ch < 2 ^ 30) :
    ∀ (ops : List (LOp K)) {m : LMpc K} {c : Spec.LinConfig K}, Inv d m c → WarmSafe d m →
    (∀ op ∈ ops, (Spec.Sized d op ∧ Spec.SliceNonneg op) ∧ Safe d op) → ∃ r, m.exec ops = .ok r
  | [], m, c, _, _, _ => ⟨_, rfl⟩
  | op :: ops, m, c, hm, hw, hs => by
    have h0 := hs op List.mem_cons_self
    obtain ⟨⟨m1, o1⟩, h1⟩ := step_total hd hph hch hm hw h0.1.1 h0.1.2 h0.2
    obtain ⟨⟨m2, o2⟩, h2⟩ := exec_total hd hph hch ops (step_inv hd hm h0.1.1 h0.1.2 h1)
      (step_warm hd hm hw h0.1.1 h0.2 h1) (fun o ho => hs o (List.mem_cons_of_mem _ ho))
    refine ⟨(m2, o1 :: o2), ?_⟩
    simp only [exec, h1, ok_bind, h2]
    rfl

theorem new_warmSafe {uninit : Nat → Nat → K} {junk : Nat → Nat} (h : new d uninit junk = .ok m) : WarmSafe d m := by
  simp only [new, bind_eq_ok] at h
  obtain ⟨b, _, h⟩ := h
  cases h
  exact .inl rfl

end LMpc
end Mpc
