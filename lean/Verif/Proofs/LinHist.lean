import Verif.Proofs.LinStep

/-
Any API call preserves the invariant (if it returns at all), the safe ones return; lifted to histories.
-/
namespace Mpc
open Exec
set_option linter.unusedSectionVars false

namespace LMpc
variable {K : Type} [Zero K] [One K] [Add K] [Mul K] [Neg K] [Div K] [NatCast K] [ExactOps K] [DecidableEq K] {d : Dims} {m : LMpc K} {c : Spec.LinConfig K}

theorem setObjectiveWeightsSlice_eq (OW UW DW : Vec K) (sl : HorizonSlice) :
    m.setObjectiveWeightsSlice OW UW DW sl = sliceOp m m.d.ph sl
      (do
        let OM ← replicateCols m.d.ny m.d.ph m.b.uninit OW
        let UM ← replicateCols m.d.nu m.d.ph m.b.uninit UW
        let DM ← replicateCols m.d.nu m.d.ph m.b.uninit DW
        m.onBuilder fun b => b.setObjective OM UM DM)
      (m.onBuilder fun b => sliceLoop sl b fun i b => b.setObjectiveAt (toUnsigned i) OW UW DW) := rfl

theorem setStateBoundsSlice_eq (mn mx : Vec (Ext K)) (sl : HorizonSlice) :
    m.setStateBoundsSlice mn mx sl = sliceOp m m.d.ph sl
      (do
        let a ← replicateCols m.d.nx m.d.ph m.junkE mn
        let e ← replicateCols m.d.nx m.d.ph m.junkE mx
        m.onBuilder fun b => b.setStateBounds a e)
      (m.onBuilder fun b => sliceLoop sl b fun i b => b.setStateBoundsAt (toUnsigned i) mn mx) := rfl

theorem setOutputBoundsSlice_eq (mn mx : Vec (Ext K)) (sl : HorizonSlice) :
    m.setOutputBoundsSlice mn mx sl = sliceOp m m.d.ph sl
      (do
        let a ← replicateCols m.d.ny m.d.ph m.junkE mn
        let e ← replicateCols m.d.ny m.d.ph m.junkE mx
        m.onBuilder fun b => b.setOutputBounds a e)
      (m.onBuilder fun b => sliceLoop sl b fun i b => b.setOutputBoundsAt (toUnsigned i) mn mx) := rfl

theorem setInputBoundsSlice_eq (mn mx : Vec (Ext K)) (sl : HorizonSlice) :
    m.setInputBoundsSlice mn mx sl = sliceOp m m.d.ch sl
      (do
        let a ← replicateCols m.d.nu m.d.ch m.junkE mn
        let e ← replicateCols m.d.nu m.d.ch m.junkE mx
        m.onBuilder fun b => b.setInputBounds a e)
      (m.onBuilder fun b => sliceLoop sl b fun i b => b.setInputBoundsAt (toUnsigned i) mn mx) := rfl

theorem setScalarConstraintSlice_eq (mn mx : Ext K) (X U : Vec K) (sl : HorizonSlice) :
    m.setScalarConstraintSlice mn mx X U sl = sliceOp m m.d.ph sl
      (do
        let a ← replicateVec m.d.ph (fun i => m.junkE i 0) mn
        let e ← replicateVec m.d.ph (fun i => m.junkE i 0) mx
        m.onBuilder fun b => b.setScalarConstraint a e X U)
      (m.onBuilder fun b => sliceLoop sl b fun i b => b.setScalarConstraintAt (toUnsigned i) mn mx X U) := rfl

theorem setExogenousInputsSlice_eq (v : Vec K) (sl : HorizonSlice) :
    m.setExogenousInputsSlice v sl = sliceOp m m.d.ch sl
      (do
        let M ← replicateCols m.d.ndu m.d.ph m.b.uninit v
        m.onOptimizer fun o => .ok (o.setExogenousInputs M))
      (m.onOptimizer fun o => sliceLoop sl o fun i o => o.setExogenousInputsAt (toUnsigned i) v) := rfl

theorem setReferencesSlice_eq (y u du : Vec K) (sl : HorizonSlice) :
    m.setReferencesSlice y u du sl = sliceOp m m.d.ph sl
      (do
        let Y ← replicateCols m.d.ny m.d.ph m.b.uninit y
        let U ← replicateCols m.d.nu m.d.ph m.b.uninit u
        let D ← replicateCols m.d.nu m.d.ph m.b.uninit du
        m.onOptimizer fun o => .ok (o.setReferences Y U D))
      (m.onOptimizer fun o => sliceLoop sl o fun i o => o.setReferencesAt (toUnsigned i) y u du) := rfl

/-- `Good` of the optimizer does not look at the parameters and the warm-start vectors. -/
theorem LOpt.Good.solver {o : LOpt K} (h : LOpt.Good d o c) (p : LParams K) (x y : Vec K) :
    LOpt.Good d { o with params := p, prevX := x, prevY := y } c := by
  obtain ⟨a1, a2, a3, a4, a5, a6, a7, a8, a9, a10, a11, a12, a13, a14, a15⟩ := h
  exact ⟨a1, a2, a3, a4, a5, a6, a7, a8, a9, a10, a11, a12, a13, a14, a15⟩

theorem matrix_columns {α : Type} {M : Mat α} {r n : Nat} (h : M.rows = r ∧ M.cols = n) :
    (M.rows = r ∧ M.cols = n) ∧ ∀ a k, a < r → k < n → M.get a k = Spec.columns M k a :=
  ⟨h, fun _ _ _ _ => rfl⟩

theorem inputColumns {α : Type} {M : Mat α} (h : M.rows = d.nu ∧ M.cols = d.ch) (hch : d.ch = d.ph) :
    (M.rows = d.nu ∧ M.cols = d.ch) ∧ ∀ a k, a < d.nu → k < d.ph → M.get a k = M.get a (min k (M.cols - 1)) :=
  ⟨h, fun a k _ hk => by congr 1; omega⟩

/-- One API call, if it returns at all. -/
theorem step_inv (hd : d.Valid) (hm : Inv d m c) {op : LOp K} (hs : Spec.Sized d op) (hn : Spec.SliceNonneg op)
    {r} (hr : m.step op = .ok r) : StepOk d c op r := by
  cases op with
  | setStateSpaceModel A B C =>
    exact (whole_builder (op := .setStateSpaceModel A B C) (f := fun b => b.setStateModel A B C) hm rfl rfl rfl rfl
      (Builder.setStateModel_post hd.ph_pos hm.builder hs.1 hs.2.1 hs.2.2)).stepOk.of_eq hr
  | setDisturbances Bd Dd =>
    exact (whole_builder (op := .setDisturbances Bd Dd) (f := fun b => b.setExogenousInput Bd Dd) hm rfl rfl rfl rfl
      (Builder.setExogenousInput_post hd.ph_pos hm.builder hs.1 hs.2)).stepOk.of_eq hr
  | setObjectiveWeights OW UW DW =>
    exact (whole_builder (op := .setObjectiveWeights OW UW DW) (f := fun b => b.setObjective OW UW DW) hm rfl rfl rfl rfl
      (Builder.setObjective_post hd.ph_pos hm.builder (matrix_columns hs.1) (matrix_columns hs.2.1)
        (matrix_columns hs.2.2))).stepOk.of_eq hr
  | setObjectiveWeightsSlice OW UW DW sl =>
    obtain ⟨h1, h2, h3, h32⟩ := hs
    refine sliceOp_inv hm ?_ ?_ ((setObjectiveWeightsSlice_eq OW UW DW sl).symm.trans hr)
    · rintro rfl r hr; exact (weights_whole hd hm h1 h2 h3).stepOk.of_eq hr
    · intro hne hv r hr
      exact (weights_loop hd hm h1 h2 h3 h32 ((hn sl rfl).resolve_left hne) hv).stepOk.of_eq hr
  | setStateBounds mn mx =>
    exact (whole_builder (op := .setStateBounds mn mx) (f := fun b => b.setStateBounds mn mx) hm rfl rfl rfl rfl
      (Builder.setStateBounds_post hd.ph_pos hm.builder (matrix_columns hs.1) (matrix_columns hs.2))).stepOk.of_eq hr
  | setStateBoundsSlice mn mx sl =>
    obtain ⟨h1, h2, h32⟩ := hs
    refine sliceOp_inv hm ?_ ?_ ((setStateBoundsSlice_eq mn mx sl).symm.trans hr)
    · rintro rfl r hr; exact (stateBounds_whole hd hm h1 h2).stepOk.of_eq hr
    · intro hne hv r hr
      exact (stateBounds_loop hd hm h1 h2 h32 ((hn sl rfl).resolve_left hne) hv).stepOk.of_eq hr
  | setInputBounds mn mx =>
    by_cases hch : d.ch = d.ph
    · exact (whole_builder (op := .setInputBounds mn mx) (f := fun b => b.setInputBounds mn mx) hm rfl rfl rfl rfl
        (Builder.setInputBounds_post hd hm.builder hch (inputColumns hs.1 hch) (inputColumns hs.2 hch))).stepOk.of_eq hr
    · have h := Builder.setInputBounds_fault hm.builder hch hs.1 hs.2
      change (m.b.setInputBounds mn mx >>= _) = _ at hr
      rw [h] at hr; cases hr
  | setInputBoundsSlice mn mx sl =>
    obtain ⟨h1, h2, h32⟩ := hs
    refine sliceOp_inv hm ?_ ?_ ((setInputBoundsSlice_eq mn mx sl).symm.trans hr)
    · rintro rfl r hr
      by_cases hch : d.ch = d.ph
      · exact (inputBounds_whole hd hm h1 h2 hch).stepOk.of_eq hr
      · rw [inputBounds_whole_fault hm h1 h2 hch] at hr; cases hr
    · intro hne hv r hr
      exact inputBounds_loop_inv hd hm h1 h2 h32 ((hn sl rfl).resolve_left hne) hv hr
  | setOutputBounds mn mx =>
    exact (whole_builder (op := .setOutputBounds mn mx) (f := fun b => b.setOutputBounds mn mx) hm rfl rfl rfl rfl
      (Builder.setOutputBounds_post hd.ph_pos hm.builder (matrix_columns hs.1) (matrix_columns hs.2))).stepOk.of_eq hr
  | setOutputBoundsSlice mn mx sl =>
    obtain ⟨h1, h2, h32⟩ := hs
    refine sliceOp_inv hm ?_ ?_ ((setOutputBoundsSlice_eq mn mx sl).symm.trans hr)
    · rintro rfl r hr; exact (outputBounds_whole hd hm h1 h2).stepOk.of_eq hr
    · intro hne hv r hr
      exact (outputBounds_loop hd hm h1 h2 h32 ((hn sl rfl).resolve_left hne) hv).stepOk.of_eq hr
  | setScalarConstraintSlice mn mx X U sl =>
    obtain ⟨h1, h2, h32⟩ := hs
    refine sliceOp_inv hm ?_ ?_ ((setScalarConstraintSlice_eq mn mx X U sl).symm.trans hr)
    · rintro rfl r hr; exact (scalar_whole hd hm h1 h2).stepOk.of_eq hr
    · intro hne hv r hr
      exact (scalar_loop hd hm h1 h2 h32 ((hn sl rfl).resolve_left hne) hv).stepOk.of_eq hr
  | setScalarConstraintAt i mn mx X U =>
    obtain ⟨h1, h2, h32⟩ := hs
    simp only [step, setScalarConstraintAt] at hr
    rw [hm.dims] at hr
    by_cases hi : i ≥ d.ph
    · rw [if_pos hi] at hr; cases hr; exact stepOk_refused hm _ rfl
    · rw [if_neg hi] at hr
      exact (whole_builder (op := .setScalarConstraintAt i mn mx X U)
        (f := fun b => b.setScalarConstraintAt i mn mx X U) hm rfl rfl rfl rfl
        (Builder.setScalarConstraintAt_post hd hm.builder (by omega) h1 h2)).stepOk.of_eq hr
  | setExogenousInputs M =>
    exact (opt_step (op := .setExogenousInputs M) (f := fun o => .ok (o.setExogenousInputs M)) hm (by rfl)
      (post_ok ⟨rfl, LOpt.setExogenous_good hm.opt (matrix_columns hs)⟩)).stepOk.of_eq hr
  | setExogenousInputsSlice v sl =>
    obtain ⟨h1, h32⟩ := hs
    refine sliceOp_inv hm ?_ ?_ ((setExogenousInputsSlice_eq v sl).symm.trans hr)
    · rintro rfl r hr; exact (exo_whole hm h1).stepOk.of_eq hr
    · intro hne hv r hr
      exact exo_loop_inv hd hm h1 h32 ((hn sl rfl).resolve_left hne) hv hr
  | setReferences Y U D =>
    exact (opt_step (op := .setReferences Y U D) (f := fun o => .ok (o.setReferences Y U D)) hm (by rfl)
      (post_ok ⟨rfl, LOpt.setReferences_good hm.opt (matrix_columns hs.1) (matrix_columns hs.2.1)
        (matrix_columns hs.2.2)⟩)).stepOk.of_eq hr
  | setReferencesSlice y u du sl =>
    obtain ⟨h1, h2, h3, h32⟩ := hs
    refine sliceOp_inv hm ?_ ?_ ((setReferencesSlice_eq y u du sl).symm.trans hr)
    · rintro rfl r hr; exact (refs_whole hm h1 h2 h3).stepOk.of_eq hr
    · intro hne hv r hr
      exact (refs_loop hd hm h1 h2 h3 h32 ((hn sl rfl).resolve_left hne) hv).stepOk.of_eq hr
  | setOptimizerParameters p =>
    cases p with
    | linear p => cases hr; exact ⟨hm.dims, hm.builder, LOpt.Good.solver hm.opt p _ _⟩
    | other => cases hr
  | setSolverWarmStart x y => cases hr; exact ⟨hm.dims, hm.builder, LOpt.Good.solver hm.opt _ x y⟩
  | setDiscretizationSamplingTime ts => cases hr; exact stepOk_refused hm _ rfl
  | setInputScale s => cases hr; exact stepOk_refused hm _ rfl
  | setStateScale s => cases hr; exact stepOk_refused hm _ rfl
  | optimize x0 u0 oc =>
    have hr2 := hr
    simp only [step, bind_eq_ok] at hr2
    obtain ⟨q, hq, _⟩ := hr2
    obtain ⟨⟨st, obj, sol, rfl⟩, hw⟩ := LOpt.run_ok_cases hd.ph_pos hm.opt hm.builder.shaped hm.builder.dims hs.1 hs.2 hq
    exact (optimize_post hd hm hs.1 hs.2 hw).of_eq hr

/-- Refinement: along every history that ends normally, the controller's configuration is the one of the
register-file specification. -/
theorem exec_inv (hd : d.Valid) : ∀ (ops : List (LOp K)) {m : LMpc K} {c : Spec.LinConfig K}, Inv d m c →
    (∀ op ∈ ops, Spec.Sized d op ∧ Spec.SliceNonneg op) → ∀ {m' outs}, m.exec ops = .ok (m', outs) →
    Inv d m' (c.after ops outs) ∧ outs.length = ops.length
  | [], m, c, hm, _, m', outs, hr => by cases hr; exact ⟨hm, rfl⟩
  | op :: ops, m, c, hm, hs, m', outs, hr => by
    simp only [exec, bind_eq_ok] at hr
    obtain ⟨⟨m1, o1⟩, h1, ⟨m2, o2⟩, h2, h3⟩ := hr
    cases h3
    have h0 := hs op List.mem_cons_self
    have := exec_inv hd ops (step_inv hd hm h0.1 h0.2 h1) (fun o ho => hs o (List.mem_cons_of_mem _ ho)) h2
    exact ⟨this.1, by simp [this.2]⟩

/-! ### Totality -/

/-- The warm-start vectors stored in the optimizer fit the problem, or will not be used. -/
def WarmSafe (d : Dims) (m : LMpc K) : Prop :=
  m.o.prevX.size = 0 ∨ m.o.prevY.size = 0 ∨ (d.nV ≤ m.o.prevX.size ∧ d.nC ≤ m.o.prevY.size)

theorem WarmSafe.fits (h : WarmSafe d m) : LOpt.WarmFits d m.o := by
  rintro ⟨_, h1, h2⟩
  rcases h with h | h | h
  · omega
  · omega
  · exact h

/-- The calls which cannot run into undefined behaviour. -/
def Safe (d : Dims) : LOp K → Prop
  | .setInputBounds _ _ => d.ch = d.ph
  | .setInputBoundsSlice _ _ s => if s = HorizonSlice.all then d.ch = d.ph else d.ch ≤ d.ph
  | .setExogenousInputsSlice _ s => s = HorizonSlice.all ∨ d.ch ≤ d.ph
  | .setOptimizerParameters p => p ≠ .other
  | .setSolverWarmStart x y => x.size = 0 ∨ y.size = 0 ∨ (d.nV ≤ x.size ∧ d.nC ≤ y.size)
  | .optimize _ _ oc => oc ≠ .rejected
  | _ => True

theorem safe_builder (hw : WarmSafe d m) {f : Builder K → Exec (Builder K × Bool)} {P : LMpc K × LOut K → Prop}
    (h : Post (m.onBuilder f) P) : Post (m.onBuilder f) (fun r => P r ∧ WarmSafe d r.1) := by
  obtain ⟨r, hr, hp⟩ := h
  refine ⟨r, hr, hp, ?_⟩
  simp only [onBuilder, bind_eq_ok] at hr
  obtain ⟨q, _, h2⟩ := hr
  cases h2
  exact hw

theorem step_total (hd : d.Valid) (hph : d.ph < 2 ^ 30) (hch : d.ch < 2 ^ 30) (hm : Inv d m c) (hw : WarmSafe d m)
    {op : LOp K} (hs : Spec.Sized d op) (hn : Spec.SliceNonneg op) (hsafe : Safe d op) :
    ∃ r, m.step op = .ok r := by
  have fromPost : ∀ {e : Exec (LMpc K × LOut K)}, Post e (StepOk d c op) → ∃ r, e = .ok r := fun h => by
    obtain ⟨r, hr, _⟩ := h; exact ⟨r, hr⟩
  have fromAcc : ∀ {e : Exec (LMpc K × LOut K)}, Post e (AccOk d c op) → ∃ r, e = .ok r := fun h => fromPost h.stepOk
  cases op with
  | setStateSpaceModel A B C =>
    exact fromAcc (whole_builder (op := .setStateSpaceModel A B C) (f := fun b => b.setStateModel A B C) hm rfl rfl rfl rfl
      (Builder.setStateModel_post hd.ph_pos hm.builder hs.1 hs.2.1 hs.2.2))
  | setDisturbances Bd Dd =>
    exact fromAcc (whole_builder (op := .setDisturbances Bd Dd) (f := fun b => b.setExogenousInput Bd Dd) hm rfl rfl rfl rfl
      (Builder.setExogenousInput_post hd.ph_pos hm.builder hs.1 hs.2))
  | setObjectiveWeights OW UW DW =>
    exact fromAcc (whole_builder (op := .setObjectiveWeights OW UW DW) (f := fun b => b.setObjective OW UW DW) hm rfl rfl rfl rfl
      (Builder.setObjective_post hd.ph_pos hm.builder (matrix_columns hs.1) (matrix_columns hs.2.1)
        (matrix_columns hs.2.2)))
  | setObjectiveWeightsSlice OW UW DW sl =>
    obtain ⟨h1, h2, h3, h32⟩ := hs
    refine fromPost (sliceOp_post hm (hm.dims ▸ hph) (hn sl rfl) ?_ ?_)
    · rintro rfl; exact Exec.Post.stepOk (weights_whole hd hm h1 h2 h3)
    · intro hne hv
      exact Exec.Post.stepOk (weights_loop hd hm h1 h2 h3 h32 ((hn sl rfl).resolve_left hne) hv)
  | setStateBounds mn mx =>
    exact fromAcc (whole_builder (op := .setStateBounds mn mx) (f := fun b => b.setStateBounds mn mx) hm rfl rfl rfl rfl
      (Builder.setStateBounds_post hd.ph_pos hm.builder (matrix_columns hs.1) (matrix_columns hs.2)))
  | setStateBoundsSlice mn mx sl =>
    obtain ⟨h1, h2, h32⟩ := hs
    refine fromPost (sliceOp_post hm (hm.dims ▸ hph) (hn sl rfl) ?_ ?_)
    · rintro rfl; exact Exec.Post.stepOk (stateBounds_whole hd hm h1 h2)
    · intro hne hv
      exact Exec.Post.stepOk (stateBounds_loop hd hm h1 h2 h32 ((hn sl rfl).resolve_left hne) hv)
  | setInputBounds mn mx =>
    have hch : d.ch = d.ph := hsafe
    exact fromAcc (whole_builder (op := .setInputBounds mn mx) (f := fun b => b.setInputBounds mn mx) hm rfl rfl rfl rfl
        (Builder.setInputBounds_post hd hm.builder hch (inputColumns hs.1 hch) (inputColumns hs.2 hch)))
  | setInputBoundsSlice mn mx sl =>
    obtain ⟨h1, h2, h32⟩ := hs
    refine fromPost (sliceOp_post hm (hm.dims ▸ hch) (hn sl rfl) ?_ ?_)
    · rintro rfl
      refine Exec.Post.stepOk (inputBounds_whole hd hm h1 h2 ?_)
      simp only [Safe, if_true] at hsafe
      exact hsafe
    · intro hne hv
      simp only [Safe, if_neg hne] at hsafe
      exact Exec.Post.stepOk (inputBounds_loop hd hm h1 h2 h32 ((hn sl rfl).resolve_left hne) hsafe hv)
  | setOutputBounds mn mx =>
    exact fromAcc (whole_builder (op := .setOutputBounds mn mx) (f := fun b => b.setOutputBounds mn mx) hm rfl rfl rfl rfl
      (Builder.setOutputBounds_post hd.ph_pos hm.builder (matrix_columns hs.1) (matrix_columns hs.2)))
  | setOutputBoundsSlice mn mx sl =>
    obtain ⟨h1, h2, h32⟩ := hs
    refine fromPost (sliceOp_post hm (hm.dims ▸ hph) (hn sl rfl) ?_ ?_)
    · rintro rfl; exact Exec.Post.stepOk (outputBounds_whole hd hm h1 h2)
    · intro hne hv
      exact Exec.Post.stepOk (outputBounds_loop hd hm h1 h2 h32 ((hn sl rfl).resolve_left hne) hv)
  | setScalarConstraintSlice mn mx X U sl =>
    obtain ⟨h1, h2, h32⟩ := hs
    refine fromPost (sliceOp_post hm (hm.dims ▸ hph) (hn sl rfl) ?_ ?_)
    · rintro rfl; exact Exec.Post.stepOk (scalar_whole hd hm h1 h2)
    · intro hne hv
      exact Exec.Post.stepOk (scalar_loop hd hm h1 h2 h32 ((hn sl rfl).resolve_left hne) hv)
  | setScalarConstraintAt i mn mx X U =>
    obtain ⟨h1, h2, h32⟩ := hs
    simp only [step, setScalarConstraintAt]
    rw [hm.dims]
    by_cases hi : i ≥ d.ph
    · rw [if_pos hi]; exact ⟨_, rfl⟩
    · rw [if_neg hi]
      exact fromAcc (whole_builder (op := .setScalarConstraintAt i mn mx X U)
        (f := fun b => b.setScalarConstraintAt i mn mx X U) hm rfl rfl rfl rfl
        (Builder.setScalarConstraintAt_post hd hm.builder (by omega) h1 h2))
  | setExogenousInputs M => exact ⟨_, rfl⟩
  | setExogenousInputsSlice v sl =>
    obtain ⟨h1, h32⟩ := hs
    refine fromPost (sliceOp_post hm (hm.dims ▸ hch) (hn sl rfl) ?_ ?_)
    · rintro rfl; exact Exec.Post.stepOk (exo_whole hm h1)
    · intro hne hv
      exact Exec.Post.stepOk (exo_loop hd hm h1 h32 ((hn sl rfl).resolve_left hne) (hsafe.resolve_left hne) hv)
  | setReferences Y U D => exact ⟨_, rfl⟩
  | setReferencesSlice y u du sl =>
    obtain ⟨h1, h2, h3, h32⟩ := hs
    refine fromPost (sliceOp_post hm (hm.dims ▸ hph) (hn sl rfl) ?_ ?_)
    · rintro rfl; exact Exec.Post.stepOk (refs_whole hm h1 h2 h3)
    · intro hne hv
      exact Exec.Post.stepOk (refs_loop hd hm h1 h2 h3 h32 ((hn sl rfl).resolve_left hne) hv)
  | setOptimizerParameters p =>
    cases p with
    | linear p => exact ⟨_, rfl⟩
    | other => exact absurd rfl hsafe
  | setSolverWarmStart x y => exact ⟨_, rfl⟩
  | setDiscretizationSamplingTime ts => exact ⟨_, rfl⟩
  | setInputScale s => exact ⟨_, rfl⟩
  | setStateScale s => exact ⟨_, rfl⟩
  | optimize x0 u0 oc =>
    cases oc with
    | rejected => exact absurd rfl hsafe
    | answered st obj sol => exact fromPost (optimize_post hd hm hs.1 hs.2 hw.fits)

end LMpc
end Mpc
