import Verif.Proofs.QpRows

/-
Which calls are accepted, and controllers that have accepted a given list of calls. Used to show that the
hypotheses of the property theorems are met, and to build the witnesses of violated properties.
-/
namespace Mpc
open Exec
set_option linter.unusedSectionVars false

/-- The slice passes the code's check against horizon `h` (for slices with non-negative start). -/
def SliceIn (h : Nat) (sl : HorizonSlice) : Prop :=
  sl = HorizonSlice.all ∨ (0 ≤ sl.start ∧ sl.start < sl.stop ∧ sl.start + sl.stop ≤ (h : Int))

namespace LMpc
variable {K : Type} [Zero K] [One K] [Add K] [Mul K] [Neg K] [Div K] [NatCast K] [ExactOps K] [DecidableEq K] {d : Dims} {m : LMpc K} {c : Spec.LinConfig K}

theorem sliceOp_accept {h : Nat} {sl : HorizonSlice} {whole loop : Exec (LMpc K × LOut K)}
    {P : LMpc K × LOut K → Prop} (hh : h < 2 ^ 30) (hs : SliceIn h sl)
    (hw : sl = HorizonSlice.all → Post whole P)
    (hl : 0 ≤ sl.start → isSliceValid h sl = .ok true → Post loop P) : Post (sliceOp m h sl whole loop) P := by
  unfold sliceOp
  by_cases hu : isSliceUnset sl = true
  · rw [if_pos hu]
    exact hw (isSliceUnset_iff.mp hu)
  · rw [if_neg hu]
    have hne : sl ≠ HorizonSlice.all := fun h => hu (isSliceUnset_iff.mpr h)
    obtain ⟨h0, h1, h2⟩ := hs.resolve_left hne
    have hv := isSliceValid_eq (h := h) h0 hh
    rw [decide_eq_true ⟨h1, h2⟩] at hv
    rw [hv]
    exact hl h0 hv

/-- The calls that the code accepts. -/
def Accepts (d : Dims) : LOp K → Prop
  | .setStateSpaceModel _ _ _ => True
  | .setDisturbances _ _ => True
  | .setObjectiveWeights _ _ _ => True
  | .setObjectiveWeightsSlice _ _ _ s => SliceIn d.ph s
  | .setStateBounds _ _ => True
  | .setStateBoundsSlice _ _ s => SliceIn d.ph s
  | .setInputBounds _ _ => d.ch = d.ph
  | .setInputBoundsSlice _ _ s => SliceIn d.ch s ∧ if s = HorizonSlice.all then d.ch = d.ph else d.ch ≤ d.ph
  | .setOutputBounds _ _ => True
  | .setOutputBoundsSlice _ _ s => SliceIn d.ph s
  | .setScalarConstraintSlice _ _ _ _ s => SliceIn d.ph s
  | .setScalarConstraintAt i _ _ _ _ => i < d.ph
  | .setExogenousInputs _ => True
  | .setExogenousInputsSlice _ s => SliceIn d.ch s ∧ (s = HorizonSlice.all ∨ d.ch ≤ d.ph)
  | .setReferences _ _ _ => True
  | .setReferencesSlice _ _ _ s => SliceIn d.ph s
  | _ => False

theorem SliceIn.nonneg {h : Nat} {s : HorizonSlice} (hs : SliceIn h s) : s = HorizonSlice.all ∨ 0 ≤ s.start :=
  hs.imp id fun h => h.1

theorem Accepts.sliceNonneg {op : LOp K} (h : Accepts d op) : Spec.SliceNonneg op := by
  intro s hs
  cases op <;> simp only [Spec.sliceOf, reduceCtorEq, Option.some.injEq] at hs
  · subst hs; exact SliceIn.nonneg h
  · subst hs; exact SliceIn.nonneg h
  · subst hs; exact SliceIn.nonneg h.1
  · subst hs; exact SliceIn.nonneg h
  · subst hs; exact SliceIn.nonneg h
  · subst hs; exact SliceIn.nonneg h.1
  · subst hs; exact SliceIn.nonneg h

/-- An acceptable call is accepted and has its effect. -/
theorem step_accepts (hd : d.Valid) (hph : d.ph < 2 ^ 30) (hch : d.ch < 2 ^ 30) (hm : Inv d m c)
    {op : LOp K} (hs : Spec.Sized d op) (ha : Accepts d op) : Post (m.step op) (AccOk d c op) := by
  cases op with
  | setStateSpaceModel A B C =>
    exact (whole_builder (op := .setStateSpaceModel A B C) (f := fun b => b.setStateModel A B C) hm rfl rfl rfl rfl
      (Builder.setStateModel_post hd.ph_pos hm.builder hs.1 hs.2.1 hs.2.2))
  | setDisturbances Bd Dd =>
    exact (whole_builder (op := .setDisturbances Bd Dd) (f := fun b => b.setExogenousInput Bd Dd) hm rfl rfl rfl rfl
      (Builder.setExogenousInput_post hd.ph_pos hm.builder hs.1 hs.2))
  | setObjectiveWeights OW UW DW =>
    exact (whole_builder (op := .setObjectiveWeights OW UW DW) (f := fun b => b.setObjective OW UW DW) hm rfl rfl rfl rfl
      (Builder.setObjective_post hd.ph_pos hm.builder (matrix_columns hs.1) (matrix_columns hs.2.1)
        (matrix_columns hs.2.2)))
  | setObjectiveWeightsSlice OW UW DW sl =>
    obtain ⟨h1, h2, h3, h32⟩ := hs
    refine sliceOp_accept (hm.dims ▸ hph) (hm.dims ▸ ha) ?_ ?_
    · rintro rfl; exact weights_whole hd hm h1 h2 h3
    · intro h0 hv; exact weights_loop hd hm h1 h2 h3 h32 h0 hv
  | setStateBounds mn mx =>
    exact (whole_builder (op := .setStateBounds mn mx) (f := fun b => b.setStateBounds mn mx) hm rfl rfl rfl rfl
      (Builder.setStateBounds_post hd.ph_pos hm.builder (matrix_columns hs.1) (matrix_columns hs.2)))
  | setStateBoundsSlice mn mx sl =>
    obtain ⟨h1, h2, h32⟩ := hs
    refine sliceOp_accept (hm.dims ▸ hph) (hm.dims ▸ ha) ?_ ?_
    · rintro rfl; exact stateBounds_whole hd hm h1 h2
    · intro h0 hv; exact stateBounds_loop hd hm h1 h2 h32 h0 hv
  | setInputBounds mn mx =>
    have hch : d.ch = d.ph := ha
    exact (whole_builder (op := .setInputBounds mn mx) (f := fun b => b.setInputBounds mn mx) hm rfl rfl rfl rfl
        (Builder.setInputBounds_post hd hm.builder hch (inputColumns hs.1 hch) (inputColumns hs.2 hch)))
  | setInputBoundsSlice mn mx sl =>
    obtain ⟨h1, h2, h32⟩ := hs
    obtain ⟨ha, hb⟩ := ha
    refine sliceOp_accept (hm.dims ▸ hch) (hm.dims ▸ ha) ?_ ?_
    · rintro rfl
      rw [if_pos rfl] at hb
      exact inputBounds_whole hd hm h1 h2 hb
    · intro h0 hv
      rw [if_neg (by rintro rfl; exact absurd h0 (by decide))] at hb
      exact inputBounds_loop hd hm h1 h2 h32 h0 hb hv
  | setOutputBounds mn mx =>
    exact (whole_builder (op := .setOutputBounds mn mx) (f := fun b => b.setOutputBounds mn mx) hm rfl rfl rfl rfl
      (Builder.setOutputBounds_post hd.ph_pos hm.builder (matrix_columns hs.1) (matrix_columns hs.2)))
  | setOutputBoundsSlice mn mx sl =>
    obtain ⟨h1, h2, h32⟩ := hs
    refine sliceOp_accept (hm.dims ▸ hph) (hm.dims ▸ ha) ?_ ?_
    · rintro rfl; exact outputBounds_whole hd hm h1 h2
    · intro h0 hv; exact outputBounds_loop hd hm h1 h2 h32 h0 hv
  | setScalarConstraintSlice mn mx X U sl =>
    obtain ⟨h1, h2, h32⟩ := hs
    refine sliceOp_accept (hm.dims ▸ hph) (hm.dims ▸ ha) ?_ ?_
    · rintro rfl; exact scalar_whole hd hm h1 h2
    · intro h0 hv; exact scalar_loop hd hm h1 h2 h32 h0 hv
  | setScalarConstraintAt i mn mx X U =>
    obtain ⟨h1, h2, h32⟩ := hs
    have hi : i < d.ph := ha
    simp only [step, setScalarConstraintAt]
    rw [hm.dims, if_neg (by omega)]
    exact (whole_builder (op := .setScalarConstraintAt i mn mx X U)
        (f := fun b => b.setScalarConstraintAt i mn mx X U) hm rfl rfl rfl rfl
        (Builder.setScalarConstraintAt_post hd hm.builder hi h1 h2))
  | setExogenousInputs M =>
    exact (opt_step (op := .setExogenousInputs M) (f := fun o => .ok (o.setExogenousInputs M)) hm (by rfl)
      (post_ok ⟨rfl, LOpt.setExogenous_good hm.opt (matrix_columns hs)⟩))
  | setExogenousInputsSlice v sl =>
    obtain ⟨h1, h32⟩ := hs
    obtain ⟨ha, hb⟩ := ha
    refine sliceOp_accept (hm.dims ▸ hch) (hm.dims ▸ ha) ?_ ?_
    · rintro rfl; exact exo_whole hm h1
    · intro h0 hv
      refine exo_loop hd hm h1 h32 h0 (hb.resolve_left ?_) hv
      rintro rfl; exact absurd h0 (by decide)
  | setReferences Y U D =>
    exact (opt_step (op := .setReferences Y U D) (f := fun o => .ok (o.setReferences Y U D)) hm (by rfl)
      (post_ok ⟨rfl, LOpt.setReferences_good hm.opt (matrix_columns hs.1) (matrix_columns hs.2.1)
        (matrix_columns hs.2.2)⟩))
  | setReferencesSlice y u du sl =>
    obtain ⟨h1, h2, h3, h32⟩ := hs
    refine sliceOp_accept (hm.dims ▸ hph) (hm.dims ▸ ha) ?_ ?_
    · rintro rfl; exact refs_whole hm h1 h2 h3
    · intro h0 hv; exact refs_loop hd hm h1 h2 h3 h32 h0 hv
  | _ => exact absurd ha id

/-- A list of acceptable calls is accepted. -/
theorem exec_accepts (hd : d.Valid) (hph : d.ph < 2 ^ 30) (hch : d.ch < 2 ^ 30) :
    ∀ (ops : List (LOp K)) {m : LMpc K} {c : Spec.LinConfig K}, Inv d m c → WarmSafe d m →
    (∀ op ∈ ops, Spec.Sized d op ∧ Accepts d op) →
    ∃ m', m.exec ops = .ok (m', ops.map fun _ => .bool true) ∧ Inv d m' (ops.foldl Spec.LinConfig.apply c) ∧
      WarmSafe d m'
  | [], m, c, hm, hw, _ => ⟨m, rfl, hm, hw⟩
  | op :: ops, m, c, hm, hw, hs => by
    have h0 := hs op List.mem_cons_self
    obtain ⟨⟨m1, o1⟩, h1, h2, h3⟩ := step_accepts hd hph hch hm h0.1 h0.2
    have hsafe : Safe d op := by
      have := h0.2
      cases op <;> simp only [Accepts, Safe] at this ⊢ <;> first | trivial | exact this | exact this.2
    obtain ⟨m2, h4, h5, h6⟩ := exec_accepts hd hph hch ops h3 (step_warm hd hm hw h0.1 hsafe h1)
      (fun o ho => hs o (List.mem_cons_of_mem _ ho))
    refine ⟨m2, ?_, h5, h6⟩
    simp only at h2
    simp only [exec, h1, ok_bind, h4, h2]
    rfl

end LMpc

section
variable {K : Type} [Zero K] [One K] [Add K] [Mul K] [Neg K] [Div K] [NatCast K] [ExactOps K] [DecidableEq K]

theorem configOf_accepted (ops : List (LOp K)) :
    Spec.configOf ops (ops.map fun _ => .bool true) = ops.foldl Spec.LinConfig.apply Spec.LinConfig.default := by
  suffices h : ∀ c : Spec.LinConfig K, c.after ops (ops.map fun _ => .bool true) = ops.foldl Spec.LinConfig.apply c from
    h _
  induction ops with
  | nil => intro c; rfl
  | cons op ops ih => intro c; simp only [List.map_cons, Spec.LinConfig.after, Spec.accepted, if_true, List.foldl_cons, ih]

/-- There is a controller on which the acceptable calls `ops` have been made. -/
theorem configured_of_accepts {d : Dims} (hd : d.Valid) (hph : d.ph < 2 ^ 30) (hch : d.ch < 2 ^ 30)
    {ops : List (LOp K)} (hs : ∀ op ∈ ops, Spec.Sized d op ∧ LMpc.Accepts d op) :
    ∃ m, Spec.Configured d ops (ops.map fun _ => .bool true) m ∧ LMpc.WarmSafe d m := by
  obtain ⟨m0, h0, hi⟩ := LMpc.new_inv hd (fun _ _ => (0 : K)) (fun _ => 0)
  obtain ⟨m, h1, h2, h3⟩ := LMpc.exec_accepts hd hph hch ops hi (LMpc.new_warmSafe h0) hs
  exact ⟨m, ⟨hd, fun op ho => ⟨(hs op ho).1, (hs op ho).2.sliceNonneg⟩, _, _, m0, h0, h1⟩, h3⟩

/-- ... and which then answered `optimize`, whatever OSQP answered. -/
theorem asked_of_accepts {d : Dims} (hd : d.Valid) (hph : d.ph < 2 ^ 30) (hch : d.ch < 2 ^ 30)
    {ops : List (LOp K)} (hs : ∀ op ∈ ops, Spec.Sized d op ∧ LMpc.Accepts d op) {x0 u0 : Vec K} (hx : x0.size = d.nx)
    (hu : u0.size = d.nu) (st : Int) (obj : K) (sol : Option ((Nat → K) × (Nat → K))) :
    ∃ m m' r call, Spec.Asked d ops (ops.map fun _ => .bool true) x0 u0 (.answered st obj sol) m m' r call := by
  obtain ⟨m, hm, hw⟩ := configured_of_accepts hd hph hch hs
  obtain ⟨⟨m', out⟩, h⟩ := LMpc.step_total (op := .optimize x0 u0 (.answered st obj sol)) hd hph hch
    (configured_inv hm) hw ⟨hx, hu⟩ (fun s hs => by cases hs) (by simp [LMpc.Safe])
  have h2 := h
  simp only [LMpc.step, bind_eq_ok] at h2
  obtain ⟨q, _, h3⟩ := h2
  cases h3
  exact ⟨m, _, _, _, hm, hx, hu, h⟩

end
end Mpc
