import Verif.Proofs.NlTotal
import Verif.Spec.NlLast

/-
The abstract state after a history in terms of the last values set.
-/
namespace Mpc
open Exec
set_option linter.unusedSectionVars false

variable {d : Dims} {K : Type} [Field K] [LinearOrder K] [IsStrictOrderedRing K]

theorem NlSpec.last_append {β α : Type} (f : β → Option α) (l l' : List β) :
    NlSpec.last f (l ++ l') = (NlSpec.last f l').or (NlSpec.last f l) := by
  induction l with
  | nil => simp [NlSpec.last]
  | cons b l ih => rw [List.cons_append, NlSpec.last, NlSpec.last, ih, Option.or_assoc]

theorem NlSpec.last_snoc {β α : Type} (f : β → Option α) (l : List β) (b : β) :
    NlSpec.last f (l ++ [b]) = (f b).or (NlSpec.last f l) := by
  rw [NlSpec.last_append]
  simp [NlSpec.last]

theorem Option.getD_or' {α : Type} (a b : Option α) (x : α) : (a.or b).getD x = a.getD (b.getD x) := by
  cases a <;> rfl

/-- induction over a history with what its calls returned -/
theorem history_induction {P : List (NlCall d K) → List (NlOut K) → Prop} (h0 : P [] [])
    (hs : ∀ ops outs op o, outs.length = ops.length → P ops outs → P (ops ++ [op]) (outs ++ [o]))
    {ops : List (NlCall d K)} {outs : List (NlOut K)} (hl : outs.length = ops.length) : P ops outs := by
  induction ops using List.reverseRecOn generalizing outs with
  | nil =>
    obtain rfl : outs = [] := List.length_eq_zero_iff.1 (by simpa using hl)
    exact h0
  | append_singleton ops op ih =>
    rcases List.eq_nil_or_concat outs with rfl | ⟨outs', o, rfl⟩
    · simp at hl
    · have hl' : outs'.length = ops.length := by simpa using hl
      rw [List.concat_eq_append]
      exact hs _ _ _ _ hl' (ih hl')

/-- a component of the abstract state which is the last value set -/
theorem after_last {α : Type} (π : NlCtl d K → α) (f : NlCall d K → Option α)
    (hs : ∀ c b op, π (NlCtl.step c b op) = (f op).getD (π c)) {ops : List (NlCall d K)} {outs : List (NlOut K)}
    (hl : outs.length = ops.length) :
    π (NlCtl.after d ops outs) = (NlSpec.last f ops).getD (π (NlCtl.fresh d)) := by
  refine history_induction (P := fun ops outs => π (NlCtl.after d ops outs) = (NlSpec.last f ops).getD (π (NlCtl.fresh d)))
    rfl ?_ hl
  intro ops outs op o hl ih
  rw [NlMpc.after_snoc hl, hs, ih, NlSpec.last_snoc, Option.getD_or']

/-- the same with the returned values -/
theorem after_last_out {α : Type} (π : NlCtl d K → α) (f : NlCall d K × NlOut K → Option α)
    (hs : ∀ c op (o : NlOut K), π (NlCtl.step c o.refused op) = (f (op, o)).getD (π c)) {ops : List (NlCall d K)}
    {outs : List (NlOut K)} (hl : outs.length = ops.length) :
    π (NlCtl.after d ops outs) = (NlSpec.last f (ops.zip outs)).getD (π (NlCtl.fresh d)) := by
  refine history_induction
    (P := fun ops outs => π (NlCtl.after d ops outs) = (NlSpec.last f (ops.zip outs)).getD (π (NlCtl.fresh d))) rfl ?_ hl
  intro ops outs op o hl ih
  rw [NlMpc.after_snoc hl, hs, ih, List.zip_append hl.symm, List.zip_cons_cons, List.zip_nil_right, NlSpec.last_snoc,
    Option.getD_or']

/-- case distinction over the calls for a component that only some calls set -/
macro "call_cases" op:ident b:ident : tactic => `(tactic|
  (cases $op:ident with
  | setOptimizerParameters p => cases p <;> rfl
  | setStateBoundsSlice l u s => cases $b:ident <;> rfl
  | setInputBoundsSlice l u s => cases $b:ident <;> rfl
  | optimize x0 u0 cs oc j => rcases oc with _ | ⟨z, v, k, _ | _⟩ <;> rfl
  | _ => rfl))

theorem after_inScale {ops : List (NlCall d K)} {outs : List (NlOut K)} (hl : outs.length = ops.length) :
    (NlCtl.after d ops outs).cfg.inScale = NlSpec.inScale ops :=
  after_last (fun c => c.cfg.inScale) NlSpec.inScaleOf (fun c b op => by call_cases op b) hl

theorem after_stScale {ops : List (NlCall d K)} {outs : List (NlOut K)} (hl : outs.length = ops.length) :
    (NlCtl.after d ops outs).cfg.stScale = NlSpec.stScale ops :=
  after_last (fun c => c.cfg.stScale) NlSpec.stScaleOf (fun c b op => by call_cases op b) hl

theorem getD_map_some {α : Type} (o : Option α) : (o.map some).getD none = o := by cases o <;> rfl

theorem last_map {β α γ : Type} (f : β → Option α) (g : α → γ) (l : List β) :
    NlSpec.last (fun b => (f b).map g) l = (NlSpec.last f l).map g := by
  induction l with
  | nil => rfl
  | cons b l ih => rw [NlSpec.last, NlSpec.last, ih]; cases NlSpec.last f l <;> rfl

/-- an optional component which is the last value set -/
theorem after_opt {α : Type} (π : NlCtl d K → Option α) (f : NlCall d K → Option α) (h0 : π (NlCtl.fresh d) = none)
    (hs : ∀ c b op, π (NlCtl.step c b op) = (f op).or (π c)) {ops : List (NlCall d K)} {outs : List (NlOut K)}
    (hl : outs.length = ops.length) : π (NlCtl.after d ops outs) = NlSpec.last f ops := by
  rw [after_last π (fun op => (f op).map some) (fun c b op => by rw [hs]; cases f op <;> rfl) hl, h0, last_map,
    getD_map_some]

theorem after_obj {ops : List (NlCall d K)} {outs : List (NlOut K)} (hl : outs.length = ops.length) :
    (NlCtl.after d ops outs).cfg.obj = NlSpec.last NlSpec.objectiveOf ops :=
  after_opt (fun c => c.cfg.obj) NlSpec.objectiveOf rfl (fun c b op => by call_cases op b) hl

theorem after_field {ops : List (NlCall d K)} {outs : List (NlOut K)} (hl : outs.length = ops.length) :
    (NlCtl.after d ops outs).cfg.field = NlSpec.last NlSpec.modelOf ops :=
  after_opt (fun c => c.cfg.field) NlSpec.modelOf rfl (fun c b op => by call_cases op b) hl

theorem after_out {ops : List (NlCall d K)} {outs : List (NlOut K)} (hl : outs.length = ops.length) :
    (NlCtl.after d ops outs).cfg.out = NlSpec.last NlSpec.outputOf ops :=
  after_opt (fun c => c.cfg.out) NlSpec.outputOf rfl (fun c b op => by call_cases op b) hl

/-- inequality constraints with their tolerance -/
theorem after_ineq {ops : List (NlCall d K)} {outs : List (NlOut K)} (hl : outs.length = ops.length) :
    (NlCtl.after d ops outs).cfg.ineq.map (fun F => (F, (NlCtl.after d ops outs).ti)) = NlSpec.last NlSpec.ineqConOf ops :=
  after_opt (fun c => c.cfg.ineq.map fun F => (F, c.ti)) NlSpec.ineqConOf rfl (fun c b op => by call_cases op b) hl

/-- equality constraints with their tolerance -/
theorem after_eq {ops : List (NlCall d K)} {outs : List (NlOut K)} (hl : outs.length = ops.length) :
    (NlCtl.after d ops outs).cfg.eq.map (fun F => (F, (NlCtl.after d ops outs).te)) = NlSpec.last NlSpec.eqConOf ops :=
  after_opt (fun c => c.cfg.eq.map fun F => (F, c.te)) NlSpec.eqConOf rfl (fun c b op => by call_cases op b) hl

theorem after_warm {ops : List (NlCall d K)} {outs : List (NlOut K)} (hl : outs.length = ops.length) :
    (NlCtl.after d ops outs).warm = NlSpec.WarmStart ops := by
  unfold NlSpec.WarmStart
  rw [after_last (fun c => c.warm) (fun op => (NlSpec.paramsOf op).map (·.enable_warm_start))
    (fun c b op => by call_cases op b) hl, last_map]
  rfl

theorem after_first {ops : List (NlCall d K)} {outs : List (NlOut K)} (hl : outs.length = ops.length) :
    (NlCtl.after d ops outs).first = (NlSpec.last NlSpec.solutionOf ops).isNone := by
  rw [after_last (fun c => c.first) (fun op => (NlSpec.solutionOf op).map fun _ => false)
    (fun c b op => by call_cases op b) hl, last_map]
  cases NlSpec.last NlSpec.solutionOf ops <;> rfl

end Mpc
