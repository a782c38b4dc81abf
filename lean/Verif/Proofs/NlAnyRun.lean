import Verif.Proofs.NlAnySearch
import Verif.Proofs.NlTraces

/-
Histories of API calls with any answers of the user functions.
-/
namespace Mpc
open Exec NlSpec
set_option linter.unusedSectionVars false
variable {d : Dims} {K : Type} {σ : Type} [Field K] [LinearOrder K] [IsStrictOrderedRing K]

namespace NlMpc

/-- what a call returns, as far as it does not depend on the user functions -/
def CallOut (d : Dims) (op : NlCall d K) (o : NlOut K) : Prop :=
  if Props.isOptimize op then o.refused = false else OutOk d op o

theorem callOut_refused {op : NlCall d K} {o o' : NlOut K} (h : CallOut d op o) (h' : CallOut d op o') : o.refused = o'.refused := by
  unfold CallOut at h h'
  split_ifs at h h' with hn
  · rw [h, h']
  · rw [outOk_same (by simpa using hn) h h']

theorem callOut_after {ops : List (NlCall d K)} {outs outs' : List (NlOut K)} (h : List.Forall₂ (CallOut d) ops outs)
    (h' : List.Forall₂ (CallOut d) ops outs') : NlCtl.after d ops outs = NlCtl.after d ops outs' := by
  unfold NlCtl.after
  generalize (NlCtl.fresh d : NlCtl d K) = c
  induction h generalizing c outs' with
  | nil => cases h'; rfl
  | cons a _ ih =>
    cases h' with
    | cons a' t' =>
      simp only [List.zip_cons_cons, List.foldl_cons]
      rw [callOut_refused a a']
      exact ih t' _

theorem runP_snoc {junk : Nat → K} {dyn : Bool} {ops : List (NlCall d K)} {op : NlCall d K} :
    runP d junk dyn (ops ++ [op]) = (runP d junk dyn ops >>= fun q => do
      let r ← q.1.stepP op
      return (r.1, q.2 ++ [r.2])) := by
  unfold runP
  rw [List.foldl_append]
  rfl

/-- the next call of an admissible history is ready -/
theorem ready_of {dyn : Bool} {ops : List (NlCall d K)} {outs : List (NlOut K)} {op : NlCall d K} (hl : outs.length = ops.length)
    (ha : NlSpec.AdmissibleHistory d dyn (ops ++ [op])) : Ready (NlCtl.after d ops outs) dyn op := by
  have hop := ha ops op [] rfl
  cases op with
  | setEqConFunction F tol acc => exact hop.1
  | optimize x0 u0 cs oc j =>
    refine ⟨after_bound ops outs, ?_⟩
    intro hs
    obtain ⟨q, hq, F, tol, acc, rfl⟩ := after_due (fun c => c.cfg.eq) (fun q => ∃ F tol acc, q = .setEqConFunction F tol acc) rfl
      (by
        intro c b q
        cases q with
        | setEqConFunction F tol acc => exact Or.inr ⟨F, tol, acc, rfl⟩
        | optimize x0 u0 cs oc j =>
          left
          show (c.solved _ _ _).cfg.eq = _
          rw [solved_cfg]
        | setOptimizerParameters p => left; cases p <;> rfl
        | setStateBoundsSlice => left; cases b <;> rfl
        | setInputBoundsSlice => left; cases b <;> rfl
        | _ => left; rfl) hl hs
    obtain ⟨pre, post, e⟩ := List.append_of_mem hq
    have := ha pre (.setEqConFunction F tol acc) (post ++ [.optimize x0 u0 cs oc j]) (by rw [e]; simp)
    exact this.2
  | setOptimizerParameters p => exact hop
  | setStateBoundsSlice l u s => exact hop
  | setInputBoundsSlice l u s => exact hop
  | _ => trivial

/-- one call -/
theorem stepP_any {m : NlMpc d K} {c : NlCtl d K} (h : m.Agrees c) (hp : d.ph < 2 ^ 30) (hm : d.nZ ≤ 2 ^ 64) (op : NlCall d K)
    (hf : NlSpec.CallFits d op) (hr : Ready c m.dynamic op) :
    Whatever (m.stepP op) (fun _ r => r.1.Agrees (c.step r.2.refused op) ∧ r.1.dynamic = m.dynamic ∧ CallOut d op r.2) := by
  have hp' : d.ph < 2 ^ 31 := by omega
  by_cases hn : Props.isOptimize op = false
  · have e : m.stepP op = .done (m.step op) := by cases op <;> first | rfl | cases hn
    rw [e]
    obtain ⟨⟨m', o⟩, hs⟩ := step_total h hp op hf hr
    obtain ⟨h1, h2⟩ := step_agrees h hp' hm op hf hs
    have h3 := step_out h hp' hm op hf hs
    refine ⟨(m', o), hs, h1, h2, ?_⟩
    unfold CallOut
    rw [if_neg (by simp [hn])]
    exact h3
  · cases op with
    | optimize x0 u0 cs oc junk =>
      refine (optimizeP_any h hp' hf hr.1 hr.2).mono ?_
      rintro l ⟨m', o⟩ ⟨h1, h2, call, e, -⟩
      dsimp only at e
      subst e
      exact ⟨h2, h1, rfl⟩
    | _ => exact absurd rfl hn

/-- a history -/
theorem runP_any (hch : 0 < d.ch) (hle : d.ch ≤ d.ph) (hp : d.ph < 2 ^ 30) (hm : d.nZ ≤ 2 ^ 64) (junk : Nat → K) (dyn : Bool)
    (ops : List (NlCall d K)) (hf : ∀ op ∈ ops, NlSpec.CallFits d op) (ha : NlSpec.AdmissibleHistory d dyn ops) :
    Whatever (runP d junk dyn ops) (fun _ q => q.1.Agrees (NlCtl.after d ops q.2) ∧ q.1.dynamic = dyn ∧
      q.2.length = ops.length ∧ List.Forall₂ (CallOut d) ops q.2) := by
  induction ops using List.reverseRecOn with
  | nil =>
    obtain ⟨m, e, h1, h2⟩ := init_agrees hch hle (show d.ph < 2 ^ 31 by omega) junk dyn
    unfold runP
    rw [List.foldl_nil, e]
    exact Whatever.pure ⟨h1, h2, rfl, .nil⟩
  | append_singleton ops op ih =>
    rw [runP_snoc]
    refine Whatever.bind (ih (fun o ho => hf o (by simp [ho])) (fun pre o post e => ha pre o (post ++ [op]) (by rw [e]; simp))) ?_
    rintro l ⟨m, outs⟩ ⟨h1, h2, h3, h4⟩
    dsimp only at h1 h2 h3 h4 ⊢
    refine Whatever.bind (stepP_any h1 hp hm op (hf op (by simp)) (by rw [h2]; exact ready_of h3 ha)) ?_
    rintro l' ⟨m', o⟩ ⟨k1, k2, k3⟩
    dsimp only at k1 k2 k3 ⊢
    refine Whatever.pure ⟨?_, k2.trans h2, by simp [h3], ?_⟩
    · dsimp only
      rw [after_snoc h3]
      exact k1
    · exact List.rel_append h4 (.cons k3 .nil)

end NlMpc
end Mpc
