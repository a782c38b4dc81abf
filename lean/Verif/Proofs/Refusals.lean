import Verif.Proofs.Messages
import Verif.Proofs.LinHist

/-
What the linear controller returns and which error messages it writes.
-/
namespace Mpc
open Mpc.Spec Exec

/-- whatever the computation returns satisfies `Q` -/
def Always {α : Type} (e : Exec α) (Q : α → Prop) : Prop := ∀ a, e = .ok a → Q a

theorem Always.bind {α β : Type} {e : Exec α} {f : α → Exec β} {Q : β → Prop} (h : ∀ a, Always (f a) Q) :
    Always (e >>= f) Q := by
  intro b hb
  rw [bind_eq_ok] at hb
  obtain ⟨a, _, ha⟩ := hb
  exact h a b ha

theorem Always.bind' {α β : Type} {e : Exec α} {f : α → Exec β} {P : α → Prop} {Q : β → Prop} (he : Always e P)
    (h : ∀ a, P a → Always (f a) Q) : Always (e >>= f) Q := by
  intro b hb
  rw [bind_eq_ok] at hb
  obtain ⟨a, h1, ha⟩ := hb
  exact h a (he a h1) b ha

theorem always_ok {α : Type} {a : α} {Q : α → Prop} (h : Q a) : Always (.ok a : Exec α) Q := by
  intro b hb
  cases hb
  exact h

/-- the flag is true -/
abbrev Yes {α : Type} (r : α × Bool) : Prop := r.2 = true

variable {K : Type} [Field K]

namespace Builder

theorem build_yes {b : Builder K} : Always b.build Yes := by
  unfold build
  repeat (with_reducible refine Always.bind fun _ => ?_)
  exact always_ok rfl

theorem setStateModel_yes {b : Builder K} {A B C} : Always (b.setStateModel A B C) Yes := by
  unfold setStateModel
  repeat (with_reducible refine Always.bind fun _ => ?_)
  exact build_yes

theorem setExogenousInput_yes {b : Builder K} {A B} : Always (b.setExogenousInput A B) Yes := by
  unfold setExogenousInput
  repeat (with_reducible refine Always.bind fun _ => ?_)
  exact build_yes

theorem setObjective_yes {b : Builder K} {A B C} : Always (b.setObjective A B C) Yes := by
  unfold setObjective
  repeat (with_reducible refine Always.bind fun _ => ?_)
  exact build_yes

theorem setObjectiveAt_yes {b : Builder K} {i A B C} : Always (b.setObjectiveAt i A B C) Yes := by
  unfold setObjectiveAt
  repeat (with_reducible refine Always.bind fun _ => ?_)
  exact build_yes

theorem setScalarConstraintAt_yes {b : Builder K} {i A B C D} : Always (b.setScalarConstraintAt i A B C D) Yes := by
  unfold setScalarConstraintAt
  repeat (with_reducible refine Always.bind fun _ => ?_)
  exact build_yes

theorem setScalarConstraint_yes {b : Builder K} {A B C D} : Always (b.setScalarConstraint A B C D) Yes := by
  unfold setScalarConstraint
  repeat (with_reducible refine Always.bind fun _ => ?_)
  exact build_yes

theorem setStateBounds_yes {b : Builder K} {A B} : Always (b.setStateBounds A B) Yes := by
  unfold setStateBounds
  repeat (with_reducible refine Always.bind fun _ => ?_)
  exact build_yes

theorem setInputBounds_yes {b : Builder K} {A B} : Always (b.setInputBounds A B) Yes := by
  unfold setInputBounds
  repeat (with_reducible refine Always.bind fun _ => ?_)
  split
  · repeat (with_reducible refine Always.bind fun _ => ?_)
    exact build_yes
  · exact build_yes

theorem setOutputBounds_yes {b : Builder K} {A B} : Always (b.setOutputBounds A B) Yes := by
  unfold setOutputBounds
  repeat (with_reducible refine Always.bind fun _ => ?_)
  exact build_yes

theorem setStateBoundsAt_yes {b : Builder K} {i A B} : Always (b.setStateBoundsAt i A B) Yes := by
  unfold setStateBoundsAt
  repeat (with_reducible refine Always.bind fun _ => ?_)
  exact build_yes

theorem setInputBoundsAt_yes {b : Builder K} {i A B} : Always (b.setInputBoundsAt i A B) Yes := by
  unfold setInputBoundsAt
  repeat (with_reducible refine Always.bind fun _ => ?_)
  exact build_yes

theorem setOutputBoundsAt_yes {b : Builder K} {i A B} : Always (b.setOutputBoundsAt i A B) Yes := by
  unfold setOutputBoundsAt
  repeat (with_reducible refine Always.bind fun _ => ?_)
  exact build_yes

end Builder

/-- a loop over steps each of which answers yes -/
theorem forFrom_yes {σ : Type} {f : Nat → σ → Exec (σ × Bool)} (hf : ∀ i s, Always (f i s) Yes) (n : Nat) :
    ∀ (a : Nat) (s : σ × Bool), s.2 = true →
      Always (forFrom a n s fun i (s, ret) => if ret then f i s else .ok (s, false)) Yes := by
  induction n with
  | zero => intro a s hs; exact always_ok hs
  | succ n ih =>
    intro a s hs
    obtain ⟨s, b⟩ := s
    obtain rfl : b = true := hs
    rw [forFrom]
    exact Always.bind' (hf a s) fun r hr => ih (a + 1) r hr

theorem sliceLoop_yes {σ : Type} {f : Nat → σ → Exec (σ × Bool)} (hf : ∀ i s, Always (f i s) Yes) (sl : HorizonSlice) (s : σ) :
    Always (sliceLoop sl s f) Yes := forFrom_yes hf _ _ _ rfl

namespace LMpc
variable {m : LMpc K}

/-- the call answers true -/
abbrev SaysYes (r : LMpc K × LOut K) : Prop := r.2 = .bool true

theorem onBuilder_yes {f : Builder K → Exec (Builder K × Bool)} (h : Always (f m.b) Yes) : Always (m.onBuilder f) SaysYes := by
  unfold onBuilder
  refine Always.bind' h fun r hr => always_ok ?_
  obtain ⟨b, t⟩ := r
  obtain rfl : t = true := hr
  rfl

theorem onOptimizer_yes {f : LOpt K → Exec (LOpt K × Bool)} (h : Always (f m.o) Yes) : Always (m.onOptimizer f) SaysYes := by
  unfold onOptimizer
  refine Always.bind' h fun r hr => always_ok ?_
  obtain ⟨b, t⟩ := r
  obtain rfl : t = true := hr
  rfl

/-- a slice setter answers false exactly when it writes its message -/
theorem sliceOp_says {h : Nat} {sl : HorizonSlice} {whole loop : Exec (LMpc K × LOut K)} (t : String)
    (hw : Always whole SaysYes) (hl : Always loop SaysYes) :
    Always (sliceOp m h sl whole loop) fun r =>
      (r.2 = .bool true ∧ sliceMsgs t h sl = []) ∨ (r.2 = .bool false ∧ sliceMsgs t h sl = [⟨.ERROR, t⟩]) := by
  intro r hr
  unfold sliceOp at hr
  unfold sliceMsgs
  by_cases hu : isSliceUnset sl = true
  · rw [if_pos hu] at hr ⊢
    exact .inl ⟨hw r hr, rfl⟩
  · rw [if_neg hu] at hr ⊢
    rw [bind_eq_ok] at hr
    obtain ⟨v, hv, hr⟩ := hr
    rw [hv]
    cases v with
    | true => exact .inl ⟨hl r hr, rfl⟩
    | false => cases hr; exact .inr ⟨rfl, rfl⟩

end LMpc
end Mpc
