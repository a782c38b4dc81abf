import Verif.Basic.Flt
import Verif.Spec.NlFun

/-
Specification of feasibility within tolerances. A non-number satisfies nothing.
-/
namespace Mpc.NlSpec
variable {K : Type}

/-- every value is a number which is at most the tolerance -/
def WithinIneq [LE K] {n : Nat} (tol : K) (c : FVec n (Flt K)) : Prop := ∀ i, ∃ x, c i = .num x ∧ x ≤ Ext.fin tol

/-- every value is a number between minus and plus the tolerance -/
def WithinEq [LE K] [Neg K] {n : Nat} (tol : K) (c : FVec n (Flt K)) : Prop :=
  ∀ i, ∃ x, c i = .num x ∧ Ext.fin (-tol) ≤ x ∧ x ≤ Ext.fin tol

/-- a user constraint that may not have been set holds -/
def Sat {β : Type} (P : β → Prop) : Option β → Prop
  | none => True
  | some c => P c

end Mpc.NlSpec
