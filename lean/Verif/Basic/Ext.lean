import Mathlib.Algebra.Order.Ring.Defs

/-
Bounds handed to the solvers: `double` values including ±infinity (`mpc::inf`).
-/
namespace Mpc

/-- A `double` used as a bound: `-inf`, a number, or `+inf` (NaN is not modelled here). -/
inductive Ext (K : Type) where
  | negInf
  | fin (x : K)
  | posInf
  deriving DecidableEq, Repr

namespace Ext
variable {K : Type}

/-- `<=` of IEEE doubles restricted to non-NaN values. -/
def le [LE K] : Ext K → Ext K → Prop
  | negInf, _ => True
  | fin _, negInf => False
  | fin a, fin b => a ≤ b
  | fin _, posInf => True
  | posInf, posInf => True
  | posInf, _ => False

instance [LE K] : LE (Ext K) := ⟨Ext.le⟩

instance [LE K] [DecidableLE K] : DecidableRel (LE.le : Ext K → Ext K → Prop) := fun a b => by
  cases a <;> cases b <;> simp only [LE.le, Ext.le] <;> infer_instance

/-- Sum of a (possibly infinite) bound and a finite number. -/
def add [Add K] : Ext K → K → Ext K
  | negInf, _ => negInf
  | fin a, b => fin (a + b)
  | posInf, _ => posInf

@[simp] theorem negInf_le [LE K] (e : Ext K) : (negInf : Ext K) ≤ e := by
  cases e <;> exact trivial
@[simp] theorem le_posInf [LE K] (e : Ext K) : e ≤ (posInf : Ext K) := by
  cases e <;> exact trivial
@[simp] theorem fin_le_fin [LE K] (a b : K) : (fin a : Ext K) ≤ fin b ↔ a ≤ b := Iff.rfl
@[simp] theorem not_posInf_le_fin [LE K] (a : K) : ¬ (posInf : Ext K) ≤ fin a := fun h => h
@[simp] theorem not_fin_le_negInf [LE K] (a : K) : ¬ (fin a : Ext K) ≤ negInf := fun h => h
@[simp] theorem add_fin [Add K] (a b : K) : (fin a).add b = fin (a + b) := rfl
@[simp] theorem add_negInf [Add K] (b : K) : (negInf : Ext K).add b = negInf := rfl
@[simp] theorem add_posInf [Add K] (b : K) : (posInf : Ext K).add b = posInf := rfl

@[simp] theorem add_zero' [AddZeroClass K] (e : Ext K) : e.add 0 = e := by
  cases e <;> simp [add]

section ordered
variable [Ring K] [LinearOrder K] [IsStrictOrderedRing K]

/-- Moving a finite offset across a lower bound. -/
theorem add_neg_le_iff (e : Ext K) (o v : K) : e.add (-o) ≤ fin v ↔ e ≤ fin (v + o) := by
  cases e <;> simp [add, ← sub_eq_add_neg]

/-- Moving a finite offset across an upper bound. -/
theorem le_add_neg_iff (e : Ext K) (o v : K) : fin v ≤ e.add (-o) ↔ fin (v + o) ≤ e := by
  cases e <;> simp [add, ← sub_eq_add_neg, le_sub_iff_add_le]

theorem add_le_add_iff (a b : Ext K) (o : K) : a.add o ≤ b.add o ↔ a ≤ b := by
  cases a <;> cases b <;> simp [add]

end ordered
end Ext
end Mpc
