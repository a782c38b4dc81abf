import Verif.Proofs.QpRows

/-
Extending a history by one call.
-/
namespace Mpc
open Exec
set_option linter.unusedSectionVars false
variable {K : Type} [Zero K] [One K] [Add K] [Mul K] [Neg K] [Div K] [NatCast K] [ExactOps K] [DecidableEq K]

theorem LMpc.exec_append : ∀ (ops : List (LOp K)) {m m1 m2 : LMpc K} {outs : List (LOut K)} {ops2 : List (LOp K)}
    {outs2 : List (LOut K)}, m.exec ops = .ok (m1, outs) → m1.exec ops2 = .ok (m2, outs2) →
    m.exec (ops ++ ops2) = .ok (m2, outs ++ outs2)
  | [], m, m1, m2, outs, ops2, outs2, h, h2 => by cases h; exact h2
  | op :: ops, m, m1, m2, outs, ops2, outs2, h, h2 => by
    simp only [exec, bind_eq_ok] at h
    obtain ⟨⟨a, o⟩, ha, ⟨b, os⟩, hb, hc⟩ := h
    cases hc
    simp only [List.cons_append, exec, ha, ok_bind, exec_append ops hb h2]
    rfl

theorem LMpc.exec_snoc {ops : List (LOp K)} {m m1 m2 : LMpc K} {outs : List (LOut K)} {op : LOp K} {out : LOut K}
    (h : m.exec ops = .ok (m1, outs)) (h2 : m1.step op = .ok (m2, out)) :
    m.exec (ops ++ [op]) = .ok (m2, outs ++ [out]) := by
  refine LMpc.exec_append ops h ?_
  simp only [exec, h2, ok_bind]
  rfl

theorem LMpc.exec_append_inv : ∀ (ops : List (LOp K)) {m m2 : LMpc K} {outs : List (LOut K)} {ops2 : List (LOp K)},
    m.exec (ops ++ ops2) = .ok (m2, outs) → ∃ m1 o1 o2, m.exec ops = .ok (m1, o1) ∧ m1.exec ops2 = .ok (m2, o2) ∧
      outs = o1 ++ o2 ∧ o1.length = ops.length
  | [], m, m2, outs, ops2, h => ⟨m, [], outs, rfl, h, rfl, rfl⟩
  | op :: ops, m, m2, outs, ops2, h => by
    simp only [List.cons_append, exec, bind_eq_ok] at h
    obtain ⟨⟨a, o⟩, ha, ⟨b, os⟩, hb, hc⟩ := h
    cases hc
    obtain ⟨m1, o1, o2, e1, e2, e3, e4⟩ := exec_append_inv ops hb
    subst e3
    refine ⟨m1, o :: o1, o2, ?_, e2, rfl, by simp [e4]⟩
    simp only [exec, ha, ok_bind, e1]
    rfl

theorem configured_snoc {d : Dims} {ops : List (LOp K)} {outs : List (LOut K)} {m m' : LMpc K} {op : LOp K} {out : LOut K}
    (h : Spec.Configured d ops outs m) (hs : Spec.Sized d op ∧ Spec.SliceNonneg op) (h2 : m.step op = .ok (m', out)) :
    Spec.Configured d (ops ++ [op]) (outs ++ [out]) m' := by
  obtain ⟨hv, hz, u, j, m0, h0, he⟩ := h
  refine ⟨hv, ?_, u, j, m0, h0, LMpc.exec_snoc he h2⟩
  intro o ho
  rcases List.mem_append.1 ho with h | h
  · exact hz o h
  · rw [List.mem_singleton.1 h]; exact hs

theorem configured_length {d : Dims} {ops : List (LOp K)} {outs : List (LOut K)} {m : LMpc K}
    (h : Spec.Configured d ops outs m) : outs.length = ops.length := by
  obtain ⟨hv, hz, u, j, m0, h0, he⟩ := h
  exact (LMpc.exec_inv hv ops ((LMpc.new_inv hv u j).of_eq h0) hz he).2

theorem after_append (ops2 : List (LOp K)) (outs2 : List (LOut K)) (ops : List (LOp K)) :
    ∀ (outs : List (LOut K)) (c : Spec.LinConfig K), outs.length = ops.length →
    c.after (ops ++ ops2) (outs ++ outs2) = (c.after ops outs).after ops2 outs2 := by
  induction ops with
  | nil =>
    intro outs c h
    obtain rfl := List.length_eq_zero_iff.1 h
    cases ops2 <;> cases outs2 <;> rfl
  | cons op ops ih =>
    intro outs c h
    cases outs with
    | nil => cases h
    | cons o outs =>
      rw [List.cons_append, List.cons_append, Spec.LinConfig.after, Spec.LinConfig.after]
      exact ih outs _ (Nat.succ.inj h)

theorem configOf_snoc {ops : List (LOp K)} {outs : List (LOut K)} (h : outs.length = ops.length) (op : LOp K)
    (out : LOut K) : Spec.configOf (ops ++ [op]) (outs ++ [out]) =
      if Spec.accepted out then (Spec.configOf ops outs).apply op else Spec.configOf ops outs := by
  unfold Spec.configOf
  rw [after_append _ _ _ _ _ h]
  rfl

theorem configOf_append {ops : List (LOp K)} {outs : List (LOut K)} (h : outs.length = ops.length) (ops2 : List (LOp K))
    (outs2 : List (LOut K)) : Spec.configOf (ops ++ ops2) (outs ++ outs2) = (Spec.configOf ops outs).after ops2 outs2 :=
  after_append _ _ _ _ _ h

end Mpc
