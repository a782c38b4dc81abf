import Verif.Spec.Plan
import Verif.Proofs.QpDet

/-
The feasible set as a whole; histories as last-write-wins registers.
-/
namespace Mpc
open Exec Finset
set_option linter.unusedSectionVars false

namespace Solved
variable {K : Type} [Field K] [DecidableEq K] [LinearOrder K] [IsStrictOrderedRing K] {d : Dims}
  {c : Spec.LinConfig K} {x0 u0 : Vec K} {st : Int} {obj : K}
  {sol : Option ((Nat → K) × (Nat → K))} {m m' : LMpc K} {r : LResult K} {call : OsqpCall K}

/-- the rows of the dynamics are equalities -/
theorem eq_row (h : Solved d c x0 u0 st obj sol m m' r call) {ρ : Nat} (hρ : ρ < Spec.boundRow d) :
    ∃ v, call.l.get ρ = .fin v ∧ call.u.get ρ = .fin v := by
  have hdim := h.inv.builder.dims
  have hS : d.nS = (d.ph + 1) * (d.nu + d.nx) := rfl
  have g1 := h.get.leqlu
  have g2 := h.get.l0x
  have g3 := h.get.l0u
  have g4 := h.get.le
  simp only [hdim] at g1 g2 g3 g4
  rw [← h.call.l, ← h.call.u] at g1
  rw [← h.call.l] at g2 g3 g4
  rw [boundRow_eq] at hρ
  have key : ∃ v, call.l.get ρ = .fin v := by
    obtain ⟨i, a, hi, ha, rfl⟩ := exists_block (by rw [hS] at hρ; exact hρ)
    rcases Nat.eq_zero_or_pos i with rfl | hpos
    · rw [Nat.zero_mul, Nat.zero_add]
      by_cases hx : a < d.nx
      · exact ⟨_, g2 a hx⟩
      · obtain ⟨a', rfl⟩ := Nat.exists_eq_add_of_le (Nat.le_of_not_lt hx)
        exact ⟨_, g3 a' (by omega)⟩
    · obtain ⟨k, rfl⟩ : ∃ k, i = k + 1 := ⟨i - 1, by omega⟩
      exact ⟨_, g4 k a (by omega) ha⟩
  obtain ⟨v, hv⟩ := key
  exact ⟨v, hv, by rw [← g1 ρ hρ]; exact hv⟩

theorem feasible_iff (h : Solved d c x0 u0 st obj sol m m' r call) (hms : c.modelSet = true) (z : Nat → K) :
    Spec.qpFeasible call z ↔ Spec.PlanOk d c x0.get u0.get z := by
  have hm : call.m = Spec.rowCount d := by rw [rowCount_eq]; exact h.call.m
  constructor
  · intro hf
    unfold Spec.qpFeasible at hf
    rw [hm] at hf
    have b1 : Spec.boundRow d ≤ Spec.outputRow d := Nat.le_add_right _ _
    have b2 : Spec.outputRow d ≤ Spec.incrementRow d := Nat.le_add_right _ _
    have b3 : Spec.incrementRow d ≤ Spec.scalarRow d := Nat.le_add_right _ _
    have b4 : Spec.scalarRow d ≤ Spec.rowCount d := Nat.le_add_right _ _
    refine ⟨(h.trajectory_iff hms z).1 fun ρ hρ => hf ρ (by omega), ?_, ?_, ?_, ?_, ?_⟩
    · intro k a hk ha
      refine (h.state_row hk ha z).1 (hf _ ?_)
      have : k * (d.nx + d.nu) + a < (d.ph + 1) * (d.nx + d.nu) := block_lt (by omega) (by omega)
      have e : Spec.outputRow d = Spec.boundRow d + (d.ph + 1) * (d.nx + d.nu) := rfl
      omega
    · intro k a hk ha
      refine (h.held_row hk ha z).1 (hf _ ?_)
      have : k * (d.nx + d.nu) + (d.nx + a) < (d.ph + 1) * (d.nx + d.nu) := block_lt (by omega) (by omega)
      have e : Spec.outputRow d = Spec.boundRow d + (d.ph + 1) * (d.nx + d.nu) := rfl
      omega
    · intro k a hk ha
      refine (h.output_row hk ha z).1 (hf _ ?_)
      have : k * d.ny + a < (d.ph + 1) * d.ny := block_lt (by omega) (by omega)
      have e : Spec.incrementRow d = Spec.outputRow d + (d.ph + 1) * d.ny := rfl
      omega
    · intro k a hck hk ha
      refine (h.increment_row hk ha z).1 (hf _ ?_) hck
      have : k * d.nu + a < d.ph * d.nu := block_lt (by omega) (by omega)
      have e : Spec.scalarRow d = Spec.incrementRow d + d.ph * d.nu := rfl
      omega
    · intro k hk
      refine (h.scalar_row hk z).1 (hf _ ?_)
      have e : Spec.rowCount d = Spec.scalarRow d + (d.ph + 1) := rfl
      omega
  · intro hp ρ hρ
    rw [hm] at hρ
    rcases rows_cases hρ with h1 | ⟨i, a, hi, ha, rfl⟩ | ⟨i, a, hi, ha, rfl⟩ | ⟨i, a, hi, ha, rfl⟩ |
      ⟨i, a, hi, ha, rfl⟩ | ⟨i, hi, rfl⟩
    · exact (h.trajectory_iff hms z).2 hp.trajectory ρ h1
    · exact (h.state_row hi ha z).2 (hp.states i a hi ha)
    · exact (h.held_row hi ha z).2 (hp.held i a hi ha)
    · exact (h.output_row hi ha z).2 (hp.outputs i a hi ha)
    · exact (h.increment_row hi ha z).2 fun hc => hp.frozen i a hc hi ha
    · exact (h.scalar_row hi z).2 (hp.scalar i hi)

end Solved

section
variable {K : Type} [Field K]

theorem lastWrite_of_apply {β : Type} {w : LOp K → Option β} {reg : Spec.LinConfig K → β}
    (h : ∀ c op, reg (Spec.LinConfig.apply c op) = (w op).getD (reg c)) :
    ∀ (ops : List (LOp K)) (outs : List (LOut K)) (c : Spec.LinConfig K),
      reg (c.after ops outs) = Spec.lastWrite w (reg c) ops outs
  | [], outs, c => by cases outs <;> rfl
  | op :: ops, [], c => rfl
  | op :: ops, out :: outs, c => by
    have ih := lastWrite_of_apply h ops outs (if Spec.accepted out then c.apply op else c)
    rw [Spec.LinConfig.after, ih]
    unfold Spec.lastWrite
    simp only [List.zip_cons_cons, List.reverse_cons, List.findSome?_append, List.findSome?_cons, List.findSome?_nil]
    cases hx : List.findSome? (fun p : LOp K × LOut K => if Spec.accepted p.2 = true then w p.1 else none)
      (ops.zip outs).reverse with
    | some v => simp
    | none =>
      by_cases ha : Spec.accepted out = true
      · simp only [ha, if_true, h]
        cases w op <;> simp
      · simp [ha]

/-- The register file is "last accepted write wins". -/
theorem configOf_lastWrite (ops : List (LOp K)) (outs : List (LOut K)) :
    Spec.configOf ops outs = Spec.lastWriteConfig ops outs := by
  have E : ∀ {c c' : Spec.LinConfig K}, c.modelSet = c'.modelSet → c.A = c'.A → c.B = c'.B → c.C = c'.C → c.Bd = c'.Bd →
      c.Dd = c'.Dd → c.wY = c'.wY → c.wU = c'.wU → c.wDu = c'.wDu → c.xMin = c'.xMin → c.xMax = c'.xMax →
      c.uMin = c'.uMin → c.uMax = c'.uMax → c.yMin = c'.yMin → c.yMax = c'.yMax → c.sMin = c'.sMin → c.sMax = c'.sMax →
      c.sX = c'.sX → c.sU = c'.sU → c.yRef = c'.yRef → c.uRef = c'.uRef → c.duRef = c'.duRef → c.dist = c'.dist →
      c = c' := by
    rintro ⟨⟩ ⟨⟩
    simp only
    intros
    subst_vars
    rfl
  have one : ∀ {β : Type} (w : LOp K → Option β) (reg : Spec.LinConfig K → β),
      (∀ c op, reg (Spec.LinConfig.apply c op) = (w op).getD (reg c)) →
      reg (Spec.configOf ops outs) = Spec.lastWrite w (reg Spec.LinConfig.default) ops outs :=
    fun w reg h => lastWrite_of_apply h ops outs _
  apply E
  · exact one Spec.writeModelSet (fun c => c.modelSet) (fun c op => by cases op <;> rfl)
  · funext a e; exact one (Spec.writeA a e) (fun c => c.A a e) (fun c op => by cases op <;> rfl)
  · funext a e; exact one (Spec.writeB a e) (fun c => c.B a e) (fun c op => by cases op <;> rfl)
  · funext a e; exact one (Spec.writeC a e) (fun c => c.C a e) (fun c op => by cases op <;> rfl)
  · funext a e; exact one (Spec.writeBd a e) (fun c => c.Bd a e) (fun c op => by cases op <;> rfl)
  · funext a e; exact one (Spec.writeDd a e) (fun c => c.Dd a e) (fun c op => by cases op <;> rfl)
  all_goals try funext k a
  all_goals try funext k
  · exact one (Spec.writeWY k a) (fun c => c.wY k a) (fun c op => by
      cases op <;> first | rfl | (simp only [Spec.LinConfig.apply, Spec.writeWY, Spec.onSlice, Spec.upd]; split_ifs <;> rfl))
  · exact one (Spec.writeWU k a) (fun c => c.wU k a) (fun c op => by
      cases op <;> first | rfl | (simp only [Spec.LinConfig.apply, Spec.writeWU, Spec.onSlice, Spec.upd]; split_ifs <;> rfl))
  · exact one (Spec.writeWDu k a) (fun c => c.wDu k a) (fun c op => by
      cases op <;> first | rfl | (simp only [Spec.LinConfig.apply, Spec.writeWDu, Spec.onSlice, Spec.upd]; split_ifs <;> rfl))
  · exact one (Spec.writeXMin k a) (fun c => c.xMin k a) (fun c op => by
      cases op <;> first | rfl | (simp only [Spec.LinConfig.apply, Spec.writeXMin, Spec.onSlice, Spec.upd]; split_ifs <;> rfl))
  · exact one (Spec.writeXMax k a) (fun c => c.xMax k a) (fun c op => by
      cases op <;> first | rfl | (simp only [Spec.LinConfig.apply, Spec.writeXMax, Spec.onSlice, Spec.upd]; split_ifs <;> rfl))
  · exact one (Spec.writeUMin k a) (fun c => c.uMin k a) (fun c op => by
      cases op <;> first | rfl | (simp only [Spec.LinConfig.apply, Spec.writeUMin, Spec.onSlice, Spec.upd]; split_ifs <;> rfl))
  · exact one (Spec.writeUMax k a) (fun c => c.uMax k a) (fun c op => by
      cases op <;> first | rfl | (simp only [Spec.LinConfig.apply, Spec.writeUMax, Spec.onSlice, Spec.upd]; split_ifs <;> rfl))
  · exact one (Spec.writeYMin k a) (fun c => c.yMin k a) (fun c op => by
      cases op <;> first | rfl | (simp only [Spec.LinConfig.apply, Spec.writeYMin, Spec.onSlice, Spec.upd]; split_ifs <;> rfl))
  · exact one (Spec.writeYMax k a) (fun c => c.yMax k a) (fun c op => by
      cases op <;> first | rfl | (simp only [Spec.LinConfig.apply, Spec.writeYMax, Spec.onSlice, Spec.upd]; split_ifs <;> rfl))
  · exact one (Spec.writeSMin k) (fun c => c.sMin k) (fun c op => by
      cases op <;> first | rfl | (simp only [Spec.LinConfig.apply, Spec.writeSMin, Spec.onSlice, Spec.upd, beq_iff_eq]; split_ifs <;> rfl))
  · exact one (Spec.writeSMax k) (fun c => c.sMax k) (fun c op => by
      cases op <;> first | rfl | (simp only [Spec.LinConfig.apply, Spec.writeSMax, Spec.onSlice, Spec.upd, beq_iff_eq]; split_ifs <;> rfl))
  · exact one (Spec.writeSX k) (fun c => c.sX k) (fun c op => by cases op <;> rfl)
  · exact one (Spec.writeSU k) (fun c => c.sU k) (fun c op => by cases op <;> rfl)
  · exact one (Spec.writeYRef k a) (fun c => c.yRef k a) (fun c op => by
      cases op <;> first | rfl | (simp only [Spec.LinConfig.apply, Spec.writeYRef, Spec.onSlice, Spec.upd]; split_ifs <;> rfl))
  · exact one (Spec.writeURef k a) (fun c => c.uRef k a) (fun c op => by
      cases op <;> first | rfl | (simp only [Spec.LinConfig.apply, Spec.writeURef, Spec.onSlice, Spec.upd]; split_ifs <;> rfl))
  · exact one (Spec.writeDuRef k a) (fun c => c.duRef k a) (fun c op => by
      cases op <;> first | rfl | (simp only [Spec.LinConfig.apply, Spec.writeDuRef, Spec.onSlice, Spec.upd]; split_ifs <;> rfl))
  · exact one (Spec.writeDist k a) (fun c => c.dist k a) (fun c op => by
      cases op <;> first | rfl | (simp only [Spec.LinConfig.apply, Spec.writeDist, Spec.onSlice, Spec.upd]; split_ifs <;> rfl))

end
end Mpc
