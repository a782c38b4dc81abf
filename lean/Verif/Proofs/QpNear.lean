import Mathlib.Tactic.Linarith
import Mathlib.Algebra.Order.Group.Abs
import Verif.Spec.Accuracy
import Verif.Proofs.QpBounds

/-
The rows of the problem handed to OSQP up to a residual.
-/
namespace Mpc
open Exec Finset
set_option linter.unusedSectionVars false

namespace Spec
variable {K : Type} [Field K] [LinearOrder K] [IsStrictOrderedRing K] {ε : K}

theorem nearly_eq {v w : K} : nearly ε (.fin v) (.fin v) w ↔ |w - v| ≤ ε := by
  unfold nearly
  rw [Ext.fin_le_fin, Ext.fin_le_fin, abs_le]
  constructor
  · rintro ⟨h1, h2⟩; constructor <;> linarith
  · rintro ⟨h1, h2⟩; constructor <;> linarith

theorem nearly_add {lo hi : Ext K} {o v : K} : nearly ε (lo.add (-o)) (hi.add (-o)) v ↔ nearly ε lo hi (v + o) := by
  unfold nearly
  rw [Ext.add_neg_le_iff, Ext.le_add_neg_iff, show v + ε + o = v + o + ε by ring, show v - ε + o = v + o - ε by ring]

theorem nearly_move {lo hi : Ext K} {v w e : K} (h : nearly ε lo hi v) (hw : |w - v| ≤ e) : nearly (ε + e) lo hi w := by
  rw [abs_le] at hw
  obtain ⟨h1, h2⟩ := h
  constructor
  · cases lo with
    | negInf => trivial
    | posInf => exact h1.elim
    | fin l =>
      have h1 : l ≤ v + ε := h1
      show l ≤ w + (ε + e)
      linarith [hw.1]
  · cases hi with
    | negInf => exact h2.elim
    | posInf => trivial
    | fin l =>
      have h2 : v - ε ≤ l := h2
      show w - (ε + e) ≤ l
      linarith [hw.2]

end Spec

namespace Solved
variable {K : Type} [Field K] [DecidableEq K] [LinearOrder K] [IsStrictOrderedRing K] {d : Dims}
  {c : Spec.LinConfig K} {x0 u0 : Vec K} {st : Int} {obj ε : K}
  {sol : Option ((Nat → K) × (Nat → K))} {m m' : LMpc K} {r : LResult K} {call : OsqpCall K}

theorem near_iff (h : Solved d c x0 u0 st obj sol m m' r call) (hms : c.modelSet = true) {z : Nat → K} :
    Spec.qpNearFeasible ε call z ↔ Spec.PlanNear d c ε x0.get u0.get z := by
  have hm : call.m = Spec.rowCount d := by rw [rowCount_eq]; exact h.call.m
  unfold Spec.qpNearFeasible
  rw [hm]
  have hdim := h.inv.builder.dims
  have hS : d.nS = (d.ph + 1) * (d.nu + d.nx) := rfl
  have g1 := h.get.leqlu
  have g2 := h.get.l0x
  have g3 := h.get.l0u
  have g4 := h.get.le
  simp only [hdim] at g1 g2 g3 g4
  rw [← h.call.l, ← h.call.u] at g1
  rw [← h.call.l] at g2 g3 g4
  have blk : ∀ {i a}, i ≤ d.ph → a < d.nu + d.nx → i * (d.nu + d.nx) + a < d.nS := fun hi ha => block_lt ha (by omega)
  have r0 : ∀ a, a < d.nu + d.nx → a < d.nS := fun a ha => by have := blk (Nat.zero_le _) ha; omega
  have b0 : Spec.boundRow d = d.nS := boundRow_eq d
  have b1 : Spec.boundRow d ≤ Spec.outputRow d := Nat.le_add_right _ _
  have b2 : Spec.outputRow d ≤ Spec.incrementRow d := Nat.le_add_right _ _
  have b3 : Spec.incrementRow d ≤ Spec.scalarRow d := Nat.le_add_right _ _
  have b4 : Spec.scalarRow d ≤ Spec.rowCount d := Nat.le_add_right _ _
  have e1 : ∀ a, a < d.nx → (Spec.nearly ε (call.l.get a) (call.u.get a) (Spec.rowValue call z a) ↔
      |Spec.stateAt d z 0 a - x0.get a| ≤ ε) := by
    intro a ha
    rw [← g1 a (r0 a (by omega)), g2 a ha, Spec.nearly_eq, h.row_start (by omega), stateAt_eq, Nat.zero_mul, Nat.zero_add,
      abs_sub_comm (z a), show -z a - -x0.get a = x0.get a - z a by ring]
  have e2 : ∀ a, a < d.nu → (Spec.nearly ε (call.l.get (d.nx + a)) (call.u.get (d.nx + a)) (Spec.rowValue call z (d.nx + a)) ↔
      |Spec.heldAt d z 0 a - u0.get a| ≤ ε) := by
    intro a ha
    rw [← g1 _ (r0 _ (by omega)), g3 a ha, Spec.nearly_eq, h.row_start (by omega), heldAt_eq, Nat.zero_mul, Nat.zero_add,
      abs_sub_comm (z (d.nx + a)), show -z (d.nx + a) - -u0.get a = u0.get a - z (d.nx + a) by ring]
  have e3 : ∀ k a, k < d.ph → a < d.nx → (Spec.nearly ε (call.l.get ((k + 1) * (d.nu + d.nx) + a))
      (call.u.get ((k + 1) * (d.nu + d.nx) + a)) (Spec.rowValue call z ((k + 1) * (d.nu + d.nx) + a)) ↔
      |Spec.stateAt d z (k + 1) a - (Spec.dot d.nx (c.A a) (Spec.stateAt d z k) +
        Spec.dot d.nu (c.B a) (fun e => Spec.heldAt d z k e + Spec.incrementAt d z k e) + Spec.dot d.ndu (c.Bd a) (c.dist k))| ≤ ε) := by
    intro k a hk ha
    rw [← g1 _ (blk (by omega) (by omega)), g4 k a hk (by omega), Spec.nearly_eq, h.row_dynamics hk (by omega), add_assoc, h.plant_state ha,
      h.distX_state hk ha, stateAt_eq d z (k + 1), abs_sub_comm (z _)]
    refine iff_of_eq (congrArg (fun t => |t| ≤ ε) ?_)
    ring
  have e4 : ∀ k a, k < d.ph → a < d.nu → (Spec.nearly ε (call.l.get ((k + 1) * (d.nu + d.nx) + (d.nx + a)))
      (call.u.get ((k + 1) * (d.nu + d.nx) + (d.nx + a))) (Spec.rowValue call z ((k + 1) * (d.nu + d.nx) + (d.nx + a))) ↔
      |Spec.inputAt d z k a - (Spec.heldAt d z k a + Spec.incrementAt d z k a)| ≤ ε) := by
    intro k a hk ha
    unfold Spec.inputAt
    rw [← g1 _ (blk (by omega) (by omega)), g4 k (d.nx + a) hk (by omega), Spec.nearly_eq, h.row_dynamics hk (by omega), add_assoc,
      h.plant_input hms ha, h.distX_input ha, heldAt_eq d z (k + 1), abs_sub_comm (z _)]
    refine iff_of_eq (congrArg (fun t => |t| ≤ ε) ?_)
    ring
  have e5 : ∀ k a, k ≤ d.ph → a < d.nx → (Spec.nearly ε (call.l.get (Spec.boundRow d + k * (d.nx + d.nu) + a))
      (call.u.get (Spec.boundRow d + k * (d.nx + d.nu) + a)) (Spec.rowValue call z (Spec.boundRow d + k * (d.nx + d.nu) + a)) ↔
      Spec.nearly ε (c.xMin (k - 1) a) (c.xMax (k - 1) a) (Spec.stateAt d z k a)) := by
    intro k a hk ha
    obtain ⟨h1, h2⟩ := h.state_bounds hk ha
    rw [h1, h2, boundRow_eq, Nat.add_assoc, Nat.add_comm d.nx d.nu, h.row_bound (blk hk (by omega)), ← stateAt_eq d z]
  have e6 : ∀ k a, k ≤ d.ph → a < d.nu → (Spec.nearly ε (call.l.get (Spec.boundRow d + k * (d.nx + d.nu) + d.nx + a))
      (call.u.get (Spec.boundRow d + k * (d.nx + d.nu) + d.nx + a)) (Spec.rowValue call z (Spec.boundRow d + k * (d.nx + d.nu) + d.nx + a)) ↔
      Spec.nearly ε (c.uMin (min k (d.ph - 1)) a) (c.uMax (min k (d.ph - 1)) a) (Spec.heldAt d z k a)) := by
    intro k a hk ha
    obtain ⟨h1, h2⟩ := h.held_bounds hk ha
    rw [h1, h2, boundRow_eq, Nat.add_assoc, Nat.add_assoc, Nat.add_comm d.nx d.nu, h.row_bound (blk hk (by omega)), ← heldAt_eq d z]
  have e7 : ∀ k a, k ≤ d.ph → a < d.ny → (Spec.nearly ε (call.l.get (Spec.outputRow d + k * d.ny + a))
      (call.u.get (Spec.outputRow d + k * d.ny + a)) (Spec.rowValue call z (Spec.outputRow d + k * d.ny + a)) ↔
      Spec.nearly ε (c.yMin (k - 1) a) (c.yMax (k - 1) a) (Spec.outputOf d c (Spec.stateAt d z k) (c.dist (k - 1)) a)) := by
    intro k a hk ha
    obtain ⟨h1, h2⟩ := h.output_bounds hk ha
    rw [h1, h2, outputRow_eq, show d.nS + d.nS + k * d.ny + a = d.nS + (d.nS + (k * d.ny + a)) by omega, h.row_output hk ha,
      h.output_value ha, Spec.nearly_add]
    rfl
  have e8 : ∀ k a, k < d.ph → a < d.nu → (Spec.nearly ε (call.l.get (Spec.incrementRow d + k * d.nu + a))
      (call.u.get (Spec.incrementRow d + k * d.nu + a)) (Spec.rowValue call z (Spec.incrementRow d + k * d.nu + a)) ↔
      (d.ch < k → |Spec.incrementAt d z k a| ≤ ε)) := by
    intro k a hk ha
    obtain ⟨h1, h2⟩ := h.increment_bounds hk ha
    rw [h1, h2]
    by_cases hck : d.ch < k
    · rw [if_pos hck, if_pos hck, Spec.nearly_eq, sub_zero, incrementRow_eq,
        show d.nS + d.nS + d.nY + k * d.nu + a = d.nS + (d.nS + d.nY + (k * d.nu + a)) by omega, h.row_increment (block_lt ha hk),
        incrementAt_eq]
      exact ⟨fun t _ => t, fun t => t hck⟩
    · rw [if_neg hck, if_neg hck]
      exact ⟨fun _ t => absurd t hck, fun _ => ⟨Ext.negInf_le _, Ext.le_posInf _⟩⟩
  have e9 : ∀ k, k ≤ d.ph → (Spec.nearly ε (call.l.get (Spec.scalarRow d + k)) (call.u.get (Spec.scalarRow d + k))
      (Spec.rowValue call z (Spec.scalarRow d + k)) ↔ Spec.nearly ε (c.sMin (k - 1)) (c.sMax (k - 1))
      (Spec.dot d.nx c.sX (Spec.stateAt d z k) + Spec.dot d.nu c.sU (Spec.heldAt d z k))) := by
    intro k hk
    obtain ⟨h1, h2⟩ := h.scalar_bounds hk
    rw [h1, h2, scalarRow_eq, show d.nS + d.nS + d.nY + d.nD + k = d.nS + (d.nS + d.nY + d.nD + k) by omega, h.row_scalar hk, sum_ext]
    refine iff_of_eq (congrArg _ ?_)
    unfold Spec.dot
    congr 1
    · exact Finset.sum_congr rfl fun e he => by rw [if_pos (mem_range.1 he), stateAt_eq]
    · refine Finset.sum_congr rfl fun e he => ?_
      rw [if_neg (by omega), Nat.add_sub_cancel_left, heldAt_eq]
  constructor
  · intro hf
    refine ⟨fun a ha => (e1 a ha).1 (hf _ ?_), fun a ha => (e2 a ha).1 (hf _ ?_), fun k a hk ha => (e3 k a hk ha).1 (hf _ ?_),
      fun k a hk ha => (e4 k a hk ha).1 (hf _ ?_), fun k a hk ha => (e5 k a hk ha).1 (hf _ ?_),
      fun k a hk ha => (e6 k a hk ha).1 (hf _ ?_), fun k a hk ha => (e7 k a hk ha).1 (hf _ ?_),
      fun k a hck hk ha => (e8 k a hk ha).1 (hf _ ?_) hck, fun k hk => (e9 k hk).1 (hf _ ?_)⟩
    · have := r0 a (by omega); omega
    · have := r0 (d.nx + a) (by omega); omega
    · have := blk (i := k + 1) (a := a) (by omega) (by omega); omega
    · have := blk (i := k + 1) (a := d.nx + a) (by omega) (by omega); omega
    · have hb : k * (d.nx + d.nu) + a < (d.ph + 1) * (d.nx + d.nu) := block_lt (by omega) (by omega)
      have e : Spec.outputRow d = Spec.boundRow d + (d.ph + 1) * (d.nx + d.nu) := rfl
      omega
    · have hb : k * (d.nx + d.nu) + (d.nx + a) < (d.ph + 1) * (d.nx + d.nu) := block_lt (by omega) (by omega)
      have e : Spec.outputRow d = Spec.boundRow d + (d.ph + 1) * (d.nx + d.nu) := rfl
      omega
    · have hb : k * d.ny + a < (d.ph + 1) * d.ny := block_lt (by omega) (by omega)
      have e : Spec.incrementRow d = Spec.outputRow d + (d.ph + 1) * d.ny := rfl
      omega
    · have hb : k * d.nu + a < d.ph * d.nu := block_lt (by omega) (by omega)
      have e : Spec.scalarRow d = Spec.incrementRow d + d.ph * d.nu := rfl
      omega
    · have e : Spec.rowCount d = Spec.scalarRow d + (d.ph + 1) := rfl
      omega
  · intro hp ρ hρ
    rcases rows_cases hρ with h1 | ⟨i, a, hi, ha, rfl⟩ | ⟨i, a, hi, ha, rfl⟩ | ⟨i, a, hi, ha, rfl⟩ |
      ⟨i, a, hi, ha, rfl⟩ | ⟨i, hi, rfl⟩
    · rw [boundRow_eq, hS] at h1
      obtain ⟨i, a, hi, ha, rfl⟩ := exists_block h1
      have cx : a < d.nx ∨ ∃ a', a' < d.nu ∧ a = d.nx + a' := by
        by_cases hh : a < d.nx
        · exact .inl hh
        · exact .inr ⟨a - d.nx, by omega, by omega⟩
      rcases Nat.eq_zero_or_pos i with rfl | hpos
      · rw [Nat.zero_mul, Nat.zero_add]
        rcases cx with hx | ⟨a', ha', rfl⟩
        · exact (e1 a hx).2 (hp.state0 a hx)
        · exact (e2 a' ha').2 (hp.input0 a' ha')
      · obtain ⟨k, rfl⟩ : ∃ k, i = k + 1 := ⟨i - 1, by omega⟩
        rcases cx with hx | ⟨a', ha', rfl⟩
        · exact (e3 k a (by omega) hx).2 (hp.state k a (by omega) hx)
        · exact (e4 k a' (by omega) ha').2 (hp.input k a' (by omega) ha')
    · exact (e5 i a hi ha).2 (hp.states i a hi ha)
    · exact (e6 i a hi ha).2 (hp.held i a hi ha)
    · exact (e7 i a hi ha).2 (hp.outputs i a hi ha)
    · exact (e8 i a hi ha).2 fun hc => hp.frozen i a hc hi ha
    · exact (e9 i hi).2 (hp.scalar i hi)

end Solved
end Mpc
