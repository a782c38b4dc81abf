import Verif.Proofs.QpPlan

/-
The two sides of every inequality row.
-/
namespace Mpc
open Exec Finset
set_option linter.unusedSectionVars false

namespace Solved
variable {K : Type} [Zero K] [One K] [Add K] [Mul K] [Neg K] [Div K] [NatCast K] [ExactOps K] [DecidableEq K] {d : Dims}
  {c : Spec.LinConfig K} {x0 u0 : Vec K} {st : Int} {obj : K}
  {sol : Option ((Nat → K) × (Nat → K))} {m m' : LMpc K} {r : LResult K} {call : OsqpCall K}

theorem state_bounds (h : Solved d c x0 u0 st obj sol m m' r call) {i a : Nat} (hi : i ≤ d.ph) (ha : a < d.nx) :
    call.l.get (Spec.boundRow d + i * (d.nx + d.nu) + a) = c.xMin (i - 1) a ∧
    call.u.get (Spec.boundRow d + i * (d.nx + d.nu) + a) = c.xMax (i - 1) a := by
  have hdim := h.inv.builder.dims
  have hk : i * (d.nu + d.nx) + a < d.nS := block_lt (by omega) (by omega)
  have hl := h.get.lx _ (by rw [hdim]; exact hk)
  have hu := h.get.ux _ (by rw [hdim]; exact hk)
  have bl := h.inv.builder.derived.lineq.x i a
  have bu := h.inv.builder.derived.uineq.x i a
  have r1 := h.inv.builder.repr.xMin a i
  have r2 := h.inv.builder.repr.xMax a i
  simp only [hdim] at hl hu bl bu r1 r2
  have he : Spec.boundRow d + i * (d.nx + d.nu) + a = d.nS + (i * (d.nu + d.nx) + a) := by
    rw [boundRow_eq, Nat.add_comm d.nx d.nu]; omega
  rw [he, h.call.l, h.call.u, hl, hu, bl hi ha, bu hi ha, r1 ha hi, r2 ha hi]
  exact ⟨rfl, rfl⟩

theorem held_bounds (h : Solved d c x0 u0 st obj sol m m' r call) {i a : Nat} (hi : i ≤ d.ph) (ha : a < d.nu) :
    call.l.get (Spec.boundRow d + i * (d.nx + d.nu) + d.nx + a) = c.uMin (min i (d.ph - 1)) a ∧
    call.u.get (Spec.boundRow d + i * (d.nx + d.nu) + d.nx + a) = c.uMax (min i (d.ph - 1)) a := by
  have hdim := h.inv.builder.dims
  have hph := h.valid.ph_pos
  have hk : i * (d.nu + d.nx) + (d.nx + a) < d.nS := block_lt (by omega) (by omega)
  have hl := h.get.lx _ (by rw [hdim]; exact hk)
  have hu := h.get.ux _ (by rw [hdim]; exact hk)
  have bl := h.inv.builder.derived.lineq.u i a
  have bu := h.inv.builder.derived.uineq.u i a
  have r1 := h.inv.builder.repr.uMin a (if i = d.ph then i - 1 else i)
  have r2 := h.inv.builder.repr.uMax a (if i = d.ph then i - 1 else i)
  simp only [hdim] at hl hu bl bu r1 r2
  have hlt : (if i = d.ph then i - 1 else i) < d.ph := by split_ifs <;> omega
  have heq : (if i = d.ph then i - 1 else i) = min i (d.ph - 1) := by split_ifs <;> omega
  have he : Spec.boundRow d + i * (d.nx + d.nu) + d.nx + a = d.nS + (i * (d.nu + d.nx) + (d.nx + a)) := by
    rw [boundRow_eq, Nat.add_comm d.nx d.nu]; omega
  rw [he, h.call.l, h.call.u, hl, hu, bl hi ha, bu hi ha, r1 ha hlt, r2 ha hlt, heq]
  exact ⟨rfl, rfl⟩

theorem output_bounds_raw (h : Solved d c x0 u0 st obj sol m m' r call) {i a : Nat} (hi : i ≤ d.ph) (ha : a < d.ny) :
    call.l.get (Spec.outputRow d + i * d.ny + a) = (c.yMin (i - 1) a).add (-(m.b.distY m.o.extInputMeas a (i - 1))) ∧
    call.u.get (Spec.outputRow d + i * d.ny + a) = (c.yMax (i - 1) a).add (-(m.b.distY m.o.extInputMeas a (i - 1))) := by
  have hdim := h.inv.builder.dims
  have hph := h.valid.ph_pos
  have hl := h.get.ly i a
  have hu := h.get.uy i a
  have bl := h.inv.builder.derived.lineq.y i a
  have bu := h.inv.builder.derived.uineq.y i a
  have r1 := h.inv.builder.repr.yMin a i
  have r2 := h.inv.builder.repr.yMax a i
  simp only [hdim] at hl hu bl bu r1 r2
  have he : Spec.outputRow d + i * d.ny + a = d.nS + (d.nS + (i * d.ny + a)) := by
    rw [outputRow_eq]; omega
  rw [he, h.call.l, h.call.u, hl hi ha, hu hi ha, bl hi ha, bu hi ha, r1 ha hi, r2 ha hi]
  exact ⟨rfl, rfl⟩

theorem increment_bounds (h : Solved d c x0 u0 st obj sol m m' r call) {i a : Nat} (hi : i < d.ph) (ha : a < d.nu) :
    call.l.get (Spec.incrementRow d + i * d.nu + a) = (if d.ch < i then .fin 0 else .negInf) ∧
    call.u.get (Spec.incrementRow d + i * d.nu + a) = (if d.ch < i then .fin 0 else .posInf) := by
  have hdim := h.inv.builder.dims
  have hI : d.nI = d.nS + (d.nY + d.nD + (d.ph + 1)) := rfl
  have hk : i * d.nu + a < d.nD := block_lt ha hi
  have hl := h.get.lt (d.nS + d.nY + (i * d.nu + a)) (by rw [hdim]; omega) (by rw [hdim]; omega)
  have hu := h.get.ut (d.nS + d.nY + (i * d.nu + a)) (by rw [hdim]; omega) (by rw [hdim]; omega)
  have bl := h.inv.builder.derived.lineq.du i a
  have bu := h.inv.builder.derived.uineq.du i a
  simp only [hdim] at hl hu bl bu
  have he : Spec.incrementRow d + i * d.nu + a = d.nS + (d.nS + d.nY + (i * d.nu + a)) := by
    rw [incrementRow_eq]; omega
  rw [he, h.call.l, h.call.u, hl, hu, bl hi ha, bu hi ha]
  exact ⟨rfl, rfl⟩

theorem scalar_bounds (h : Solved d c x0 u0 st obj sol m m' r call) {i : Nat} (hi : i ≤ d.ph) :
    call.l.get (Spec.scalarRow d + i) = c.sMin (i - 1) ∧ call.u.get (Spec.scalarRow d + i) = c.sMax (i - 1) := by
  have hdim := h.inv.builder.dims
  have hI : d.nI = d.nS + (d.nY + d.nD + (d.ph + 1)) := rfl
  have hl := h.get.lt (d.nS + d.nY + d.nD + i) (by rw [hdim]; omega) (by rw [hdim]; omega)
  have hu := h.get.ut (d.nS + d.nY + d.nD + i) (by rw [hdim]; omega) (by rw [hdim]; omega)
  have bl := h.inv.builder.derived.lineq.sc i
  have bu := h.inv.builder.derived.uineq.sc i
  have r1 := h.inv.builder.repr.sMin i
  have r2 := h.inv.builder.repr.sMax i
  simp only [hdim] at hl hu bl bu r1 r2
  have he : Spec.scalarRow d + i = d.nS + (d.nS + d.nY + d.nD + i) := by
    rw [scalarRow_eq]; omega
  rw [he, h.call.l, h.call.u, hl, hu, bl hi, bu hi, r1 hi, r2 hi]
  exact ⟨rfl, rfl⟩

section
variable {K : Type} [Field K] [DecidableEq K] {d : Dims}
  {c : Spec.LinConfig K} {x0 u0 : Vec K} {st : Int} {obj : K}
  {sol : Option ((Nat → K) × (Nat → K))} {m m' : LMpc K} {r : LResult K} {call : OsqpCall K}

theorem output_bounds (h : Solved d c x0 u0 st obj sol m m' r call) {i a : Nat} (hi : i ≤ d.ph) (ha : a < d.ny) :
    call.l.get (Spec.outputRow d + i * d.ny + a) =
      (c.yMin (i - 1) a).add (-Spec.dot d.ndu (c.Dd a) (c.dist (i - 1))) ∧
    call.u.get (Spec.outputRow d + i * d.ny + a) =
      (c.yMax (i - 1) a).add (-Spec.dot d.ndu (c.Dd a) (c.dist (i - 1))) := by
  have hph := h.valid.ph_pos
  rw [← h.distY_eq (by omega) ha]
  exact h.output_bounds_raw hi ha

end

end Solved
end Mpc
