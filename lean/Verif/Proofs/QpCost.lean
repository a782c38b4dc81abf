import Mathlib.Algebra.BigOperators.Field
import Mathlib.Algebra.Order.BigOperators.Ring.Finset
import Verif.Spec.Cost
import Verif.Proofs.QpGroups

/-
The objective of the problem handed to OSQP, as a cost of the trajectory.
-/
namespace Mpc
open Exec Finset
set_option linter.unusedSectionVars false

theorem quad_form {K : Type} [Field K] (n p : Nat) (C : Nat → Nat → K) (w z : Nat → K) :
    ∑ a ∈ range n, z a * ∑ c ∈ range n, (∑ e ∈ range p, C e a * w e * C e c) * z c =
      ∑ e ∈ range p, w e * (∑ a ∈ range n, C e a * z a) ^ 2 := by
  have h1 : ∀ a ∈ range n, z a * ∑ c ∈ range n, (∑ e ∈ range p, C e a * w e * C e c) * z c =
      ∑ e ∈ range p, ∑ c ∈ range n, w e * (C e a * z a) * (C e c * z c) := by
    intro a _
    rw [Finset.sum_comm, Finset.mul_sum]
    refine Finset.sum_congr rfl fun c _ => ?_
    rw [Finset.sum_mul, Finset.mul_sum]
    exact Finset.sum_congr rfl fun e _ => by ring
  rw [Finset.sum_congr rfl h1, Finset.sum_comm]
  refine Finset.sum_congr rfl fun e _ => ?_
  rw [sq, Finset.sum_mul_sum, Finset.mul_sum]
  refine Finset.sum_congr rfl fun a _ => ?_
  rw [Finset.mul_sum]
  exact Finset.sum_congr rfl fun c _ => by ring

theorem lin_form {K : Type} [Field K] (n p : Nat) (C : Nat → Nat → K) (w ρ z : Nat → K) :
    ∑ a ∈ range n, (∑ e ∈ range p, C e a * w e * ρ e) * z a =
      ∑ e ∈ range p, w e * ρ e * (∑ a ∈ range n, C e a * z a) := by
  have h1 : ∀ a ∈ range n, (∑ e ∈ range p, C e a * w e * ρ e) * z a =
      ∑ e ∈ range p, w e * ρ e * (C e a * z a) := by
    intro a _
    rw [Finset.sum_mul]
    exact Finset.sum_congr rfl fun e _ => by ring
  rw [Finset.sum_congr rfl h1, Finset.sum_comm]
  exact Finset.sum_congr rfl fun e _ => by rw [Finset.mul_sum]

namespace Solved
variable {K : Type} [Field K] [DecidableEq K] {d : Dims} {c : Spec.LinConfig K} {x0 u0 : Vec K} {st : Int} {obj : K}
  {sol : Option ((Nat → K) × (Nat → K))} {m m' : LMpc K} {r : LResult K} {call : OsqpCall K}

/-- A decision variable is in a state block or in an increment block. -/
theorem var_cases {k : Nat} (hk : k < d.nV) :
    (∃ i a, i ≤ d.ph ∧ a < d.nu + d.nx ∧ k = i * (d.nu + d.nx) + a) ∨
    (∃ i a, i < d.ph ∧ a < d.nu ∧ k = d.nS + (i * d.nu + a)) := by
  have hV : d.nV = d.nS + d.nD := rfl
  by_cases h : k < d.nS
  · obtain ⟨i, a, hi, ha, rfl⟩ := exists_block (s := d.nu + d.nx) (n := d.ph + 1) h
    exact .inl ⟨i, a, by omega, ha, rfl⟩
  · obtain ⟨i, a, hi, ha, he⟩ := exists_block (s := d.nu) (n := d.ph) (k := k - d.nS) (by
      show k - d.nS < d.nD; omega)
    exact .inr ⟨i, a, hi, ha, by omega⟩

theorem P_symm (h : Solved d c x0 u0 st obj sol m m' r call) {i j : Nat} (hi0 : i < d.nV) (hj0 : j < d.nV) :
    m.b.P.get i j = m.b.P.get j i := by
  have hP := h.inv.builder.derived.P
  have hdim := h.inv.builder.dims
  have h1 := hP.xx
  have h2 := hP.xd
  have h3 := hP.dx
  have h4 := hP.dd
  simp only [hdim, sumTo_eq] at h1 h2 h3 h4
  rcases var_cases hi0 with ⟨i, a, hi, ha, rfl⟩ | ⟨i, a, hi, ha, rfl⟩ <;>
  rcases var_cases hj0 with ⟨j, e, hj, he, rfl⟩ | ⟨j, e, hj, he, rfl⟩
  · rw [h1 i a j e hi hj ha he, h1 j e i a hj hi he ha]
    by_cases hij : i = j
    · subst hij
      rw [if_pos rfl, if_pos rfl]
      exact Finset.sum_congr rfl fun q _ => by ring
    · rw [if_neg hij, if_neg (by omega)]
  · rw [h2 i a j e hi hj ha he, h3 i a j e hi hj ha he]
  · rw [h3 j e i a hj hi he ha, h2 j e i a hj hi he ha]
  · rw [h4 i a j e hi hj ha he, h4 j e i a hj hi he ha]
    by_cases hij : i = j ∧ a = e
    · obtain ⟨rfl, rfl⟩ := hij; rfl
    · rw [if_neg hij, if_neg (by rintro ⟨rfl, rfl⟩; exact hij ⟨rfl, rfl⟩)]

theorem hessian_eq (h : Solved d c x0 u0 st obj sol m m' r call) {i j : Nat} (hi : i < d.nV) (hj : j < d.nV) :
    Spec.hessian call i j = m.b.P.get i j := by
  unfold Spec.hessian
  rw [h.entryP (by omega) (by omega), if_pos (by omega)]
  rcases Nat.le_total i j with hle | hle
  · rw [Nat.min_eq_left hle, Nat.max_eq_right hle]
  · rw [Nat.min_eq_right hle, Nat.max_eq_left hle, h.P_symm hj hi]

/-- The quadratic form of the Hessian. -/
theorem quad_eq (h : Solved d c x0 u0 st obj sol m m' r call) (z : Nat → K) :
    (∑ i ∈ range call.n, ∑ j ∈ range call.n, z i * Spec.hessian call i j * z j) =
      (∑ i ∈ range (d.ph + 1), ∑ e ∈ range (d.nu + d.ny), m.b.wDiag i e *
        (∑ a ∈ range (d.nu + d.nx), m.b.ssC.get e a * z (i * (d.nu + d.nx) + a)) ^ 2) +
      ∑ i ∈ range d.ph, ∑ a ∈ range d.nu, m.b.wDeltaU.get a i * z (d.nS + (i * d.nu + a)) ^ 2 := by
  have hP := h.inv.builder.derived.P
  have hdim := h.inv.builder.dims
  have h1 := hP.xx
  have h2 := hP.xd
  have h3 := hP.dx
  have h4 := hP.dd
  simp only [hdim, sumTo_eq] at h1 h2 h3 h4
  have hb : ∀ {i a}, i ≤ d.ph → a < d.nu + d.nx → i * (d.nu + d.nx) + a < d.nV := by
    intro i a hi ha
    have : i * (d.nu + d.nx) + a < d.nS := block_lt ha (by omega)
    have hV : d.nV = d.nS + d.nD := rfl
    omega
  have hb' : ∀ {i a}, i < d.ph → a < d.nu → d.nS + (i * d.nu + a) < d.nV := by
    intro i a hi ha
    have : i * d.nu + a < d.nD := block_lt ha hi
    have hV : d.nV = d.nS + d.nD := rfl
    omega
  rw [h.call.n]
  rw [Finset.sum_congr rfl (g := fun i => z i * ∑ j ∈ range d.nV, m.b.P.get i j * z j)]
  · rw [sum_vars]
    congr 1
    · refine Finset.sum_congr rfl fun i hi => ?_
      have hi' : i ≤ d.ph := by have := mem_range.1 hi; omega
      rw [← quad_form]
      refine Finset.sum_congr rfl fun a ha => ?_
      have ha' := mem_range.1 ha
      congr 1
      rw [sum_vars]
      have e1 : ∀ j ∈ range (d.ph + 1), ∑ e ∈ range (d.nu + d.nx),
          m.b.P.get (i * (d.nu + d.nx) + a) (j * (d.nu + d.nx) + e) * z (j * (d.nu + d.nx) + e) =
          if i = j then ∑ e ∈ range (d.nu + d.nx), (∑ q ∈ range (d.nu + d.ny),
            m.b.ssC.get q a * m.b.wDiag i q * m.b.ssC.get q e) * z (j * (d.nu + d.nx) + e) else 0 := by
        intro j hj
        have hj' : j ≤ d.ph := by have := mem_range.1 hj; omega
        split_ifs with hij
        · refine Finset.sum_congr rfl fun e he => ?_
          rw [h1 i a j e hi' hj' ha' (mem_range.1 he), if_pos hij]
        · refine Finset.sum_eq_zero fun e he => ?_
          rw [h1 i a j e hi' hj' ha' (mem_range.1 he), if_neg hij, zero_mul]
      rw [Finset.sum_congr rfl e1, sum_block_ite (by omega)]
      refine (congrArg (_ + ·) (Finset.sum_eq_zero fun j hj => Finset.sum_eq_zero fun e he => ?_)).trans (add_zero _)
      rw [h2 i a j e hi' (mem_range.1 hj) ha' (mem_range.1 he), zero_mul]
    · refine Finset.sum_congr rfl fun i hi => Finset.sum_congr rfl fun a ha => ?_
      have hi' := mem_range.1 hi
      have ha' := mem_range.1 ha
      rw [sum_vars]
      rw [Finset.sum_eq_zero (s := range (d.ph + 1)) fun j hj => Finset.sum_eq_zero fun e he => by
        have := mem_range.1 hj
        rw [h3 j e i a (by omega) hi' (mem_range.1 he) ha', zero_mul], zero_add]
      have e1 : ∀ j ∈ range d.ph, ∑ e ∈ range d.nu,
          m.b.P.get (d.nS + (i * d.nu + a)) (d.nS + (j * d.nu + e)) * z (d.nS + (j * d.nu + e)) =
          if i = j then m.b.wDeltaU.get a i * z (d.nS + (j * d.nu + a)) else 0 := by
        intro j hj
        have hj' := mem_range.1 hj
        split_ifs with hij
        · rw [Finset.sum_congr rfl (g := fun e => if a = e then m.b.wDeltaU.get a i * z (d.nS + (j * d.nu + e)) else 0)]
          · exact sum_block_ite ha' _
          · intro e he
            rw [h4 i a j e hi' hj' ha' (mem_range.1 he)]
            by_cases hae : a = e <;> simp [hij, hae]
        · refine Finset.sum_eq_zero fun e he => ?_
          rw [h4 i a j e hi' hj' ha' (mem_range.1 he), if_neg (fun h => hij h.1), zero_mul]
      rw [Finset.sum_congr rfl e1, sum_block_ite hi']
      ring
  · intro i hi
    rw [Finset.mul_sum]
    refine Finset.sum_congr rfl fun j hj => ?_
    rw [h.hessian_eq (mem_range.1 hi) (mem_range.1 hj)]
    ring

/-- The linear form. -/
theorem lin_eq (h : Solved d c x0 u0 st obj sol m m' r call) (z : Nat → K) :
    (∑ i ∈ range call.n, call.q.get i * z i) =
      (∑ i ∈ range (d.ph + 1), ∑ e ∈ range (d.nu + d.ny), m.b.wDiag i e *
        (-(Builder.extRef d m.o.outSysRef m.o.cmdSysRef e (i - 1)) + m.b.distY m.o.extInputMeas e (i - 1)) *
        (∑ a ∈ range (d.nu + d.nx), m.b.ssC.get e a * z (i * (d.nu + d.nx) + a))) +
      ∑ i ∈ range d.ph, ∑ a ∈ range d.nu, -(m.b.wDeltaU.get a i * m.o.deltaCmdSysRef.get a (i - 1)) *
        z (d.nS + (i * d.nu + a)) := by
  have hdim := h.inv.builder.dims
  have h1 := h.get.qx
  have h2 := h.get.qd
  simp only [hdim] at h1 h2
  rw [h.call.n, h.call.q, sum_vars]
  congr 1
  · refine Finset.sum_congr rfl fun i hi => ?_
    rw [← lin_form]
    refine Finset.sum_congr rfl fun a ha => ?_
    rw [h1 i a (by have := mem_range.1 hi; omega) (mem_range.1 ha)]
    simp only [Builder.qEntry, sumTo_eq]
    rw [hdim]
  · refine Finset.sum_congr rfl fun i hi => Finset.sum_congr rfl fun a ha => ?_
    rw [h2 i a (mem_range.1 hi) (mem_range.1 ha)]

/-- weights on the extended output, in terms of the configuration -/
theorem sum_outputs (h : Solved d c x0 u0 st obj sol m m' r call) {i : Nat} (hi : i ≤ d.ph) (F : Nat → K → K) (f : Nat → K) :
    ∑ e ∈ range (d.nu + d.ny), F e (m.b.wDiag i e) * f e =
      ∑ a ∈ range d.ny, F a (c.wY (i - 1) a) * f a + ∑ a ∈ range d.nu, F (d.ny + a) (c.wU (i - 1) a) * f (d.ny + a) := by
  have hdim := h.inv.builder.dims
  have r1 := h.inv.builder.repr.wY
  have r2 := h.inv.builder.repr.wU
  simp only [hdim] at r1 r2
  rw [Nat.add_comm d.nu, Finset.sum_range_add]
  unfold Builder.wDiag
  rw [hdim]
  congr 1
  · refine Finset.sum_congr rfl fun a ha => ?_
    rw [if_pos (mem_range.1 ha), r1 a i (mem_range.1 ha) hi]
  · refine Finset.sum_congr rfl fun a ha => ?_
    rw [if_neg (by omega), Nat.add_sub_cancel_left, r2 a i (mem_range.1 ha) hi]

/-- the input part of the extended output -/
theorem input_value (h : Solved d c x0 u0 st obj sol m m' r call) (hms : c.modelSet = true) {i a : Nat} (ha : a < d.nu)
    (z : Nat → K) :
    ∑ e ∈ range (d.nu + d.nx), m.b.ssC.get (d.ny + a) e * z (i * (d.nu + d.nx) + e) = Spec.heldAt d z i a := by
  have hdim := h.inv.builder.dims
  have r3 := h.inv.builder.repr.Cux a
  have r4 := h.inv.builder.repr.Cuu a
  simp only [hdim] at r3 r4
  rw [sum_ext]
  rw [Finset.sum_eq_zero (s := range d.nx) fun e he => by rw [r3 e ha (mem_range.1 he), zero_mul], zero_add]
  rw [Finset.sum_congr rfl (g := fun e => if a = e then z (i * (d.nu + d.nx) + (d.nx + e)) else 0)]
  · rw [heldAt_eq]; exact sum_block_ite ha _
  · intro e he
    rw [r4 e ha (mem_range.1 he)]
    by_cases hae : a = e <;> simp [hms, hae]

/-- The constant the objective leaves out. -/
def constTerm (d : Dims) (c : Spec.LinConfig K) : K :=
  (∑ i ∈ range (d.ph + 1), (∑ a ∈ range d.ny, c.wY (i - 1) a *
      (Spec.dot d.ndu (c.Dd a) (c.dist (i - 1)) - c.yRef (i - 1) a) ^ 2 +
    ∑ a ∈ range d.nu, c.wU (i - 1) a * c.uRef (i - 1) a ^ 2) +
  ∑ i ∈ range d.ph, ∑ a ∈ range d.nu, c.wDu i a * c.duRef (i - 1) a ^ 2) / 2

section
variable [NeZero (2 : K)]

theorem objective_eq (h : Solved d c x0 u0 st obj sol m m' r call) (hms : c.modelSet = true) (z : Nat → K) :
    Spec.qpObjective call z + constTerm d c =
      Spec.initialCost d c z + Spec.trackingCost d c (fun k => c.duRef (k - 1)) z := by
  have hdim := h.inv.builder.dims
  have hph := h.valid.ph_pos
  have two : (2 : K) ≠ 0 := NeZero.ne _
  unfold Spec.qpObjective
  rw [h.quad_eq, h.lin_eq]
  -- per step
  have r1 := h.inv.builder.repr.wDu
  simp only [hdim] at r1
  have hy : ∀ i, i ≤ d.ph → ∑ e ∈ range (d.nu + d.ny), m.b.wDiag i e *
        (∑ a ∈ range (d.nu + d.nx), m.b.ssC.get e a * z (i * (d.nu + d.nx) + a)) ^ 2 / 2 +
      ∑ e ∈ range (d.nu + d.ny), m.b.wDiag i e *
        (-(Builder.extRef d m.o.outSysRef m.o.cmdSysRef e (i - 1)) + m.b.distY m.o.extInputMeas e (i - 1)) *
        (∑ a ∈ range (d.nu + d.nx), m.b.ssC.get e a * z (i * (d.nu + d.nx) + a)) +
      (∑ a ∈ range d.ny, c.wY (i - 1) a * (Spec.dot d.ndu (c.Dd a) (c.dist (i - 1)) - c.yRef (i - 1) a) ^ 2 +
        ∑ a ∈ range d.nu, c.wU (i - 1) a * c.uRef (i - 1) a ^ 2) / 2 =
      (Spec.sqErr d.ny (c.wY (i - 1)) (Spec.outputOf d c (Spec.stateAt d z i) (c.dist (i - 1))) (c.yRef (i - 1)) +
       Spec.sqErr d.nu (c.wU (i - 1)) (Spec.heldAt d z i) (c.uRef (i - 1))) / 2 := by
    intro i hi
    rw [← Finset.sum_add_distrib]
    have s := h.sum_outputs hi (fun e w => w) (fun e =>
      (∑ a ∈ range (d.nu + d.nx), m.b.ssC.get e a * z (i * (d.nu + d.nx) + a)) ^ 2 / 2 +
      (-(Builder.extRef d m.o.outSysRef m.o.cmdSysRef e (i - 1)) + m.b.distY m.o.extInputMeas e (i - 1)) *
        (∑ a ∈ range (d.nu + d.nx), m.b.ssC.get e a * z (i * (d.nu + d.nx) + a)))
    rw [Finset.sum_congr rfl (g := fun e => m.b.wDiag i e *
      ((∑ a ∈ range (d.nu + d.nx), m.b.ssC.get e a * z (i * (d.nu + d.nx) + a)) ^ 2 / 2 +
      (-(Builder.extRef d m.o.outSysRef m.o.cmdSysRef e (i - 1)) + m.b.distY m.o.extInputMeas e (i - 1)) *
        (∑ a ∈ range (d.nu + d.nx), m.b.ssC.get e a * z (i * (d.nu + d.nx) + a)))) (fun e _ => by ring), s]
    rw [add_div, add_div, add_add_add_comm]
    unfold Spec.sqErr
    rw [Finset.sum_div, Finset.sum_div, Finset.sum_div, Finset.sum_div, ← Finset.sum_add_distrib, ← Finset.sum_add_distrib]
    congr 1
    · refine Finset.sum_congr rfl fun a ha => ?_
      have ha' := mem_range.1 ha
      rw [h.output_value ha', h.distY_eq (by omega) ha']
      unfold Builder.extRef Spec.outputOf
      rw [if_pos ha', h.inv.opt.yRef a (i - 1) ha' (by omega)]
      field_simp
      ring
    · refine Finset.sum_congr rfl fun a ha => ?_
      have ha' := mem_range.1 ha
      rw [h.input_value hms ha', h.distY_input ha']
      unfold Builder.extRef
      rw [if_neg (by omega), Nat.add_sub_cancel_left, h.inv.opt.uRef a (i - 1) ha' (by omega)]
      field_simp
      ring
  have hd : ∀ i, i < d.ph → ∑ a ∈ range d.nu, m.b.wDeltaU.get a i * z (d.nS + (i * d.nu + a)) ^ 2 / 2 +
      ∑ a ∈ range d.nu, -(m.b.wDeltaU.get a i * m.o.deltaCmdSysRef.get a (i - 1)) * z (d.nS + (i * d.nu + a)) +
      (∑ a ∈ range d.nu, c.wDu i a * c.duRef (i - 1) a ^ 2) / 2 =
      Spec.sqErr d.nu (c.wDu i) (Spec.incrementAt d z i) (c.duRef (i - 1)) / 2 := by
    intro i hi
    unfold Spec.sqErr
    rw [Finset.sum_div, Finset.sum_div, ← Finset.sum_add_distrib, ← Finset.sum_add_distrib]
    refine Finset.sum_congr rfl fun a ha => ?_
    have ha' := mem_range.1 ha
    rw [r1 a i ha' hi, h.inv.opt.duRef a (i - 1) ha' (by omega), incrementAt_eq]
    field_simp
    ring
  have HY := Finset.sum_congr (rfl : range (d.ph + 1) = _) fun i hi => hy i (by have := mem_range.1 hi; omega)
  have HD := Finset.sum_congr (rfl : range d.ph = _) fun i hi => hd i (mem_range.1 hi)
  unfold Spec.initialCost Spec.trackingCost constTerm
  simp only [Finset.sum_add_distrib] at HY HD ⊢
  simp only [← Finset.sum_div, Finset.sum_add_distrib] at HY HD
  rw [Finset.sum_range_succ' (fun i => Spec.sqErr d.ny _ _ _), Finset.sum_range_succ' (fun i => Spec.sqErr d.nu _ _ _)] at HY
  simp only [Nat.add_sub_cancel, Nat.zero_sub] at HY
  unfold Spec.inputAt
  linear_combination HY + HD

end

/-- Non-negative weights give a positive semidefinite Hessian. -/
theorem quad_nonneg [LinearOrder K] [IsStrictOrderedRing K] (h : Solved d c x0 u0 st obj sol m m' r call)
    (hy : ∀ k a, k < d.ph → a < d.ny → 0 ≤ c.wY k a) (hu : ∀ k a, k < d.ph → a < d.nu → 0 ≤ c.wU k a)
    (hdu : ∀ k a, k < d.ph → a < d.nu → 0 ≤ c.wDu k a) (z : Nat → K) :
    0 ≤ ∑ i ∈ range call.n, ∑ j ∈ range call.n, z i * Spec.hessian call i j * z j := by
  have hdim := h.inv.builder.dims
  have hph := h.valid.ph_pos
  have r1 := h.inv.builder.repr.wDu
  simp only [hdim] at r1
  rw [h.quad_eq]
  refine add_nonneg (Finset.sum_nonneg fun i hi => ?_) (Finset.sum_nonneg fun i hi => Finset.sum_nonneg fun a ha => ?_)
  · have hi' : i ≤ d.ph := by have := mem_range.1 hi; omega
    rw [h.sum_outputs hi' (fun _ w => w)]
    refine add_nonneg (Finset.sum_nonneg fun a ha => ?_) (Finset.sum_nonneg fun a ha => ?_)
    · exact mul_nonneg (hy _ _ (by omega) (mem_range.1 ha)) (sq_nonneg _)
    · exact mul_nonneg (hu _ _ (by omega) (mem_range.1 ha)) (sq_nonneg _)
  · rw [r1 a i (mem_range.1 ha) (mem_range.1 hi)]
    exact mul_nonneg (hdu _ _ (mem_range.1 hi) (mem_range.1 ha)) (sq_nonneg _)

end Solved
end Mpc
