import Verif.Proofs.QpRows

/-
The row groups of the problem handed to OSQP, as constraints on the trajectory.
-/
namespace Mpc
open Exec Finset
set_option linter.unusedSectionVars false

namespace Solved
variable {K : Type} [Field K] [DecidableEq K] {d : Dims} {c : Spec.LinConfig K} {x0 u0 : Vec K} {st : Int} {obj : K}
  {sol : Option ((Nat → K) × (Nat → K))} {m m' : LMpc K} {r : LResult K} {call : OsqpCall K}

theorem stateAt_eq (d : Dims) (z : Nat → K) (k a : Nat) : Spec.stateAt d z k a = z (k * (d.nu + d.nx) + a) := by
  unfold Spec.stateAt; rw [Nat.add_comm d.nx]

theorem heldAt_eq (d : Dims) (z : Nat → K) (k a : Nat) : Spec.heldAt d z k a = z (k * (d.nu + d.nx) + (d.nx + a)) := by
  unfold Spec.heldAt; rw [Nat.add_comm d.nx d.nu]; congr 1; omega

theorem incrementAt_eq (d : Dims) (z : Nat → K) (k a : Nat) : Spec.incrementAt d z k a = z (d.nS + (k * d.nu + a)) := by
  unfold Spec.incrementAt Dims.nS; rw [Nat.add_comm d.nx d.nu]; congr 1; omega

theorem boundRow_eq (d : Dims) : Spec.boundRow d = d.nS := by
  unfold Spec.boundRow Dims.nS; rw [Nat.add_comm d.nx]

theorem outputRow_eq (d : Dims) : Spec.outputRow d = d.nS + d.nS := by
  unfold Spec.outputRow; rw [boundRow_eq, Nat.add_comm d.nx]; rfl

theorem incrementRow_eq (d : Dims) : Spec.incrementRow d = d.nS + d.nS + d.nY := by
  unfold Spec.incrementRow; rw [outputRow_eq]; rfl

theorem scalarRow_eq (d : Dims) : Spec.scalarRow d = d.nS + d.nS + d.nY + d.nD := by
  unfold Spec.scalarRow; rw [incrementRow_eq]; rfl

theorem rowCount_eq (d : Dims) : Spec.rowCount d = d.nC := by
  unfold Spec.rowCount; rw [scalarRow_eq]
  have hI : d.nI = d.nS + (d.nY + d.nD + (d.ph + 1)) := rfl
  unfold Dims.nC; omega

theorem varCount_eq (d : Dims) : Spec.varCount d = d.nV := by
  unfold Spec.varCount Dims.nV; rw [Nat.add_comm d.nx]

/-- the extended dynamics of the builder are the configured plant -/
theorem distX_state (h : Solved d c x0 u0 st obj sol m m' r call) {k a : Nat} (hk : k < d.ph) (ha : a < d.nx) :
    m.b.distX m.o.extInputMeas a k = Spec.dot d.ndu (c.Bd a) (c.dist k) := by
  simp only [Builder.distX, sumTo_eq, Spec.dot]
  have hdim := h.inv.builder.dims
  have hb := h.inv.builder.repr.Bvx a
  simp only [hdim] at hb ⊢
  refine Finset.sum_congr rfl fun e he => ?_
  rw [hb e ha (mem_range.1 he), h.inv.opt.dist e k (mem_range.1 he) hk]

theorem distX_input (h : Solved d c x0 u0 st obj sol m m' r call) {k a : Nat} (ha : a < d.nu) :
    m.b.distX m.o.extInputMeas (d.nx + a) k = 0 := by
  simp only [Builder.distX, sumTo_eq]
  have hdim := h.inv.builder.dims
  have hb := h.inv.builder.repr.Bvu a
  simp only [hdim] at hb ⊢
  refine Finset.sum_eq_zero fun e he => ?_
  rw [hb e ha (mem_range.1 he), zero_mul]

theorem distY_eq (h : Solved d c x0 u0 st obj sol m m' r call) {k a : Nat} (hk : k < d.ph) (ha : a < d.ny) :
    m.b.distY m.o.extInputMeas a k = Spec.dot d.ndu (c.Dd a) (c.dist k) := by
  simp only [Builder.distY, sumTo_eq, Spec.dot]
  have hdim := h.inv.builder.dims
  have hb := h.inv.builder.repr.Dvy a
  simp only [hdim] at hb ⊢
  refine Finset.sum_congr rfl fun e he => ?_
  rw [hb e ha (mem_range.1 he), h.inv.opt.dist e k (mem_range.1 he) hk]

theorem distY_input (h : Solved d c x0 u0 st obj sol m m' r call) {k a : Nat} (ha : a < d.nu) :
    m.b.distY m.o.extInputMeas (d.ny + a) k = 0 := by
  simp only [Builder.distY, sumTo_eq]
  have hdim := h.inv.builder.dims
  have hb := h.inv.builder.repr.Dvu a
  simp only [hdim] at hb ⊢
  refine Finset.sum_eq_zero fun e he => ?_
  rw [hb e ha (mem_range.1 he), zero_mul]

/-- dynamics of the state part -/
theorem plant_state (h : Solved d c x0 u0 st obj sol m m' r call) {i a : Nat} (ha : a < d.nx)
    (z : Nat → K) :
    ∑ e ∈ range (d.nu + d.nx), m.b.ssA.get a e * z (i * (d.nu + d.nx) + e) +
      ∑ e ∈ range d.nu, m.b.ssB.get a e * z (d.nS + (i * d.nu + e)) =
    Spec.dot d.nx (c.A a) (Spec.stateAt d z i) +
      Spec.dot d.nu (c.B a) (fun e => Spec.heldAt d z i e + Spec.incrementAt d z i e) := by
  have hdim := h.inv.builder.dims
  have h1 := h.inv.builder.repr.Axx a
  have h2 := h.inv.builder.repr.Axu a
  have h3 := h.inv.builder.repr.Bx a
  simp only [hdim] at h1 h2 h3
  unfold Spec.dot
  rw [sum_ext, add_assoc, ← Finset.sum_add_distrib]
  congr 1
  · refine Finset.sum_congr rfl fun e he => ?_
    rw [h1 e ha (mem_range.1 he), stateAt_eq]
  · refine Finset.sum_congr rfl fun e he => ?_
    dsimp only
    rw [h2 e ha (mem_range.1 he), h3 e ha (mem_range.1 he), heldAt_eq, incrementAt_eq]
    exact (mul_add _ _ _).symm

theorem plant_input (h : Solved d c x0 u0 st obj sol m m' r call) (hms : c.modelSet = true) {i a : Nat} (ha : a < d.nu)
    (z : Nat → K) :
    ∑ e ∈ range (d.nu + d.nx), m.b.ssA.get (d.nx + a) e * z (i * (d.nu + d.nx) + e) +
      ∑ e ∈ range d.nu, m.b.ssB.get (d.nx + a) e * z (d.nS + (i * d.nu + e)) =
    Spec.heldAt d z i a + Spec.incrementAt d z i a := by
  have hdim := h.inv.builder.dims
  have h1 := h.inv.builder.repr.Aux a
  have h2 := h.inv.builder.repr.Auu a
  have h3 := h.inv.builder.repr.Bu a
  simp only [hdim, hms, true_and] at h1 h2 h3
  rw [sum_ext, heldAt_eq, incrementAt_eq]
  rw [Finset.sum_eq_zero (s := range d.nx) fun e he => by rw [h1 e ha (mem_range.1 he), zero_mul], zero_add]
  congr 1
  · rw [Finset.sum_congr rfl (g := fun e => if a = e then z (i * (d.nu + d.nx) + (d.nx + e)) else 0)]
    · exact sum_block_ite ha _
    · intro e he
      rw [h2 e ha (mem_range.1 he)]
      split_ifs <;> simp
  · rw [Finset.sum_congr rfl (g := fun e => if a = e then z (d.nS + (i * d.nu + e)) else 0)]
    · exact sum_block_ite ha (fun e => z (d.nS + (i * d.nu + e)))
    · intro e he
      rw [h3 e ha (mem_range.1 he)]
      split_ifs <;> simp

theorem output_value (h : Solved d c x0 u0 st obj sol m m' r call) {i a : Nat} (ha : a < d.ny) (z : Nat → K) :
    ∑ e ∈ range (d.nu + d.nx), m.b.ssC.get a e * z (i * (d.nu + d.nx) + e) =
      Spec.dot d.nx (c.C a) (Spec.stateAt d z i) := by
  have hdim := h.inv.builder.dims
  have r3 := h.inv.builder.repr.Cyx a
  have r4 := h.inv.builder.repr.Cyu a
  simp only [hdim] at r3 r4
  rw [sum_ext]
  rw [Finset.sum_eq_zero (s := range d.nu) fun e he => by rw [r4 e ha (mem_range.1 he), zero_mul], add_zero]
  exact Finset.sum_congr rfl fun e he => by rw [r3 e ha (mem_range.1 he), stateAt_eq]

section ordered
variable [LinearOrder K] [IsStrictOrderedRing K]

theorem rowOk_of_eq {ρ : Nat} {v : K} {z : Nat → K} (hl : call.l.get ρ = .fin v) (hu : call.u.get ρ = .fin v) :
    Spec.rowOk call z ρ ↔ Spec.rowValue call z ρ = v := by
  unfold Spec.rowOk
  rw [hl, hu, Ext.fin_le_fin, Ext.fin_le_fin]
  exact ⟨fun h => le_antisymm h.2 h.1, fun h => ⟨h.ge, h.le⟩⟩

/-- The first group of rows: the trajectories of the plant. -/
theorem trajectory_iff (h : Solved d c x0 u0 st obj sol m m' r call) (hms : c.modelSet = true) (z : Nat → K) :
    (∀ ρ, ρ < Spec.boundRow d → Spec.rowOk call z ρ) ↔ Spec.Trajectory d c x0.get u0.get z := by
  have hdim := h.inv.builder.dims
  have hS : d.nS = (d.ph + 1) * (d.nu + d.nx) := rfl
  have g1 := h.get.leqlu
  have g2 := h.get.l0x
  have g3 := h.get.l0u
  have g4 := h.get.le
  simp only [hdim] at g1 g2 g3 g4
  rw [← h.call.l, ← h.call.u] at g1
  rw [← h.call.l] at g2 g3 g4
  have blk : ∀ {i a}, i ≤ d.ph → a < d.nu + d.nx → i * (d.nu + d.nx) + a < d.nS := fun hi ha => block_lt ha (by omega)
  have r0 : ∀ a, a < d.nu + d.nx → a < d.nS := fun a ha => by have := blk (Nat.zero_le _) ha; omega
  -- each row
  have e1 : ∀ a, a < d.nx → (Spec.rowOk call z a ↔ Spec.stateAt d z 0 a = x0.get a) := by
    intro a ha
    have := g2 a ha
    rw [rowOk_of_eq this (by rw [← g1 a (r0 a (by omega))]; exact this), h.row_start (by omega), neg_inj, stateAt_eq]
    simp
  have e2 : ∀ a, a < d.nu → (Spec.rowOk call z (d.nx + a) ↔ Spec.heldAt d z 0 a = u0.get a) := by
    intro a ha
    have := g3 a ha
    rw [rowOk_of_eq this (by rw [← g1 _ (r0 _ (by omega))]; exact this), h.row_start (by omega), neg_inj, heldAt_eq]
    simp
  have e3 : ∀ i a, i < d.ph → a < d.nx → (Spec.rowOk call z ((i + 1) * (d.nu + d.nx) + a) ↔
      Spec.stateAt d z (i + 1) a = Spec.dot d.nx (c.A a) (Spec.stateAt d z i) +
      Spec.dot d.nu (c.B a) (fun e => Spec.heldAt d z i e + Spec.incrementAt d z i e) +
      Spec.dot d.ndu (c.Bd a) (c.dist i)) := by
    intro i a hi ha
    have := g4 i a hi (by omega)
    rw [rowOk_of_eq this (by rw [← g1 _ (blk (by omega) (by omega))]; exact this), h.row_dynamics hi (by omega),
      add_assoc, h.plant_state ha, h.distX_state hi ha, stateAt_eq d z (i + 1)]
    constructor
    · intro e; linear_combination -e
    · intro e; linear_combination -e
  have e4 : ∀ i a, i < d.ph → a < d.nu → (Spec.rowOk call z ((i + 1) * (d.nu + d.nx) + (d.nx + a)) ↔
      Spec.inputAt d z i a = Spec.heldAt d z i a + Spec.incrementAt d z i a) := by
    intro i a hi ha
    have := g4 i (d.nx + a) hi (by omega)
    rw [rowOk_of_eq this (by rw [← g1 _ (blk (by omega) (by omega))]; exact this), h.row_dynamics hi (by omega),
      add_assoc, h.plant_input hms ha, h.distX_input ha]
    unfold Spec.inputAt
    rw [heldAt_eq d z (i + 1)]
    constructor
    · intro e; linear_combination -e
    · intro e; linear_combination -e
  rw [boundRow_eq]
  constructor
  · intro hr
    have inp : ∀ k a, k < d.ph → a < d.nu → Spec.inputAt d z k a = Spec.heldAt d z k a + Spec.incrementAt d z k a :=
      fun k a hk ha => (e4 k a hk ha).1 (hr _ (blk (by omega) (by omega)))
    refine ⟨fun a ha => (e1 a ha).1 (hr _ (r0 _ (by omega))), fun a ha => (e2 a ha).1 (hr _ (r0 _ (by omega))), inp, ?_⟩
    intro k a hk ha
    rw [(e3 k a hk ha).1 (hr _ (blk (by omega) (by omega)))]
    congr 2
    exact Finset.sum_congr rfl fun e he => by rw [inp k e hk (mem_range.1 he)]
  · intro ht ρ hρ
    obtain ⟨i, a, hi, ha, rfl⟩ := exists_block (by rw [hS] at hρ; exact hρ)
    have cx : a < d.nx ∨ ∃ a', a' < d.nu ∧ a = d.nx + a' := by
      by_cases hh : a < d.nx
      · exact .inl hh
      · exact .inr ⟨a - d.nx, by omega, by omega⟩
    rcases Nat.eq_zero_or_pos i with rfl | hpos
    · rw [Nat.zero_mul, Nat.zero_add]
      rcases cx with hx | ⟨a', ha', rfl⟩
      · exact (e1 a hx).2 (ht.state0 a hx)
      · exact (e2 a' ha').2 (ht.input0 a' ha')
    · obtain ⟨k, rfl⟩ : ∃ k, i = k + 1 := ⟨i - 1, by omega⟩
      rcases cx with hx | ⟨a', ha', rfl⟩
      · refine (e3 k a (by omega) hx).2 ?_
        rw [ht.state k a (by omega) hx]
        congr 2
        exact Finset.sum_congr rfl fun e he => by rw [ht.input k e (by omega) (mem_range.1 he)]
      · exact (e4 k a' (by omega) ha').2 (ht.input k a' (by omega) ha')

/-- State rows. -/
theorem state_row (h : Solved d c x0 u0 st obj sol m m' r call) {i a : Nat} (hi : i ≤ d.ph) (ha : a < d.nx) (z : Nat → K) :
    Spec.rowOk call z (Spec.boundRow d + i * (d.nx + d.nu) + a) ↔
      Spec.within (c.xMin (i - 1) a) (c.xMax (i - 1) a) (Spec.stateAt d z i a) := by
  have hdim := h.inv.builder.dims
  have hk : i * (d.nu + d.nx) + a < d.nS := block_lt (by omega) (by omega)
  have hl := h.get.lx _ (by rw [hdim]; exact hk)
  have hu := h.get.ux _ (by rw [hdim]; exact hk)
  have bl := h.inv.builder.derived.lineq.x i a
  have bu := h.inv.builder.derived.uineq.x i a
  have r1 := h.inv.builder.repr.xMin a i
  have r2 := h.inv.builder.repr.xMax a i
  simp only [hdim] at hl hu bl bu r1 r2
  have he : Spec.boundRow d + i * (d.nx + d.nu) + a = d.nS + (i * (d.nu + d.nx) + a) := by
    rw [boundRow_eq, Nat.add_comm d.nx d.nu]; omega
  unfold Spec.rowOk Spec.within
  rw [he, h.row_bound hk, h.call.l, h.call.u, hl, hu, bl hi ha, bu hi ha, r1 ha hi, r2 ha hi, stateAt_eq]

/-- Held-input rows. -/
theorem held_row (h : Solved d c x0 u0 st obj sol m m' r call) {i a : Nat} (hi : i ≤ d.ph) (ha : a < d.nu) (z : Nat → K) :
    Spec.rowOk call z (Spec.boundRow d + i * (d.nx + d.nu) + d.nx + a) ↔
      Spec.within (c.uMin (min i (d.ph - 1)) a) (c.uMax (min i (d.ph - 1)) a) (Spec.heldAt d z i a) := by
  have hdim := h.inv.builder.dims
  have hph := h.valid.ph_pos
  have hk : i * (d.nu + d.nx) + (d.nx + a) < d.nS := block_lt (by omega) (by omega)
  have hl := h.get.lx _ (by rw [hdim]; exact hk)
  have hu := h.get.ux _ (by rw [hdim]; exact hk)
  have bl := h.inv.builder.derived.lineq.u i a
  have bu := h.inv.builder.derived.uineq.u i a
  have r1 := h.inv.builder.repr.uMin a (if i = d.ph then i - 1 else i)
  have r2 := h.inv.builder.repr.uMax a (if i = d.ph then i - 1 else i)
  simp only [hdim] at hl hu bl bu r1 r2
  have hlt : (if i = d.ph then i - 1 else i) < d.ph := by split_ifs <;> omega
  have heq : (if i = d.ph then i - 1 else i) = min i (d.ph - 1) := by split_ifs <;> omega
  have he : Spec.boundRow d + i * (d.nx + d.nu) + d.nx + a = d.nS + (i * (d.nu + d.nx) + (d.nx + a)) := by
    rw [boundRow_eq, Nat.add_comm d.nx d.nu]; omega
  unfold Spec.rowOk Spec.within
  rw [he, h.row_bound hk, h.call.l, h.call.u, hl, hu, bl hi ha, bu hi ha, r1 ha hlt, r2 ha hlt, heldAt_eq, heq]

/-- Output rows. -/
theorem output_row (h : Solved d c x0 u0 st obj sol m m' r call) {i a : Nat} (hi : i ≤ d.ph) (ha : a < d.ny) (z : Nat → K) :
    Spec.rowOk call z (Spec.outputRow d + i * d.ny + a) ↔
      Spec.within (c.yMin (i - 1) a) (c.yMax (i - 1) a)
        (Spec.outputOf d c (Spec.stateAt d z i) (c.dist (i - 1)) a) := by
  have hdim := h.inv.builder.dims
  have hph := h.valid.ph_pos
  have hl := h.get.ly i a
  have hu := h.get.uy i a
  have bl := h.inv.builder.derived.lineq.y i a
  have bu := h.inv.builder.derived.uineq.y i a
  have r1 := h.inv.builder.repr.yMin a i
  have r2 := h.inv.builder.repr.yMax a i
  simp only [hdim] at hl hu bl bu r1 r2
  have he : Spec.outputRow d + i * d.ny + a = d.nS + (d.nS + (i * d.ny + a)) := by
    rw [outputRow_eq]; omega
  unfold Spec.rowOk Spec.within Spec.outputOf
  rw [he, h.row_output hi ha, h.call.l, h.call.u, hl hi ha, hu hi ha, bl hi ha, bu hi ha, r1 ha hi, r2 ha hi,
    h.distY_eq (by omega) ha, h.output_value ha, Ext.add_neg_le_iff, Ext.le_add_neg_iff]

/-- Increment rows. -/
theorem increment_row (h : Solved d c x0 u0 st obj sol m m' r call) {i a : Nat} (hi : i < d.ph) (ha : a < d.nu) (z : Nat → K) :
    Spec.rowOk call z (Spec.incrementRow d + i * d.nu + a) ↔ (d.ch < i → Spec.incrementAt d z i a = 0) := by
  have hdim := h.inv.builder.dims
  have hI : d.nI = d.nS + (d.nY + d.nD + (d.ph + 1)) := rfl
  have hk : i * d.nu + a < d.nD := block_lt ha hi
  have hl := h.get.lt (d.nS + d.nY + (i * d.nu + a)) (by rw [hdim]; omega) (by rw [hdim]; omega)
  have hu := h.get.ut (d.nS + d.nY + (i * d.nu + a)) (by rw [hdim]; omega) (by rw [hdim]; omega)
  have bl := h.inv.builder.derived.lineq.du i a
  have bu := h.inv.builder.derived.uineq.du i a
  simp only [hdim] at hl hu bl bu
  have he : Spec.incrementRow d + i * d.nu + a = d.nS + (d.nS + d.nY + (i * d.nu + a)) := by
    rw [incrementRow_eq]; omega
  unfold Spec.rowOk
  rw [he, h.row_increment hk, h.call.l, h.call.u, hl, hu, bl hi ha, bu hi ha, incrementAt_eq]
  by_cases hc : d.ch < i
  · rw [if_pos hc, if_pos hc, Ext.fin_le_fin, Ext.fin_le_fin]
    exact ⟨fun h _ => le_antisymm h.2 h.1, fun h => ⟨(h hc).ge, (h hc).le⟩⟩
  · rw [if_neg hc, if_neg hc]
    simp [hc]

/-- Scalar rows. -/
theorem scalar_row (h : Solved d c x0 u0 st obj sol m m' r call) {i : Nat} (hi : i ≤ d.ph) (z : Nat → K) :
    Spec.rowOk call z (Spec.scalarRow d + i) ↔
      Spec.within (c.sMin (i - 1)) (c.sMax (i - 1))
        (Spec.dot d.nx c.sX (Spec.stateAt d z i) + Spec.dot d.nu c.sU (Spec.heldAt d z i)) := by
  have hdim := h.inv.builder.dims
  have hI : d.nI = d.nS + (d.nY + d.nD + (d.ph + 1)) := rfl
  have hl := h.get.lt (d.nS + d.nY + d.nD + i) (by rw [hdim]; omega) (by rw [hdim]; omega)
  have hu := h.get.ut (d.nS + d.nY + d.nD + i) (by rw [hdim]; omega) (by rw [hdim]; omega)
  have bl := h.inv.builder.derived.lineq.sc i
  have bu := h.inv.builder.derived.uineq.sc i
  have r1 := h.inv.builder.repr.sMin i
  have r2 := h.inv.builder.repr.sMax i
  simp only [hdim] at hl hu bl bu r1 r2
  have he : Spec.scalarRow d + i = d.nS + (d.nS + d.nY + d.nD + i) := by
    rw [scalarRow_eq]; omega
  unfold Spec.rowOk Spec.within
  rw [he, h.row_scalar hi, h.call.l, h.call.u, hl, hu, bl hi, bu hi, r1 hi, r2 hi]
  have hv : ∑ e ∈ range (d.nu + d.nx), (if e < d.nx then c.sX e else c.sU (e - d.nx)) * z (i * (d.nu + d.nx) + e) =
      Spec.dot d.nx c.sX (Spec.stateAt d z i) + Spec.dot d.nu c.sU (Spec.heldAt d z i) := by
    rw [sum_ext]
    unfold Spec.dot
    congr 1
    · refine Finset.sum_congr rfl fun e he => ?_
      rw [if_pos (mem_range.1 he), stateAt_eq]
    · refine Finset.sum_congr rfl fun e he => ?_
      rw [if_neg (by omega), heldAt_eq, Nat.add_sub_cancel_left]
  rw [hv]

/-- Every row belongs to one of the groups. -/
theorem rows_cases {ρ : Nat} (hρ : ρ < Spec.rowCount d) :
    ρ < Spec.boundRow d ∨
    (∃ i a, i ≤ d.ph ∧ a < d.nx ∧ ρ = Spec.boundRow d + i * (d.nx + d.nu) + a) ∨
    (∃ i a, i ≤ d.ph ∧ a < d.nu ∧ ρ = Spec.boundRow d + i * (d.nx + d.nu) + d.nx + a) ∨
    (∃ i a, i ≤ d.ph ∧ a < d.ny ∧ ρ = Spec.outputRow d + i * d.ny + a) ∨
    (∃ i a, i < d.ph ∧ a < d.nu ∧ ρ = Spec.incrementRow d + i * d.nu + a) ∨
    (∃ i, i ≤ d.ph ∧ ρ = Spec.scalarRow d + i) := by
  by_cases h1 : ρ < Spec.boundRow d
  · exact .inl h1
  right
  by_cases h2 : ρ < Spec.outputRow d
  · obtain ⟨i, a, hi, ha, he⟩ := exists_block (s := d.nx + d.nu) (n := d.ph + 1) (k := ρ - Spec.boundRow d) (by
      unfold Spec.outputRow at h2; omega)
    by_cases hx : a < d.nx
    · exact .inl ⟨i, a, by omega, hx, by omega⟩
    · exact .inr (.inl ⟨i, a - d.nx, by omega, by omega, by omega⟩)
  right; right
  by_cases h3 : ρ < Spec.incrementRow d
  · obtain ⟨i, a, hi, ha, he⟩ := exists_block (s := d.ny) (n := d.ph + 1) (k := ρ - Spec.outputRow d) (by
      unfold Spec.incrementRow at h3; omega)
    exact .inl ⟨i, a, by omega, ha, by omega⟩
  right
  by_cases h4 : ρ < Spec.scalarRow d
  · obtain ⟨i, a, hi, ha, he⟩ := exists_block (s := d.nu) (n := d.ph) (k := ρ - Spec.incrementRow d) (by
      unfold Spec.scalarRow at h4; omega)
    exact .inl ⟨i, a, hi, ha, by omega⟩
  · exact .inr ⟨ρ - Spec.scalarRow d, by unfold Spec.rowCount at hρ; omega, by omega⟩

end ordered
end Solved
end Mpc
