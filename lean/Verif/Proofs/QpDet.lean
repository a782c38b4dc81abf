import Verif.Proofs.QpCost

/-
The problem handed to OSQP is a function of the configuration, the measured state and the last command.
-/
namespace Mpc
open Exec Finset
set_option linter.unusedSectionVars false

section
variable {K : Type} [Field K] [DecidableEq K]

/-- The invariant only looks at the part of the configuration inside the dimensions. -/
theorem LMpc.Inv.agree {d : Dims} (hph : 0 < d.ph) {m : LMpc K} {c c' : Spec.LinConfig K} (h : LMpc.Inv d m c)
    (g : c.Agree d c') : LMpc.Inv d m c' := by
  obtain ⟨h1, ⟨rfl, h3, h4, hr⟩, ho⟩ := h
  obtain ⟨a1, a2, a3, a4, a5, a6, a7, a8, a9, a10, a11, a12, a13, a14, a15⟩ := ho
  refine ⟨h1, ⟨rfl, h3, h4, ?_⟩, ⟨a1, a2, a3, a4, a5, ?_, ?_, ?_, ?_, a10, a11, a12, a13, a14, a15⟩⟩
  · constructor
    · intro a e ha he; rw [g.A a e ha he]; exact hr.Axx a e ha he
    · intro a e ha he; rw [g.B a e ha he]; exact hr.Axu a e ha he
    · exact hr.Aux
    · rw [g.modelSet]; exact hr.Auu
    · intro a e ha he; rw [g.B a e ha he]; exact hr.Bx a e ha he
    · rw [g.modelSet]; exact hr.Bu
    · intro a e ha he; rw [g.C a e ha he]; exact hr.Cyx a e ha he
    · exact hr.Cyu
    · exact hr.Cux
    · rw [g.modelSet]; exact hr.Cuu
    · intro a e ha he; rw [g.Bd a e ha he]; exact hr.Bvx a e ha he
    · exact hr.Bvu
    · intro a e ha he; rw [g.Dd a e ha he]; exact hr.Dvy a e ha he
    · exact hr.Dvu
    · intro a k ha hk; rw [g.wY (k - 1) a (by omega) ha]; exact hr.wY a k ha hk
    · intro a k ha hk; rw [g.wU (k - 1) a (by omega) ha]; exact hr.wU a k ha hk
    · intro a k ha hk; rw [g.wDu k a (by omega) ha]; exact hr.wDu a k ha hk
    · intro a k ha hk; rw [g.xMin (k - 1) a (by omega) ha]; exact hr.xMin a k ha hk
    · intro a k ha hk; rw [g.xMax (k - 1) a (by omega) ha]; exact hr.xMax a k ha hk
    · intro a k ha hk; rw [g.uMin k a (by omega) ha]; exact hr.uMin a k ha hk
    · intro a k ha hk; rw [g.uMax k a (by omega) ha]; exact hr.uMax a k ha hk
    · intro a k ha hk; rw [g.yMin (k - 1) a (by omega) ha]; exact hr.yMin a k ha hk
    · intro a k ha hk; rw [g.yMax (k - 1) a (by omega) ha]; exact hr.yMax a k ha hk
    · intro k hk; rw [g.sMin (k - 1) (by omega)]; exact hr.sMin k hk
    · intro k hk; rw [g.sMax (k - 1) (by omega)]; exact hr.sMax k hk
    · intro i j a hi hj ha
      rw [hr.sMul i j a hi hj ha]
      refine if_congr Iff.rfl ?_ rfl
      by_cases hx : a < m.b.d.nx
      · rw [if_pos hx, if_pos hx, g.sX a hx]
      · rw [if_neg hx, if_neg hx, g.sU _ (by omega)]
  · intro a k ha hk; rw [g.yRef k a hk ha]; exact a6 a k ha hk
  · intro a k ha hk; rw [g.uRef k a hk ha]; exact a7 a k ha hk
  · intro a k ha hk; rw [g.duRef k a hk ha]; exact a8 a k ha hk
  · intro a k ha hk; rw [g.dist k a hk ha]; exact a9 a k ha hk

namespace Builder
variable {b b' : Builder K} {c : Spec.LinConfig K}

theorem Repr.ssA_eq (h : b.Repr c) (h' : b'.Repr c) (hd : b'.d = b.d) {a e : Nat} (ha : a < b.d.nu + b.d.nx)
    (he : e < b.d.nu + b.d.nx) : b'.ssA.get a e = b.ssA.get a e := by
  have k1 := h'.Axx; have k2 := h'.Axu; have k3 := h'.Aux; have k4 := h'.Auu
  simp only [hd] at k1 k2 k3 k4
  by_cases hx : a < b.d.nx
  · by_cases hy : e < b.d.nx
    · rw [k1 a e hx hy, h.Axx a e hx hy]
    · obtain ⟨e, rfl⟩ := Nat.exists_eq_add_of_le (Nat.le_of_not_lt hy)
      rw [k2 a e hx (by omega), h.Axu a e hx (by omega)]
  · obtain ⟨a, rfl⟩ := Nat.exists_eq_add_of_le (Nat.le_of_not_lt hx)
    by_cases hy : e < b.d.nx
    · rw [k3 a e (by omega) hy, h.Aux a e (by omega) hy]
    · obtain ⟨e, rfl⟩ := Nat.exists_eq_add_of_le (Nat.le_of_not_lt hy)
      rw [k4 a e (by omega) (by omega), h.Auu a e (by omega) (by omega)]

theorem Repr.ssB_eq (h : b.Repr c) (h' : b'.Repr c) (hd : b'.d = b.d) {a e : Nat} (ha : a < b.d.nu + b.d.nx)
    (he : e < b.d.nu) : b'.ssB.get a e = b.ssB.get a e := by
  have k1 := h'.Bx; have k2 := h'.Bu
  simp only [hd] at k1 k2
  by_cases hx : a < b.d.nx
  · rw [k1 a e hx he, h.Bx a e hx he]
  · obtain ⟨a, rfl⟩ := Nat.exists_eq_add_of_le (Nat.le_of_not_lt hx)
    rw [k2 a e (by omega) he, h.Bu a e (by omega) he]

theorem Repr.ssC_eq (h : b.Repr c) (h' : b'.Repr c) (hd : b'.d = b.d) {a e : Nat} (ha : a < b.d.nu + b.d.ny)
    (he : e < b.d.nu + b.d.nx) : b'.ssC.get a e = b.ssC.get a e := by
  have k1 := h'.Cyx; have k2 := h'.Cyu; have k3 := h'.Cux; have k4 := h'.Cuu
  simp only [hd] at k1 k2 k3 k4
  by_cases hx : a < b.d.ny
  · by_cases hy : e < b.d.nx
    · rw [k1 a e hx hy, h.Cyx a e hx hy]
    · obtain ⟨e, rfl⟩ := Nat.exists_eq_add_of_le (Nat.le_of_not_lt hy)
      rw [k2 a e hx (by omega), h.Cyu a e hx (by omega)]
  · obtain ⟨a, rfl⟩ := Nat.exists_eq_add_of_le (Nat.le_of_not_lt hx)
    by_cases hy : e < b.d.nx
    · rw [k3 a e (by omega) hy, h.Cux a e (by omega) hy]
    · obtain ⟨e, rfl⟩ := Nat.exists_eq_add_of_le (Nat.le_of_not_lt hy)
      rw [k4 a e (by omega) (by omega), h.Cuu a e (by omega) (by omega)]

theorem Repr.wDiag_eq (h : b.Repr c) (h' : b'.Repr c) (hd : b'.d = b.d) {i e : Nat} (hi : i ≤ b.d.ph)
    (he : e < b.d.nu + b.d.ny) : b'.wDiag i e = b.wDiag i e := by
  have k1 := h'.wY; have k2 := h'.wU
  unfold wDiag
  simp only [hd] at k1 k2 ⊢
  split_ifs with hx
  · rw [k1 e i hx hi, h.wY e i hx hi]
  · rw [k2 (e - b.d.ny) i (by omega) hi, h.wU (e - b.d.ny) i (by omega) hi]

end Builder

namespace Solved
variable {d : Dims} {c : Spec.LinConfig K} {x0 u0 : Vec K} {st st' : Int} {obj obj' : K}
  {sol sol' : Option ((Nat → K) × (Nat → K))} {m1 m1' m2 m2' : LMpc K} {r r' : LResult K} {call call' : OsqpCall K}

theorem distX_same (h : Solved d c x0 u0 st obj sol m1 m1' r call) (h' : Solved d c x0 u0 st' obj' sol' m2 m2' r' call')
    {k a : Nat} (hk : k < d.ph) (ha : a < d.nu + d.nx) :
    m2.b.distX m2.o.extInputMeas a k = m1.b.distX m1.o.extInputMeas a k := by
  by_cases hx : a < d.nx
  · rw [h.distX_state hk hx, h'.distX_state hk hx]
  · obtain ⟨a, rfl⟩ := Nat.exists_eq_add_of_le (Nat.le_of_not_lt hx)
    rw [h.distX_input (by omega), h'.distX_input (by omega)]

theorem distY_same (h : Solved d c x0 u0 st obj sol m1 m1' r call) (h' : Solved d c x0 u0 st' obj' sol' m2 m2' r' call')
    {k a : Nat} (hk : k < d.ph) (ha : a < d.nu + d.ny) :
    m2.b.distY m2.o.extInputMeas a k = m1.b.distY m1.o.extInputMeas a k := by
  by_cases hx : a < d.ny
  · rw [h.distY_eq hk hx, h'.distY_eq hk hx]
  · obtain ⟨a, rfl⟩ := Nat.exists_eq_add_of_le (Nat.le_of_not_lt hx)
    rw [h.distY_input (by omega), h'.distY_input (by omega)]

theorem extRef_same (h : Solved d c x0 u0 st obj sol m1 m1' r call) (h' : Solved d c x0 u0 st' obj' sol' m2 m2' r' call')
    {k a : Nat} (hk : k < d.ph) (ha : a < d.nu + d.ny) :
    Builder.extRef d m2.o.outSysRef m2.o.cmdSysRef a k = Builder.extRef d m1.o.outSysRef m1.o.cmdSysRef a k := by
  unfold Builder.extRef
  split_ifs with hx
  · rw [h'.inv.opt.yRef a k hx hk, h.inv.opt.yRef a k hx hk]
  · rw [h'.inv.opt.uRef _ k (by omega) hk, h.inv.opt.uRef _ k (by omega) hk]

/-- The rows have the same coefficients. -/
theorem rowValue_same (h : Solved d c x0 u0 st obj sol m1 m1' r call)
    (h' : Solved d c x0 u0 st' obj' sol' m2 m2' r' call') {ρ : Nat} (hρ : ρ < d.nC) (z : Nat → K) :
    Spec.rowValue call' z ρ = Spec.rowValue call z ρ := by
  have d1 := h.inv.builder.dims
  have d2 := h'.inv.builder.dims
  have hd : m2.b.d = m1.b.d := d2.trans d1.symm
  have eA := fun {a e} => Builder.Repr.ssA_eq h.inv.builder.repr h'.inv.builder.repr hd (a := a) (e := e)
  have eB := fun {a e} => Builder.Repr.ssB_eq h.inv.builder.repr h'.inv.builder.repr hd (a := a) (e := e)
  have eC := fun {a e} => Builder.Repr.ssC_eq h.inv.builder.repr h'.inv.builder.repr hd (a := a) (e := e)
  simp only [d1] at eA eB eC
  have hS : d.nS = (d.ph + 1) * (d.nu + d.nx) := rfl
  rcases rows_cases (d := d) (ρ := ρ) (by rw [rowCount_eq]; exact hρ) with h1 | ⟨i, a, hi, ha, rfl⟩ |
    ⟨i, a, hi, ha, rfl⟩ | ⟨i, a, hi, ha, rfl⟩ | ⟨i, a, hi, ha, rfl⟩ | ⟨i, hi, rfl⟩
  · rw [boundRow_eq] at h1
    obtain ⟨i, a, hi, ha, rfl⟩ := exists_block (s := d.nu + d.nx) (n := d.ph + 1) h1
    rcases i with _ | i
    · rw [Nat.zero_mul, Nat.zero_add, h.row_start ha, h'.row_start ha]
    · rw [h.row_dynamics (by omega) ha, h'.row_dynamics (by omega) ha]
      congr 1
      · congr 1
        exact Finset.sum_congr rfl fun e he => by rw [eA ha (mem_range.1 he)]
      · exact Finset.sum_congr rfl fun e he => by rw [eB ha (mem_range.1 he)]
  · have he : Spec.boundRow d + i * (d.nx + d.nu) + a = d.nS + (i * (d.nu + d.nx) + a) := by
      rw [boundRow_eq, Nat.add_comm d.nx d.nu]; omega
    have hk : i * (d.nu + d.nx) + a < d.nS := block_lt (by omega) (by omega)
    rw [he, h.row_bound hk, h'.row_bound hk]
  · have he : Spec.boundRow d + i * (d.nx + d.nu) + d.nx + a = d.nS + (i * (d.nu + d.nx) + (d.nx + a)) := by
      rw [boundRow_eq, Nat.add_comm d.nx d.nu]; omega
    have hk : i * (d.nu + d.nx) + (d.nx + a) < d.nS := block_lt (by omega) (by omega)
    rw [he, h.row_bound hk, h'.row_bound hk]
  · have he : Spec.outputRow d + i * d.ny + a = d.nS + (d.nS + (i * d.ny + a)) := by
      rw [outputRow_eq]; omega
    rw [he, h.row_output hi ha, h'.row_output hi ha]
    exact Finset.sum_congr rfl fun e he => by rw [eC (by omega) (mem_range.1 he)]
  · have he : Spec.incrementRow d + i * d.nu + a = d.nS + (d.nS + d.nY + (i * d.nu + a)) := by
      rw [incrementRow_eq]; omega
    have hk : i * d.nu + a < d.nD := block_lt ha hi
    rw [he, h.row_increment hk, h'.row_increment hk]
  · have he : Spec.scalarRow d + i = d.nS + (d.nS + d.nY + d.nD + i) := by
      rw [scalarRow_eq]; omega
    rw [he, h.row_scalar hi, h'.row_scalar hi]

theorem entryA_of_row {q : OsqpCall K} {ρ j : Nat} (hj : j < q.n) :
    Spec.cscEntry q.A ρ j = Spec.rowValue q (fun k => if j = k then 1 else 0) ρ := by
  unfold Spec.rowValue
  rw [Finset.sum_congr rfl (g := fun k => if j = k then Spec.cscEntry q.A ρ k else 0)]
  · rw [Finset.sum_ite_eq, if_pos (mem_range.2 hj)]
  · intro k _
    dsimp only
    by_cases hjk : j = k
    · rw [if_pos hjk, if_pos hjk, mul_one]
    · rw [if_neg hjk, if_neg hjk, mul_zero]

theorem P_same (h : Solved d c x0 u0 st obj sol m1 m1' r call)
    (h' : Solved d c x0 u0 st' obj' sol' m2 m2' r' call') {i j : Nat} (hi0 : i < d.nV) (hj0 : j < d.nV) :
    m2.b.P.get i j = m1.b.P.get i j := by
  have d1 := h.inv.builder.dims
  have d2 := h'.inv.builder.dims
  have hd : m2.b.d = m1.b.d := d2.trans d1.symm
  have eC := fun {a e} => Builder.Repr.ssC_eq h.inv.builder.repr h'.inv.builder.repr hd (a := a) (e := e)
  have eW := fun {i e} => Builder.Repr.wDiag_eq h.inv.builder.repr h'.inv.builder.repr hd (i := i) (e := e)
  have P1 := h.inv.builder.derived.P
  have P2 := h'.inv.builder.derived.P
  have w1 := h.inv.builder.repr.wDu
  have w2 := h'.inv.builder.repr.wDu
  obtain ⟨_, xx1, xd1, dx1, dd1⟩ := P1
  obtain ⟨_, xx2, xd2, dx2, dd2⟩ := P2
  simp only [d1] at eC eW xx1 xd1 dx1 dd1 w1
  simp only [d2] at xx2 xd2 dx2 dd2 w2
  rcases var_cases hi0 with ⟨i, a, hi, ha, rfl⟩ | ⟨i, a, hi, ha, rfl⟩ <;>
    rcases var_cases hj0 with ⟨j, e, hj, he, rfl⟩ | ⟨j, e, hj, he, rfl⟩
  · rw [xx1 i a j e hi hj ha he, xx2 i a j e hi hj ha he]
    refine if_congr Iff.rfl (sumTo_congr fun q hq => ?_) rfl
    rw [eC hq ha, eC hq he, eW hi hq]
  · rw [xd1 i a j e hi hj ha he, xd2 i a j e hi hj ha he]
  · rw [dx1 j e i a hj hi he ha, dx2 j e i a hj hi he ha]
  · rw [dd1 i a j e hi hj ha he, dd2 i a j e hi hj ha he, w1 a i ha hi, w2 a i ha hi]

theorem q_same (h : Solved d c x0 u0 st obj sol m1 m1' r call)
    (h' : Solved d c x0 u0 st' obj' sol' m2 m2' r' call') {i : Nat} (hi0 : i < d.nV) :
    call'.q.get i = call.q.get i := by
  have d1 := h.inv.builder.dims
  have d2 := h'.inv.builder.dims
  have hph := h.valid.ph_pos
  have hd : m2.b.d = m1.b.d := d2.trans d1.symm
  have eC := fun {a e} => Builder.Repr.ssC_eq h.inv.builder.repr h'.inv.builder.repr hd (a := a) (e := e)
  have eW := fun {i e} => Builder.Repr.wDiag_eq h.inv.builder.repr h'.inv.builder.repr hd (i := i) (e := e)
  have w1 := h.inv.builder.repr.wDu
  have w2 := h'.inv.builder.repr.wDu
  have g1 := h.get.qx
  have g2 := h'.get.qx
  have k1 := h.get.qd
  have k2 := h'.get.qd
  unfold Builder.qEntry at g1 g2
  simp only [d1] at eC eW g1 k1 w1
  simp only [d2] at g2 k2 w2
  rw [h.call.q, h'.call.q]
  rcases var_cases hi0 with ⟨i, a, hi, ha, rfl⟩ | ⟨i, a, hi, ha, rfl⟩
  · rw [g1 i a hi ha, g2 i a hi ha]
    refine sumTo_congr fun e he => ?_
    rw [eC he ha, eW hi he, extRef_same h h' (by omega) he, distY_same h h' (by omega) he]
  · rw [k1 i a hi ha, k2 i a hi ha, w1 a i ha hi, w2 a i ha hi, h.inv.opt.duRef a (i - 1) ha (by omega),
      h'.inv.opt.duRef a (i - 1) ha (by omega)]

theorem bounds_same (h : Solved d c x0 u0 st obj sol m1 m1' r call)
    (h' : Solved d c x0 u0 st' obj' sol' m2 m2' r' call') {ρ : Nat} (hρ : ρ < d.nC) :
    call'.l.get ρ = call.l.get ρ ∧ call'.u.get ρ = call.u.get ρ := by
  have d1 := h.inv.builder.dims
  have d2 := h'.inv.builder.dims
  have hph := h.valid.ph_pos
  have hS : d.nS = (d.ph + 1) * (d.nu + d.nx) := rfl
  have hI : d.nI = d.nS + (d.nY + d.nD + (d.ph + 1)) := rfl
  have g1 := h.get
  have g2 := h'.get
  have l1 := h.inv.builder.derived.lineq
  have l2 := h'.inv.builder.derived.lineq
  have u1 := h.inv.builder.derived.uineq
  have u2 := h'.inv.builder.derived.uineq
  rw [d1] at l1 u1
  rw [d2] at l2 u2
  have r1 := h.inv.builder.repr
  have r2 := h'.inv.builder.repr
  rw [h.call.l, h'.call.l, h.call.u, h'.call.u]
  have b1 := g1.lx; have b2 := g2.lx; have b3 := g1.ux; have b4 := g2.ux
  have t1 := g1.lt; have t2 := g2.lt; have t3 := g1.ut; have t4 := g2.ut
  simp only [d1] at b1 b3 t1 t3
  simp only [d2] at b2 b4 t2 t4
  rcases rows_cases (d := d) (ρ := ρ) (by rw [rowCount_eq]; exact hρ) with h1 | ⟨i, a, hi, ha, rfl⟩ |
    ⟨i, a, hi, ha, rfl⟩ | ⟨i, a, hi, ha, rfl⟩ | ⟨i, a, hi, ha, rfl⟩ | ⟨i, hi, rfl⟩
  · rw [boundRow_eq] at h1
    have e1 := g1.leqlu ρ (by rw [d1]; exact h1)
    have e2 := g2.leqlu ρ (by rw [d2]; exact h1)
    suffices hl : m2'.b.l.get ρ = m1'.b.l.get ρ from ⟨hl, by rw [← e1, ← e2, hl]⟩
    obtain ⟨i, a, hi, ha, rfl⟩ := exists_block (s := d.nu + d.nx) (n := d.ph + 1) h1
    rcases i with _ | i
    · rw [Nat.zero_mul, Nat.zero_add]
      by_cases hx : a < d.nx
      · rw [g1.l0x a (by rw [d1]; exact hx), g2.l0x a (by rw [d2]; exact hx)]
      · obtain ⟨a, rfl⟩ := Nat.exists_eq_add_of_le (Nat.le_of_not_lt hx)
        have q1 := g1.l0u a; have q2 := g2.l0u a
        simp only [d1] at q1
        simp only [d2] at q2
        rw [q1 (by omega), q2 (by omega)]
    · have q1 := g1.le i a; have q2 := g2.le i a
      simp only [d1] at q1
      simp only [d2] at q2
      rw [q1 (by omega) ha, q2 (by omega) ha, distX_same h h' (by omega) ha]
  · have he : Spec.boundRow d + i * (d.nx + d.nu) + a = d.nS + (i * (d.nu + d.nx) + a) := by
      rw [boundRow_eq, Nat.add_comm d.nx d.nu]; omega
    have hk : i * (d.nu + d.nx) + a < d.nS := block_lt (by omega) (by omega)
    rw [he, b1 _ hk, b2 _ hk, b3 _ hk, b4 _ hk, l1.x i a hi ha, l2.x i a hi ha, u1.x i a hi ha, u2.x i a hi ha,
      r1.xMin a i (by rw [d1]; exact ha) (by rw [d1]; exact hi), r2.xMin a i (by rw [d2]; exact ha) (by rw [d2]; exact hi),
      r1.xMax a i (by rw [d1]; exact ha) (by rw [d1]; exact hi), r2.xMax a i (by rw [d2]; exact ha) (by rw [d2]; exact hi)]
    exact ⟨rfl, rfl⟩
  · have he : Spec.boundRow d + i * (d.nx + d.nu) + d.nx + a = d.nS + (i * (d.nu + d.nx) + (d.nx + a)) := by
      rw [boundRow_eq, Nat.add_comm d.nx d.nu]; omega
    have hk : i * (d.nu + d.nx) + (d.nx + a) < d.nS := block_lt (by omega) (by omega)
    have hj : (if i = d.ph then i - 1 else i) < d.ph := by split_ifs <;> omega
    rw [he, b1 _ hk, b2 _ hk, b3 _ hk, b4 _ hk, l1.u i a hi ha, l2.u i a hi ha, u1.u i a hi ha, u2.u i a hi ha,
      r1.uMin a _ (by rw [d1]; exact ha) (by rw [d1]; exact hj), r2.uMin a _ (by rw [d2]; exact ha) (by rw [d2]; exact hj),
      r1.uMax a _ (by rw [d1]; exact ha) (by rw [d1]; exact hj), r2.uMax a _ (by rw [d2]; exact ha) (by rw [d2]; exact hj)]
    exact ⟨rfl, rfl⟩
  · have he : Spec.outputRow d + i * d.ny + a = d.nS + (d.nS + (i * d.ny + a)) := by
      rw [outputRow_eq]; omega
    have p1 := g1.ly i a; have p2 := g2.ly i a; have p3 := g1.uy i a; have p4 := g2.uy i a
    simp only [d1] at p1 p3
    simp only [d2] at p2 p4
    rw [he, p1 hi ha, p2 hi ha, p3 hi ha, p4 hi ha, distY_same h h' (by omega) (by omega),
      l1.y i a hi ha, l2.y i a hi ha, u1.y i a hi ha, u2.y i a hi ha,
      r1.yMin a i (by rw [d1]; exact ha) (by rw [d1]; exact hi), r2.yMin a i (by rw [d2]; exact ha) (by rw [d2]; exact hi),
      r1.yMax a i (by rw [d1]; exact ha) (by rw [d1]; exact hi), r2.yMax a i (by rw [d2]; exact ha) (by rw [d2]; exact hi)]
    exact ⟨rfl, rfl⟩
  · have hk : i * d.nu + a < d.nD := block_lt ha hi
    have he : Spec.incrementRow d + i * d.nu + a = d.nS + (d.nS + d.nY + (i * d.nu + a)) := by
      rw [incrementRow_eq]; omega
    rw [he, t1 _ (by omega) (by omega), t2 _ (by omega) (by omega), t3 _ (by omega) (by omega), t4 _ (by omega) (by omega),
      l1.du i a hi ha, l2.du i a hi ha, u1.du i a hi ha, u2.du i a hi ha]
    exact ⟨rfl, rfl⟩
  · have he : Spec.scalarRow d + i = d.nS + (d.nS + d.nY + d.nD + i) := by
      rw [scalarRow_eq]; omega
    rw [he, t1 _ (by omega) (by omega), t2 _ (by omega) (by omega), t3 _ (by omega) (by omega), t4 _ (by omega) (by omega),
      l1.sc i hi, l2.sc i hi, u1.sc i hi, u2.sc i hi,
      r1.sMin i (by rw [d1]; exact hi), r2.sMin i (by rw [d2]; exact hi),
      r1.sMax i (by rw [d1]; exact hi), r2.sMax i (by rw [d2]; exact hi)]
    exact ⟨rfl, rfl⟩

/-- Same configuration, measured state and last command: same problem. -/
theorem same_problem (h : Solved d c x0 u0 st obj sol m1 m1' r call)
    (h' : Solved d c x0 u0 st' obj' sol' m2 m2' r' call') : Spec.SameProblem call call' where
  n := by rw [h.call.n, h'.call.n]
  m := by rw [h.call.m, h'.call.m]
  P i j hi hj := by
    rw [h.call.n] at hi hj
    rw [h.entryP hi hj, h'.entryP hi hj, P_same h h' hi hj]
  q i hi := by rw [h.call.n] at hi; exact q_same h h' hi
  A i j hi hj := by
    rw [h.call.m] at hi
    rw [entryA_of_row hj, entryA_of_row (by rw [h'.call.n, ← h.call.n]; exact hj), rowValue_same h h' hi]
  l i hi := by rw [h.call.m] at hi; exact (bounds_same h h' hi).1
  u i hi := by rw [h.call.m] at hi; exact (bounds_same h h' hi).2

end Solved

/-- The same for configurations that agree inside the dimensions. -/
theorem Solved.agree {d : Dims} {c c' : Spec.LinConfig K} {x0 u0 : Vec K} {st : Int} {obj : K}
    {sol : Option ((Nat → K) × (Nat → K))} {m m' : LMpc K} {r : LResult K} {call : OsqpCall K}
    (h : Solved d c x0 u0 st obj sol m m' r call) (g : c.Agree d c') : Solved d c' x0 u0 st obj sol m m' r call :=
  ⟨h.valid, h.inv.agree h.valid.ph_pos g, h.inv'.agree h.valid.ph_pos g, h.get, h.call, h.res, h.opt⟩

end
end Mpc
