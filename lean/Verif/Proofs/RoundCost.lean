import Verif.Proofs.RoundRows

/-
The objective a controller computing with rounded numbers hands to OSQP, compared with the objective of a controller which holds
the same numbers and computes exactly.
-/
namespace Mpc
open Exec Finset
set_option linter.unusedSectionVars false

namespace Solved
variable {K : Type} [Field K] [DecidableEq K] [LinearOrder K] [IsStrictOrderedRing K] {R : Rounding K} {d : Dims}
  {c : Spec.LinConfig (Fl R)} {x0 u0 : Vec (Fl R)} {st st1 st2 : Int} {obj : Fl R} {obj1 obj2 : K}
  {sol : Option ((Nat → Fl R) × (Nat → Fl R))} {sol1 sol2 : Option ((Nat → K) × (Nat → K))} {m m' : LMpc (Fl R)}
  {r : LResult (Fl R)} {call : OsqpCall (Fl R)} {m1 m1' m2 m2' : LMpc K} {r1 r2 : LResult K} {call1 call2 : OsqpCall K}
  {x1 u1 x2 u2 : Vec K}

theorem P_approx (h : Solved d c x0 u0 st obj sol m m' r call) (h1 : Solved d c.exact x1 u1 st1 obj1 sol1 m1 m1' r1 call1)
    (h2 : Solved d c.exact.magnitudes x2 u2 st2 obj2 sol2 m2 m2' r2 call2) {i j : Nat} (hi0 : i < d.nV) (hj0 : j < d.nV) :
    Approx R (d.nu + d.ny + 2) (m2.b.P.get i j) (m.b.P.get i j).val (m1.b.P.get i j) := by
  have e0 := h.inv.builder.dims
  have e1 := h1.inv.builder.dims
  have e2 := h2.inv.builder.dims
  have f0 : |(0 : Fl R).val| = 0 := by rw [Fl.val_zero, abs_zero]
  have f1 : |(1 : Fl R).val| = 1 := by rw [Fl.val_one, abs_one]
  have C1 := fun {a e} => h.inv.builder.repr.ssC_map h1.inv.builder.repr (Twin.map Fl.val c) Fl.val_zero Fl.val_one
    (e1.trans e0.symm) (a := a) (e := e)
  have C2 := fun {a e} => h.inv.builder.repr.ssC_map h2.inv.builder.repr (Twin.magnitudes c) f0 f1
    (e2.trans e0.symm) (a := a) (e := e)
  have W1 := fun {a e} => h.inv.builder.repr.wDiag_map h1.inv.builder.repr (Twin.map Fl.val c)
    (e1.trans e0.symm) (i := a) (e := e)
  have W2 := fun {a e} => h.inv.builder.repr.wDiag_map h2.inv.builder.repr (Twin.magnitudes c)
    (e2.trans e0.symm) (i := a) (e := e)
  obtain ⟨-, xx0, xd0, dx0, dd0⟩ := h.inv.builder.derived.P
  obtain ⟨-, xx1, xd1, dx1, dd1⟩ := h1.inv.builder.derived.P
  obtain ⟨-, xx2, xd2, dx2, dd2⟩ := h2.inv.builder.derived.P
  have w0 := h.inv.builder.repr.wDu
  have w1 := h1.inv.builder.repr.wDu
  have w2 := h2.inv.builder.repr.wDu
  simp only [e0] at xx0 xd0 dx0 dd0 w0 C1 C2 W1 W2
  simp only [e1, sumTo_eq] at xx1 xd1 dx1 dd1 w1
  simp only [e2, sumTo_eq] at xx2 xd2 dx2 dd2 w2
  have z : Approx R (d.nu + d.ny + 2) 0 (0 : Fl R).val (0 : K) := by
    have := Approx.exact R (d.nu + d.ny + 2) (0 : K)
    rwa [abs_zero] at this
  rcases var_cases hi0 with ⟨i, a, hi, ha, rfl⟩ | ⟨i, a, hi, ha, rfl⟩ <;>
    rcases var_cases hj0 with ⟨j, e, hj, he, rfl⟩ | ⟨j, e, hj, he, rfl⟩
  · rw [xx0 i a j e hi hj ha he, xx1 i a j e hi hj ha he, xx2 i a j e hi hj ha he]
    split_ifs
    · refine (Approx.sum (k := 2) fun q hq => ?_).mono (by omega) (le_refl _)
      rw [C1 hq ha, C1 hq he, W1 hi hq, C2 hq ha, C2 hq he, W2 hi hq]
      exact (Approx.prod _ _).mul (Approx.exact R 0 _)
    · exact z
  · rw [xd0 i a j e hi hj ha he, xd1 i a j e hi hj ha he, xd2 i a j e hi hj ha he]
    exact z
  · rw [dx0 j e i a hj hi he ha, dx1 j e i a hj hi he ha, dx2 j e i a hj hi he ha]
    exact z
  · rw [dd0 i a j e hi hj ha he, dd1 i a j e hi hj ha he, dd2 i a j e hi hj ha he]
    split_ifs
    · rw [w0 a i ha hi, w1 a i ha hi, w2 a i ha hi]
      exact Approx.exact R _ _
    · exact z

theorem hessian_approx (h : Solved d c x0 u0 st obj sol m m' r call) (h1 : Solved d c.exact x1 u1 st1 obj1 sol1 m1 m1' r1 call1)
    (h2 : Solved d c.exact.magnitudes x2 u2 st2 obj2 sol2 m2 m2' r2 call2) {i j : Nat} (hi : i < d.nV) (hj : j < d.nV) :
    Approx R (d.nu + d.ny + 2) (Spec.hessian call2 i j) (Spec.hessian call.exact i j) (Spec.hessian call1 i j) := by
  unfold Spec.hessian
  rw [h.entryP_exact (by omega) (by omega), h1.entryP (by omega) (by omega), h2.entryP (by omega) (by omega), if_pos (by omega),
    if_pos (by omega), if_pos (by omega)]
  exact P_approx h h1 h2 (by omega) (by omega)

theorem q_approx (h : Solved d c x0 u0 st obj sol m m' r call) (h1 : Solved d c.exact x1 u1 st1 obj1 sol1 m1 m1' r1 call1)
    (h2 : Solved d c.exact.magnitudes x2 u2 st2 obj2 sol2 m2 m2' r2 call2) {i : Nat} (hi0 : i < d.nV) :
    Approx R (d.nu + d.ny + d.ndu + 4) (call2.q.get i) (call.exact.q.get i) (call1.q.get i) := by
  have hph := h.valid.ph_pos
  have e0 := h.inv.builder.dims
  have e1 := h1.inv.builder.dims
  have e2 := h2.inv.builder.dims
  have f0 : |(0 : Fl R).val| = 0 := by rw [Fl.val_zero, abs_zero]
  have f1 : |(1 : Fl R).val| = 1 := by rw [Fl.val_one, abs_one]
  have C1 := fun {a e} => h.inv.builder.repr.ssC_map h1.inv.builder.repr (Twin.map Fl.val c) Fl.val_zero Fl.val_one
    (e1.trans e0.symm) (a := a) (e := e)
  have C2 := fun {a e} => h.inv.builder.repr.ssC_map h2.inv.builder.repr (Twin.magnitudes c) f0 f1
    (e2.trans e0.symm) (a := a) (e := e)
  have W1 := fun {a e} => h.inv.builder.repr.wDiag_map h1.inv.builder.repr (Twin.map Fl.val c)
    (e1.trans e0.symm) (i := a) (e := e)
  have W2 := fun {a e} => h.inv.builder.repr.wDiag_map h2.inv.builder.repr (Twin.magnitudes c)
    (e2.trans e0.symm) (i := a) (e := e)
  have w0 := h.inv.builder.repr.wDu
  have w1 := h1.inv.builder.repr.wDu
  have w2 := h2.inv.builder.repr.wDu
  have g0 := h.get.qx
  have g1 := h1.get.qx
  have g2 := h2.get.qx
  have k0 := h.get.qd
  have k1 := h1.get.qd
  have k2 := h2.get.qd
  unfold Builder.qEntry at g0 g1 g2
  simp only [e0] at C1 C2 W1 W2 g0 k0 w0
  simp only [e1, sumTo_eq] at g1 k1 w1
  simp only [e2, sumTo_eq] at g2 k2 w2
  show Approx R _ _ (call.q.get i).val _
  rw [h.call.q, h1.call.q, h2.call.q]
  rcases var_cases hi0 with ⟨i, a, hi, ha, rfl⟩ | ⟨i, a, hi, ha, rfl⟩
  · rw [g0 i a hi ha, g1 i a hi ha, g2 i a hi ha]
    refine (Approx.sum (k := d.ndu + 4) fun e he => ?_).mono (by omega) (le_refl _)
    rw [C1 he ha, W1 hi he, C2 he ha, W2 hi he]
    have key : Approx R (d.ndu + 2) (-Builder.extRef d m2.o.outSysRef m2.o.cmdSysRef e (i - 1) + m2.b.distY m2.o.extInputMeas e (i - 1))
        (-Builder.extRef d m.o.outSysRef m.o.cmdSysRef e (i - 1) + m.b.distY m.o.extInputMeas e (i - 1)).val
        (-Builder.extRef d m1.o.outSysRef m1.o.cmdSysRef e (i - 1) + m1.b.distY m1.o.extInputMeas e (i - 1)) := by
      unfold Builder.extRef
      by_cases hy : e < d.ny
      · rw [if_pos hy, if_pos hy, if_pos hy, h.distY_val (by omega) hy, h1.distY_eq (by omega) hy, h2.distY_eq (by omega) hy,
          h.inv.opt.yRef e (i - 1) hy (by omega), h1.inv.opt.yRef e (i - 1) hy (by omega), h2.inv.opt.yRef e (i - 1) hy (by omega)]
        have := ((Approx.exact R (1 + d.ndu) (c.yRef (i - 1) e).val).neg).add (x := -c.yRef (i - 1) e)
          (Approx.dot d.ndu (c.Dd e) (c.dist (i - 1)))
        rw [← neg_neg |(c.yRef (i - 1) e).val|] at this
        exact this.mono (by omega) (le_refl _)
      · rw [if_neg hy, if_neg hy, if_neg hy]
        obtain ⟨e, rfl⟩ := Nat.exists_eq_add_of_le (Nat.le_of_not_lt hy)
        rw [Nat.add_sub_cancel_left, h.distY_val_input (by omega), h1.distY_input (by omega), h2.distY_input (by omega),
          h.inv.opt.uRef e (i - 1) (by omega) (by omega), h1.inv.opt.uRef e (i - 1) (by omega) (by omega),
          h2.inv.opt.uRef e (i - 1) (by omega) (by omega), ExactOps.add_zero (-c.uRef (i - 1) e), add_zero, add_zero]
        have := ((Approx.exact R (d.ndu + 2) (c.uRef (i - 1) e).val).neg)
        rw [← neg_neg |(c.uRef (i - 1) e).val|] at this
        exact this
    exact ((Approx.prod _ _).mul key).mono (by omega) (le_refl _)
  · rw [k0 i a hi ha, k1 i a hi ha, k2 i a hi ha, w0 a i ha hi, w1 a i ha hi, w2 a i ha hi,
      h.inv.opt.duRef a (i - 1) ha (by omega), h1.inv.opt.duRef a (i - 1) ha (by omega), h2.inv.opt.duRef a (i - 1) ha (by omega)]
    have := (Approx.prod (c.wDu i a) (c.duRef (i - 1) a)).neg
    rw [← neg_neg (|(c.wDu i a).val| * |(c.duRef (i - 1) a).val|), ← mul_neg] at this
    exact this.mono (by omega) (le_refl _)

theorem quad_err (h : Solved d c x0 u0 st obj sol m m' r call) (h1 : Solved d c.exact x1 u1 st1 obj1 sol1 m1 m1' r1 call1)
    (h2 : Solved d c.exact.magnitudes x2 u2 st2 obj2 sol2 m2 m2' r2 call2) (z : Nat → K) :
    |(∑ i ∈ range call.exact.n, ∑ j ∈ range call.exact.n, z i * Spec.hessian call.exact i j * z j) -
      ∑ i ∈ range call1.n, ∑ j ∈ range call1.n, z i * Spec.hessian call1 i j * z j| ≤
    R.gamma (d.nu + d.ny + 2) * ∑ i ∈ range call2.n, ∑ j ∈ range call2.n, |z i| * Spec.hessian call2 i j * |z j| := by
  rw [show call.exact.n = d.nV from h.call.n, h1.call.n, h2.call.n, ← Finset.sum_sub_distrib, Finset.mul_sum]
  refine (Finset.abs_sum_le_sum_abs _ _).trans (Finset.sum_le_sum fun i hi => ?_)
  rw [← Finset.sum_sub_distrib, Finset.mul_sum]
  refine (Finset.abs_sum_le_sum_abs _ _).trans (Finset.sum_le_sum fun j hj => ?_)
  have key := (hessian_approx h h1 h2 (mem_range.1 hi) (mem_range.1 hj)).err
  rw [show z i * Spec.hessian call.exact i j * z j - z i * Spec.hessian call1 i j * z j =
    z i * (Spec.hessian call.exact i j - Spec.hessian call1 i j) * z j by ring, abs_mul, abs_mul]
  calc |z i| * |Spec.hessian call.exact i j - Spec.hessian call1 i j| * |z j|
      ≤ |z i| * (R.gamma (d.nu + d.ny + 2) * Spec.hessian call2 i j) * |z j| :=
        mul_le_mul_of_nonneg_right (mul_le_mul_of_nonneg_left key (abs_nonneg _)) (abs_nonneg _)
    _ = _ := by ring

theorem lin_err (h : Solved d c x0 u0 st obj sol m m' r call) (h1 : Solved d c.exact x1 u1 st1 obj1 sol1 m1 m1' r1 call1)
    (h2 : Solved d c.exact.magnitudes x2 u2 st2 obj2 sol2 m2 m2' r2 call2) (z : Nat → K) :
    |(∑ i ∈ range call.exact.n, call.exact.q.get i * z i) - ∑ i ∈ range call1.n, call1.q.get i * z i| ≤
    R.gamma (d.nu + d.ny + d.ndu + 4) * ∑ i ∈ range call2.n, call2.q.get i * |z i| := by
  rw [show call.exact.n = d.nV from h.call.n, h1.call.n, h2.call.n, ← Finset.sum_sub_distrib, Finset.mul_sum]
  refine (Finset.abs_sum_le_sum_abs _ _).trans (Finset.sum_le_sum fun i hi => ?_)
  have key := (q_approx h h1 h2 (mem_range.1 hi)).err
  rw [← sub_mul, abs_mul, ← mul_assoc]
  exact mul_le_mul_of_nonneg_right key (abs_nonneg _)

/-- The objective, compared with the objective of exact arithmetic. -/
theorem objective_err (h : Solved d c x0 u0 st obj sol m m' r call) (h1 : Solved d c.exact x1 u1 st1 obj1 sol1 m1 m1' r1 call1)
    (h2 : Solved d c.exact.magnitudes x2 u2 st2 obj2 sol2 m2 m2' r2 call2) (z : Nat → K) :
    |Spec.qpObjective call.exact z - Spec.qpObjective call1 z| ≤
      R.gamma (d.nu + d.ny + d.ndu + 4) * Spec.qpObjective call2 (fun i => |z i|) := by
  have e1 := quad_err h h1 h2 z
  have e2 := lin_err h h1 h2 z
  unfold Spec.qpObjective
  have q0 : 0 ≤ ∑ i ∈ range call2.n, ∑ j ∈ range call2.n, |z i| * Spec.hessian call2 i j * |z j| := by
    refine Finset.sum_nonneg fun i hi => Finset.sum_nonneg fun j hj => ?_
    rw [h2.call.n] at hi hj
    exact mul_nonneg (mul_nonneg (abs_nonneg _) (hessian_approx h h1 h2 (mem_range.1 hi) (mem_range.1 hj)).nonneg) (abs_nonneg _)
  have e3 := mul_le_mul_of_nonneg_right (R.gamma_mono (show d.nu + d.ny + 2 ≤ d.nu + d.ny + d.ndu + 4 by omega)) q0
  generalize (∑ i ∈ range call.exact.n, ∑ j ∈ range call.exact.n, z i * Spec.hessian call.exact i j * z j) = a0 at *
  generalize (∑ i ∈ range call1.n, ∑ j ∈ range call1.n, z i * Spec.hessian call1 i j * z j) = a1 at *
  generalize (∑ i ∈ range call2.n, ∑ j ∈ range call2.n, |z i| * Spec.hessian call2 i j * |z j|) = a2 at *
  generalize (∑ i ∈ range call.exact.n, call.exact.q.get i * z i) = b0 at *
  generalize (∑ i ∈ range call1.n, call1.q.get i * z i) = b1 at *
  generalize (∑ i ∈ range call2.n, call2.q.get i * |z i|) = b2 at *
  rw [abs_le] at e1 e2 ⊢
  constructor <;> linarith [e1.1, e1.2, e2.1, e2.2]

theorem constTerm_nonneg {c : Spec.LinConfig K} : 0 ≤ constTerm d c.magnitudes := by
  unfold constTerm
  refine div_nonneg (add_nonneg (Finset.sum_nonneg fun i _ => add_nonneg (Finset.sum_nonneg fun a _ => ?_)
    (Finset.sum_nonneg fun a _ => ?_)) (Finset.sum_nonneg fun i _ => Finset.sum_nonneg fun a _ => ?_)) zero_le_two
  · exact mul_nonneg (abs_nonneg _) (sq_nonneg _)
  · exact mul_nonneg (abs_nonneg _) (sq_nonneg _)
  · exact mul_nonneg (abs_nonneg _) (sq_nonneg _)

theorem curvature_eq {c : Spec.LinConfig K} (h2 : Solved d c.magnitudes x2 u2 st2 obj2 sol2 m2 m2' r2 call2)
    (hms : c.modelSet = true) (z : Nat → K) :
    (∑ i ∈ range call2.n, ∑ j ∈ range call2.n, |z i| * Spec.hessian call2 i j * |z j|) = Spec.curvatureScale d c z := by
  have hdim := h2.inv.builder.dims
  have r1 := h2.inv.builder.repr.wDu
  simp only [hdim] at r1
  rw [h2.quad_eq (fun i => |z i|)]
  unfold Spec.curvatureScale
  congr 1
  · refine Finset.sum_congr rfl fun i hi => ?_
    rw [h2.sum_outputs (by have := mem_range.1 hi; omega) (fun _ w => w)]
    congr 1
    · refine Finset.sum_congr rfl fun a ha => ?_
      exact congrArg (fun t => |c.wY (i - 1) a| * t ^ 2) (h2.output_value (i := i) (mem_range.1 ha) (fun i => |z i|))
    · refine Finset.sum_congr rfl fun a ha => ?_
      exact congrArg (fun t => |c.wU (i - 1) a| * t ^ 2) (h2.input_value hms (i := i) (mem_range.1 ha) (fun i => |z i|))
  · refine Finset.sum_congr rfl fun i hi => Finset.sum_congr rfl fun a ha => ?_
    rw [r1 a i (mem_range.1 ha) (mem_range.1 hi), incrementAt_eq]
    rfl

/-- No rounding happens in the Hessian when every output coefficient is 0, 1 or -1 and no state is read by two outputs. -/
theorem P_exact (h : Solved d c x0 u0 st obj sol m m' r call) (h1 : Solved d c.exact x1 u1 st1 obj1 sol1 m1 m1' r1 call1)
    (hC : ∀ a e, a < d.ny → e < d.nx → c.exact.C a e = 0 ∨ c.exact.C a e = 1 ∨ c.exact.C a e = -1)
    (hone : ∀ a a' e, a < d.ny → a' < d.ny → e < d.nx → c.exact.C a e ≠ 0 → c.exact.C a' e ≠ 0 → a = a') {i j : Nat}
    (hi0 : i < d.nV) (hj0 : j < d.nV) : (m.b.P.get i j).val = m1.b.P.get i j := by
  have e0 := h.inv.builder.dims
  have e1 := h1.inv.builder.dims
  have C1 := fun {a e} => h.inv.builder.repr.ssC_map h1.inv.builder.repr (Twin.map Fl.val c) Fl.val_zero Fl.val_one
    (e1.trans e0.symm) (a := a) (e := e)
  have W1 := fun {a e} => h.inv.builder.repr.wDiag_map h1.inv.builder.repr (Twin.map Fl.val c)
    (e1.trans e0.symm) (i := a) (e := e)
  obtain ⟨-, xx0, xd0, dx0, dd0⟩ := h.inv.builder.derived.P
  obtain ⟨-, xx1, xd1, dx1, dd1⟩ := h1.inv.builder.derived.P
  have w0 := h.inv.builder.repr.wDu
  have w1 := h1.inv.builder.repr.wDu
  have Cyx := h.inv.builder.repr.Cyx
  have Cyu := h.inv.builder.repr.Cyu
  have Cux := h.inv.builder.repr.Cux
  have Cuu := h.inv.builder.repr.Cuu
  simp only [e0] at xx0 xd0 dx0 dd0 w0 C1 W1 Cyx Cyu Cux Cuu
  simp only [e1] at xx1 xd1 dx1 dd1 w1
  -- the extended output matrix has the same property
  have cases0 : ∀ q a, q < d.nu + d.ny → a < d.nu + d.nx →
      m.b.ssC.get q a = 0 ∨ m.b.ssC.get q a = 1 ∨ m.b.ssC.get q a = -1 := by
    intro q a hq ha
    by_cases hy : q < d.ny
    · by_cases hx : a < d.nx
      · rw [Cyx q a hy hx]
        rcases hC q a hy hx with hh | hh | hh
        · exact .inl (Fl.ext hh)
        · exact .inr (.inl (Fl.ext hh))
        · exact .inr (.inr (Fl.ext hh))
      · obtain ⟨a, rfl⟩ := Nat.exists_eq_add_of_le (Nat.le_of_not_lt hx)
        exact .inl (Cyu q a hy (by omega))
    · obtain ⟨q, rfl⟩ := Nat.exists_eq_add_of_le (Nat.le_of_not_lt hy)
      by_cases hx : a < d.nx
      · exact .inl (Cux q a (by omega) hx)
      · obtain ⟨a, rfl⟩ := Nat.exists_eq_add_of_le (Nat.le_of_not_lt hx)
        rw [Cuu q a (by omega) (by omega)]
        split_ifs
        · exact .inr (.inl rfl)
        · exact .inl rfl
  have one0 : ∀ q q' a, q < d.nu + d.ny → q' < d.nu + d.ny → a < d.nu + d.nx → m.b.ssC.get q a ≠ 0 → m.b.ssC.get q' a ≠ 0 → q = q' := by
    intro q q' a hq hq' ha h1 h2
    by_cases hx : a < d.nx
    · have g : ∀ p, p < d.nu + d.ny → m.b.ssC.get p a ≠ 0 → p < d.ny ∧ c.exact.C p a ≠ 0 := by
        intro p hp hne
        by_cases hy : p < d.ny
        · rw [Cyx p a hy hx] at hne
          exact ⟨hy, fun h0 => hne (Fl.ext h0)⟩
        · obtain ⟨p, rfl⟩ := Nat.exists_eq_add_of_le (Nat.le_of_not_lt hy)
          exact absurd (Cux p a (by omega) hx) hne
      exact hone q q' a (g q hq h1).1 (g q' hq' h2).1 hx (g q hq h1).2 (g q' hq' h2).2
    · obtain ⟨a, rfl⟩ := Nat.exists_eq_add_of_le (Nat.le_of_not_lt hx)
      have g : ∀ p, p < d.nu + d.ny → m.b.ssC.get p (d.nx + a) ≠ 0 → p = d.ny + a := by
        intro p hp hne
        by_cases hy : p < d.ny
        · exact absurd (Cyu p a hy (by omega)) hne
        · obtain ⟨p, rfl⟩ := Nat.exists_eq_add_of_le (Nat.le_of_not_lt hy)
          rw [Cuu p a (by omega) (by omega)] at hne
          by_cases hp : p = a
          · rw [hp]
          · exact absurd (if_neg fun t => hp t.2) hne
      rw [g q hq h1, g q' hq' h2]
  have unit : ∀ x y : Fl R, (x = 0 ∨ x = 1 ∨ x = -1) → (x * y).val = x.val * y.val := by
    rintro x y (rfl | rfl | rfl)
    · rw [ExactOps.zero_mul, Fl.val_zero, zero_mul]
    · rw [ExactOps.one_mul, Fl.val_one, one_mul]
    · rw [ExactOps.neg_mul, ExactOps.one_mul, Fl.val_neg, Fl.val_neg, Fl.val_one, neg_one_mul]
  have unit' : ∀ x y : Fl R, (y = 0 ∨ y = 1 ∨ y = -1) → (x * y).val = x.val * y.val := by
    rintro x y (rfl | rfl | rfl)
    · rw [ExactOps.mul_zero, Fl.val_zero, mul_zero]
    · rw [Fl.val_mul, Fl.val_one, mul_one, Fl.rnd_val]
    · rw [Fl.val_mul, Fl.val_neg, Fl.val_one, mul_neg, mul_one, R.odd, Fl.rnd_val]
  rcases var_cases hi0 with ⟨i, a, hi, ha, rfl⟩ | ⟨i, a, hi, ha, rfl⟩ <;>
    rcases var_cases hj0 with ⟨j, e, hj, he, rfl⟩ | ⟨j, e, hj, he, rfl⟩
  · rw [xx0 i a j e hi hj ha he, xx1 i a j e hi hj ha he]
    split_ifs
    · have prodq : ∀ q, q < d.nu + d.ny → (m.b.ssC.get q a * m.b.wDiag i q * m.b.ssC.get q e).val =
          m1.b.ssC.get q a * m1.b.wDiag i q * m1.b.ssC.get q e := by
        intro q hq
        rw [unit' _ _ (cases0 q e hq he), unit _ _ (cases0 q a hq ha), C1 hq ha, C1 hq he, W1 hi hq]
      by_cases hex : ∃ q, q < d.nu + d.ny ∧ m.b.ssC.get q a ≠ 0
      · obtain ⟨q, hq, hne⟩ := hex
        have zq : ∀ p, p < d.nu + d.ny → p ≠ q → m.b.ssC.get p a = 0 := fun p hp hpq => by
          by_contra hh; exact hpq (one0 p q a hp hq ha hh hne)
        rw [sumTo_single hq fun p hp hpq => by rw [zq p hp hpq, ExactOps.zero_mul, ExactOps.zero_mul], prodq q hq,
          sumTo_single hq fun p hp hpq => by rw [C1 hp ha, zq p hp hpq, Fl.val_zero, zero_mul, zero_mul]]
      · have zq : ∀ p, p < d.nu + d.ny → m.b.ssC.get p a = 0 := fun p hp => by
          by_contra hh; exact hex ⟨p, hp, hh⟩
        rw [sumTo_zero fun p hp => by rw [zq p hp, ExactOps.zero_mul, ExactOps.zero_mul],
          sumTo_zero fun p hp => by rw [C1 hp ha, zq p hp, Fl.val_zero, zero_mul, zero_mul]]
        rfl
    · rfl
  · rw [xd0 i a j e hi hj ha he, xd1 i a j e hi hj ha he]; rfl
  · rw [dx0 j e i a hj hi he ha, dx1 j e i a hj hi he ha]; rfl
  · rw [dd0 i a j e hi hj ha he, dd1 i a j e hi hj ha he]
    split_ifs
    · rw [w0 a i ha hi, w1 a i ha hi]; rfl
    · rfl

theorem hessian_exact (h : Solved d c x0 u0 st obj sol m m' r call) (h1 : Solved d c.exact x1 u1 st1 obj1 sol1 m1 m1' r1 call1)
    (hC : ∀ a e, a < d.ny → e < d.nx → c.exact.C a e = 0 ∨ c.exact.C a e = 1 ∨ c.exact.C a e = -1)
    (hone : ∀ a a' e, a < d.ny → a' < d.ny → e < d.nx → c.exact.C a e ≠ 0 → c.exact.C a' e ≠ 0 → a = a') {i j : Nat}
    (hi : i < d.nV) (hj : j < d.nV) : Spec.hessian call.exact i j = Spec.hessian call1 i j := by
  unfold Spec.hessian
  rw [h.entryP_exact (by omega) (by omega), h1.entryP (by omega) (by omega), if_pos (by omega), if_pos (by omega),
    h.P_exact h1 hC hone (by omega) (by omega)]

/-- With zero references and no disturbances there is no linear cost. -/
theorem q_zero (h : Solved d c x0 u0 st obj sol m m' r call) (hy : ∀ k a, k < d.ph → a < d.ny → c.yRef k a = 0)
    (hu : ∀ k a, k < d.ph → a < d.nu → c.uRef k a = 0) (hdu : ∀ k a, k < d.ph → a < d.nu → c.duRef k a = 0)
    (hd : ∀ k e, k < d.ph → e < d.ndu → c.dist k e = 0) {i : Nat} (hi0 : i < d.nV) : call.q.get i = 0 := by
  have hph := h.valid.ph_pos
  have e0 := h.inv.builder.dims
  have g0 := h.get.qx
  have k0 := h.get.qd
  unfold Builder.qEntry at g0
  simp only [e0] at g0 k0
  rw [h.call.q]
  rcases var_cases hi0 with ⟨i, a, hi, ha, rfl⟩ | ⟨i, a, hi, ha, rfl⟩
  · rw [g0 i a hi ha]
    refine sumTo_zero fun e he => ?_
    have : -Builder.extRef d m.o.outSysRef m.o.cmdSysRef e (i - 1) + m.b.distY m.o.extInputMeas e (i - 1) = 0 := by
      unfold Builder.extRef
      by_cases hh : e < d.ny
      · rw [if_pos hh, h.inv.opt.yRef e (i - 1) hh (by omega), hy _ _ (by omega) hh, h.distY_val (by omega) hh,
          sumTo_zero fun e he => by rw [hd _ _ (by omega) he, ExactOps.mul_zero], ExactOps.neg_zero, ExactOps.add_zero]
      · rw [if_neg hh]
        obtain ⟨e, rfl⟩ := Nat.exists_eq_add_of_le (Nat.le_of_not_lt hh)
        rw [Nat.add_sub_cancel_left, h.inv.opt.uRef e (i - 1) (by omega) (by omega), hu _ _ (by omega) (by omega),
          h.distY_val_input (by omega), ExactOps.neg_zero, ExactOps.add_zero]
    rw [this, ExactOps.mul_zero]
  · rw [k0 i a hi ha, h.inv.opt.duRef a (i - 1) ha (by omega), hdu _ _ (by omega) ha, ExactOps.mul_zero, ExactOps.neg_zero]

end Solved
end Mpc
