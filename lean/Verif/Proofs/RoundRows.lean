import Verif.Proofs.LinExists
import Verif.Proofs.Rounding
import Verif.Proofs.QpNear

/-
The problem a controller computing with rounded numbers hands to OSQP, compared with the problem of a controller which holds the
same numbers and computes exactly.
-/
namespace Mpc
open Exec Finset
set_option linter.unusedSectionVars false

/-- `c'` is `c` with its coefficients, weights and disturbances read through `f` -/
structure Twin {L K : Type} (f : L → K) (c : Spec.LinConfig L) (c' : Spec.LinConfig K) : Prop where
  modelSet : c'.modelSet = c.modelSet
  A : ∀ a e, c'.A a e = f (c.A a e)
  B : ∀ a e, c'.B a e = f (c.B a e)
  C : ∀ a e, c'.C a e = f (c.C a e)
  Bd : ∀ a e, c'.Bd a e = f (c.Bd a e)
  Dd : ∀ a e, c'.Dd a e = f (c.Dd a e)
  wY : ∀ k a, c'.wY k a = f (c.wY k a)
  wU : ∀ k a, c'.wU k a = f (c.wU k a)
  wDu : ∀ k a, c'.wDu k a = f (c.wDu k a)
  sX : ∀ a, c'.sX a = f (c.sX a)
  sU : ∀ a, c'.sU a = f (c.sU a)
  dist : ∀ k a, c'.dist k a = f (c.dist k a)

theorem Twin.map {L K : Type} (f : L → K) (c : Spec.LinConfig L) : Twin f c (c.map f) where
  modelSet := rfl
  A _ _ := rfl
  B _ _ := rfl
  C _ _ := rfl
  Bd _ _ := rfl
  Dd _ _ := rfl
  wY _ _ := rfl
  wU _ _ := rfl
  wDu _ _ := rfl
  sX _ := rfl
  sU _ := rfl
  dist _ _ := rfl

theorem Twin.magnitudes {K : Type} [Field K] [LinearOrder K] [IsStrictOrderedRing K] {R : Rounding K}
    (c : Spec.LinConfig (Fl R)) : Twin (fun x : Fl R => |x.val|) c c.exact.magnitudes where
  modelSet := rfl
  A _ _ := rfl
  B _ _ := rfl
  C _ _ := rfl
  Bd _ _ := rfl
  Dd _ _ := rfl
  wY _ _ := rfl
  wU _ _ := rfl
  wDu _ _ := rfl
  sX _ := rfl
  sU _ := rfl
  dist _ _ := rfl

namespace Builder
variable {L K : Type} [Zero L] [One L] [Add L] [Mul L] [Neg L] [Div L] [NatCast L] [ExactOps L] [DecidableEq L]
  [Zero K] [One K] [Add K] [Mul K] [Neg K] [Div K] [NatCast K] [ExactOps K] [DecidableEq K]
  {f : L → K} {b : Builder L} {b' : Builder K} {c : Spec.LinConfig L} {c' : Spec.LinConfig K}

theorem Repr.ssA_map (h : b.Repr c) (h' : b'.Repr c') (t : Twin f c c') (f0 : f 0 = 0) (f1 : f 1 = 1) (hd : b'.d = b.d)
    {a e : Nat} (ha : a < b.d.nu + b.d.nx) (he : e < b.d.nu + b.d.nx) : b'.ssA.get a e = f (b.ssA.get a e) := by
  have k1 := h'.Axx; have k2 := h'.Axu; have k3 := h'.Aux; have k4 := h'.Auu
  simp only [hd] at k1 k2 k3 k4
  by_cases hx : a < b.d.nx
  · by_cases hy : e < b.d.nx
    · rw [k1 a e hx hy, h.Axx a e hx hy, t.A]
    · obtain ⟨e, rfl⟩ := Nat.exists_eq_add_of_le (Nat.le_of_not_lt hy)
      rw [k2 a e hx (by omega), h.Axu a e hx (by omega), t.B]
  · obtain ⟨a, rfl⟩ := Nat.exists_eq_add_of_le (Nat.le_of_not_lt hx)
    by_cases hy : e < b.d.nx
    · rw [k3 a e (by omega) hy, h.Aux a e (by omega) hy, f0]
    · obtain ⟨e, rfl⟩ := Nat.exists_eq_add_of_le (Nat.le_of_not_lt hy)
      rw [k4 a e (by omega) (by omega), h.Auu a e (by omega) (by omega), t.modelSet]
      split_ifs
      · exact f1.symm
      · exact f0.symm

theorem Repr.ssB_map (h : b.Repr c) (h' : b'.Repr c') (t : Twin f c c') (f0 : f 0 = 0) (f1 : f 1 = 1) (hd : b'.d = b.d)
    {a e : Nat} (ha : a < b.d.nu + b.d.nx) (he : e < b.d.nu) : b'.ssB.get a e = f (b.ssB.get a e) := by
  have k1 := h'.Bx; have k2 := h'.Bu
  simp only [hd] at k1 k2
  by_cases hx : a < b.d.nx
  · rw [k1 a e hx he, h.Bx a e hx he, t.B]
  · obtain ⟨a, rfl⟩ := Nat.exists_eq_add_of_le (Nat.le_of_not_lt hx)
    rw [k2 a e (by omega) he, h.Bu a e (by omega) he, t.modelSet]
    split_ifs
    · exact f1.symm
    · exact f0.symm

theorem Repr.ssC_map (h : b.Repr c) (h' : b'.Repr c') (t : Twin f c c') (f0 : f 0 = 0) (f1 : f 1 = 1) (hd : b'.d = b.d)
    {a e : Nat} (ha : a < b.d.nu + b.d.ny) (he : e < b.d.nu + b.d.nx) : b'.ssC.get a e = f (b.ssC.get a e) := by
  have k1 := h'.Cyx; have k2 := h'.Cyu; have k3 := h'.Cux; have k4 := h'.Cuu
  simp only [hd] at k1 k2 k3 k4
  by_cases hx : a < b.d.ny
  · by_cases hy : e < b.d.nx
    · rw [k1 a e hx hy, h.Cyx a e hx hy, t.C]
    · obtain ⟨e, rfl⟩ := Nat.exists_eq_add_of_le (Nat.le_of_not_lt hy)
      rw [k2 a e hx (by omega), h.Cyu a e hx (by omega), f0]
  · obtain ⟨a, rfl⟩ := Nat.exists_eq_add_of_le (Nat.le_of_not_lt hx)
    by_cases hy : e < b.d.nx
    · rw [k3 a e (by omega) hy, h.Cux a e (by omega) hy, f0]
    · obtain ⟨e, rfl⟩ := Nat.exists_eq_add_of_le (Nat.le_of_not_lt hy)
      rw [k4 a e (by omega) (by omega), h.Cuu a e (by omega) (by omega), t.modelSet]
      split_ifs
      · exact f1.symm
      · exact f0.symm

theorem Repr.wDiag_map (h : b.Repr c) (h' : b'.Repr c') (t : Twin f c c') (hd : b'.d = b.d) {i e : Nat} (hi : i ≤ b.d.ph)
    (he : e < b.d.nu + b.d.ny) : b'.wDiag i e = f (b.wDiag i e) := by
  have k1 := h'.wY; have k2 := h'.wU
  unfold wDiag
  simp only [hd] at k1 k2 ⊢
  split_ifs with hx
  · rw [k1 e i hx hi, h.wY e i hx hi, t.wY]
  · rw [k2 (e - b.d.ny) i (by omega) hi, h.wU (e - b.d.ny) i (by omega) hi, t.wU]

end Builder

namespace Solved
variable {K : Type} [Field K] [DecidableEq K] [LinearOrder K] [IsStrictOrderedRing K] {R : Rounding K} {d : Dims}
  {c : Spec.LinConfig (Fl R)} {x0 u0 : Vec (Fl R)} {st st' : Int} {obj : Fl R} {obj' : K}
  {sol : Option ((Nat → Fl R) × (Nat → Fl R))} {sol' : Option ((Nat → K) × (Nat → K))} {m m' : LMpc (Fl R)} {r : LResult (Fl R)}
  {call : OsqpCall (Fl R)} {m1 m1' : LMpc K} {r' : LResult K} {call' : OsqpCall K} {c' : Spec.LinConfig K} {y0 v0 : Vec K}

/-! ### The constraint matrix is not affected by rounding -/

theorem entryA_exact (h : Solved d c x0 u0 st obj sol m m' r call) {i j : Nat} (hi : i < d.nC) (hj : j < d.nV) :
    Spec.cscEntry call.exact.A i j = (m.b.A.get i j).val := by
  have hd := h.inv'.builder.dims
  have hs := h.inv'.builder.shaped.A
  rw [← h.get.A]
  exact (h.call.A.map Fl.val).entry ((Sparse.ofDense_ordered _).map _) (by show j < m'.b.A.cols; rw [hs.2, hd]; exact hj)
    ((colHas_ofDense m'.b.A (by rw [hs.1, hd]; exact hi) j).map Fl.val_zero)

theorem entryP_exact (h : Solved d c x0 u0 st obj sol m m' r call) {i j : Nat} (hi : i < d.nV) (hj : j < d.nV) :
    Spec.cscEntry call.exact.P i j = if i ≤ j then (m.b.P.get i j).val else 0 := by
  have hd := h.inv'.builder.dims
  have hs := h.inv'.builder.shaped.P
  rw [← h.get.P]
  have := (h.call.P.map Fl.val).entry ((Sparse.upper_ordered (Sparse.ofDense_ordered _)).map _)
    (by show j < m'.b.P.cols; rw [hs.2, hd]; exact hj)
    ((colHas_upper (colHas_ofDense m'.b.P (by rw [hs.1, hd]; exact hi) j)).map Fl.val_zero)
  refine Eq.trans this ?_
  split_ifs
  · rfl
  · rfl

theorem A_exact (h : Solved d c x0 u0 st obj sol m m' r call) (h' : Solved d c' y0 v0 st' obj' sol' m1 m1' r' call')
    (t : Twin Fl.val c c') {ρ k : Nat} (hρ : ρ < d.nC) (hk : k < d.nV) : m1.b.A.get ρ k = (m.b.A.get ρ k).val := by
  have d1 := h.inv.builder.dims
  have d2 := h'.inv.builder.dims
  have hd : m1.b.d = m.b.d := d2.trans d1.symm
  have eA := fun {a e} => h.inv.builder.repr.ssA_map h'.inv.builder.repr t Fl.val_zero Fl.val_one hd (a := a) (e := e)
  have eB := fun {a e} => h.inv.builder.repr.ssB_map h'.inv.builder.repr t Fl.val_zero Fl.val_one hd (a := a) (e := e)
  have eC := fun {a e} => h.inv.builder.repr.ssC_map h'.inv.builder.repr t Fl.val_zero Fl.val_one hd (a := a) (e := e)
  obtain ⟨-, xx1, xd1⟩ := h.inv.builder.derived.Aeq
  obtain ⟨-, xx2, xd2⟩ := h'.inv.builder.derived.Aeq
  obtain ⟨-, sx1, yx1, yd1, dr1, cx1, cd1⟩ := h.inv.builder.derived.Aineq
  obtain ⟨-, sx2, yx2, yd2, dr2, cx2, cd2⟩ := h'.inv.builder.derived.Aineq
  have s1 := h.inv.builder.repr.sMul
  have s2 := h'.inv.builder.repr.sMul
  simp only [d1] at eA eB eC xx1 xd1 sx1 yx1 yd1 dr1 cx1 cd1 s1
  simp only [d2] at xx2 xd2 sx2 yx2 yd2 dr2 cx2 cd2 s2
  have hS : d.nS = (d.ph + 1) * (d.nu + d.nx) := rfl
  rcases rows_cases (d := d) (ρ := ρ) (by rw [rowCount_eq]; exact hρ) with h1 | ⟨i, a, hi, ha, rfl⟩ |
    ⟨i, a, hi, ha, rfl⟩ | ⟨i, a, hi, ha, rfl⟩ | ⟨i, a, hi, ha, rfl⟩ | ⟨i, hi, rfl⟩
  · rw [boundRow_eq] at h1
    obtain ⟨i, a, hi, ha, rfl⟩ := exists_block (s := d.nu + d.nx) (n := d.ph + 1) h1
    rcases var_cases hk with ⟨j, e, hj, he, rfl⟩ | ⟨j, e, hj, he, rfl⟩
    · rw [xx1 i a j e (by omega) hj ha he, xx2 i a j e (by omega) hj ha he]
      by_cases h3 : i = j + 1
      · rw [if_pos h3, if_pos h3, if_neg (by omega), if_neg (by omega), zero_add, ExactOps.zero_add, eA ha he]
      · rw [if_neg h3, if_neg h3, add_zero, ExactOps.add_zero]
        split_ifs
        · rfl
        · rfl
    · rw [xd1 i a j e (by omega) hj ha he, xd2 i a j e (by omega) hj ha he]
      split_ifs
      · exact eB ha he
      · rfl
  · have hh : Spec.boundRow d + i * (d.nx + d.nu) + a = d.nS + (i * (d.nu + d.nx) + a) := by
      rw [boundRow_eq, Nat.add_comm d.nx d.nu]; omega
    have hb : i * (d.nu + d.nx) + a < d.nS := block_lt (by omega) (by omega)
    rw [hh, sx1 _ _ hb hk, sx2 _ _ hb hk]
    split_ifs
    · rfl
    · rfl
  · have hh : Spec.boundRow d + i * (d.nx + d.nu) + d.nx + a = d.nS + (i * (d.nu + d.nx) + (d.nx + a)) := by
      rw [boundRow_eq, Nat.add_comm d.nx d.nu]; omega
    have hb : i * (d.nu + d.nx) + (d.nx + a) < d.nS := block_lt (by omega) (by omega)
    rw [hh, sx1 _ _ hb hk, sx2 _ _ hb hk]
    split_ifs
    · rfl
    · rfl
  · have hh : Spec.outputRow d + i * d.ny + a = d.nS + (d.nS + (i * d.ny + a)) := by
      rw [outputRow_eq]; omega
    have hb : i * d.ny + a < d.nY := block_lt ha (by omega)
    rw [hh]
    rcases var_cases hk with ⟨j, e, hj, he, rfl⟩ | ⟨j, e, hj, he, rfl⟩
    · rw [yx1 i a j e hi hj ha he, yx2 i a j e hi hj ha he]
      split_ifs
      · exact eC (by omega) he
      · rfl
    · rw [yd1 _ _ hb (block_lt he hj), yd2 _ _ hb (block_lt he hj)]
      rfl
  · have hh : Spec.incrementRow d + i * d.nu + a = d.nS + (d.nS + d.nY + (i * d.nu + a)) := by
      rw [incrementRow_eq]; omega
    have hb : i * d.nu + a < d.nD := block_lt ha hi
    rw [hh, dr1 _ _ hb hk, dr2 _ _ hb hk]
    split_ifs
    · rfl
    · rfl
  · have hh : Spec.scalarRow d + i = d.nS + (d.nS + d.nY + d.nD + i) := by
      rw [scalarRow_eq]; omega
    rw [hh]
    rcases var_cases hk with ⟨j, e, hj, he, rfl⟩ | ⟨j, e, hj, he, rfl⟩
    · have hb : j * (d.nu + d.nx) + e < d.nS := block_lt he (by omega)
      rw [cx1 i _ hi hb, cx2 i _ hi hb, s1 i j e hi hj he, s2 i j e hi hj he]
      split_ifs
      · exact t.sX _
      · exact t.sU _
      · rfl
    · rw [cd1 i _ hi (block_lt he hj), cd2 i _ hi (block_lt he hj)]
      rfl

theorem rowValue_exact (h : Solved d c x0 u0 st obj sol m m' r call) (h' : Solved d c' y0 v0 st' obj' sol' m1 m1' r' call')
    (t : Twin Fl.val c c') {ρ : Nat} (hρ : ρ < d.nC) (z : Nat → K) :
    Spec.rowValue call.exact z ρ = Spec.rowValue call' z ρ := by
  unfold Spec.rowValue
  rw [show call.exact.n = d.nV from h.call.n, h'.call.n]
  refine Finset.sum_congr rfl fun k hk => ?_
  rw [h.entryA_exact hρ (mem_range.1 hk), h'.entryA hρ (mem_range.1 hk), h.A_exact h' t hρ (mem_range.1 hk)]

/-! ### The bounds -/

theorem distX_val (h : Solved d c x0 u0 st obj sol m m' r call) {k a : Nat} (hk : k < d.ph) (ha : a < d.nx) :
    m.b.distX m.o.extInputMeas a k = sumTo d.ndu fun e => c.Bd a e * c.dist k e := by
  have hdim := h.inv.builder.dims
  have hb := h.inv.builder.repr.Bvx a
  unfold Builder.distX
  simp only [hdim] at hb ⊢
  exact sumTo_congr fun e he => by rw [hb e ha he, h.inv.opt.dist e k he hk]

theorem distX_val_input (h : Solved d c x0 u0 st obj sol m m' r call) {k a : Nat} (ha : a < d.nu) :
    m.b.distX m.o.extInputMeas (d.nx + a) k = 0 := by
  have hdim := h.inv.builder.dims
  have hb := h.inv.builder.repr.Bvu a
  unfold Builder.distX
  simp only [hdim] at hb ⊢
  exact sumTo_zero fun e he => by rw [hb e ha he, ExactOps.zero_mul]

theorem distY_val (h : Solved d c x0 u0 st obj sol m m' r call) {k a : Nat} (hk : k < d.ph) (ha : a < d.ny) :
    m.b.distY m.o.extInputMeas a k = sumTo d.ndu fun e => c.Dd a e * c.dist k e := by
  have hdim := h.inv.builder.dims
  have hb := h.inv.builder.repr.Dvy a
  unfold Builder.distY
  simp only [hdim] at hb ⊢
  exact sumTo_congr fun e he => by rw [hb e ha he, h.inv.opt.dist e k he hk]

theorem distY_val_input (h : Solved d c x0 u0 st obj sol m m' r call) {k a : Nat} (ha : a < d.nu) :
    m.b.distY m.o.extInputMeas (d.ny + a) k = 0 := by
  have hdim := h.inv.builder.dims
  have hb := h.inv.builder.repr.Dvu a
  unfold Builder.distY
  simp only [hdim] at hb ⊢
  exact sumTo_zero fun e he => by rw [hb e ha he, ExactOps.zero_mul]

theorem _root_.Mpc.Approx.dot (n : Nat) (f g : Nat → Fl R) :
    Approx R (1 + n) (Spec.dot n (fun e => |(f e).val|) (fun e => |(g e).val|)) (sumTo n fun e => f e * g e).val
      (Spec.dot n (fun e => (f e).val) (fun e => (g e).val)) :=
  Approx.sum fun e _ => Approx.prod (f e) (g e)

/-- The bounds of every row are related when the disturbance terms are. -/
theorem bounds_rel (h : Solved d c x0 u0 st obj sol m m' r call)
    (h' : Solved d c.exact (x0.map Fl.val) (u0.map Fl.val) st' obj' sol' m1 m1' r' call') {P : Ext K → Ext K → Prop}
    (refl : ∀ e, P e e)
    (hX : ∀ k a, k < d.ph → a < d.nx → P (.fin (-(sumTo d.ndu fun e => c.Bd a e * c.dist k e).val))
      (.fin (-Spec.dot d.ndu (c.exact.Bd a) (c.exact.dist k))))
    (hl : ∀ k a, k < d.ph → a < d.ny → P (((c.yMin k a).add (-(sumTo d.ndu fun e => c.Dd a e * c.dist k e))).map Fl.val)
      ((c.exact.yMin k a).add (-Spec.dot d.ndu (c.exact.Dd a) (c.exact.dist k))))
    (hu : ∀ k a, k < d.ph → a < d.ny → P (((c.yMax k a).add (-(sumTo d.ndu fun e => c.Dd a e * c.dist k e))).map Fl.val)
      ((c.exact.yMax k a).add (-Spec.dot d.ndu (c.exact.Dd a) (c.exact.dist k)))) {ρ : Nat} (hρ : ρ < d.nC) :
    P (call.exact.l.get ρ) (call'.l.get ρ) ∧ P (call.exact.u.get ρ) (call'.u.get ρ) := by
  have d1 := h.inv.builder.dims
  have d2 := h'.inv.builder.dims
  have hph := h.valid.ph_pos
  have g1 := h.get
  have g2 := h'.get
  show P ((call.l.get ρ).map Fl.val) _ ∧ P ((call.u.get ρ).map Fl.val) _
  have e0 : ∀ {a b : Ext K}, a = b → P a b := fun e => e ▸ refl _
  rcases rows_cases (d := d) (ρ := ρ) (by rw [rowCount_eq]; exact hρ) with h1 | ⟨i, a, hi, ha, rfl⟩ |
    ⟨i, a, hi, ha, rfl⟩ | ⟨i, a, hi, ha, rfl⟩ | ⟨i, a, hi, ha, rfl⟩ | ⟨i, hi, rfl⟩
  · rw [boundRow_eq] at h1
    rw [h.call.l, h'.call.l, h.call.u, h'.call.u]
    have e1 := g1.leqlu ρ (by rw [d1]; exact h1)
    have e2 := g2.leqlu ρ (by rw [d2]; exact h1)
    rw [← e1, ← e2]
    refine and_self_iff.2 ?_
    obtain ⟨i, a, hi, ha, rfl⟩ := exists_block (s := d.nu + d.nx) (n := d.ph + 1) h1
    rcases i with _ | i
    · rw [Nat.zero_mul, Nat.zero_add]
      by_cases hx : a < d.nx
      · rw [g1.l0x a (by rw [d1]; exact hx), g2.l0x a (by rw [d2]; exact hx)]
        exact refl _
      · obtain ⟨a, rfl⟩ := Nat.exists_eq_add_of_le (Nat.le_of_not_lt hx)
        have q1 := g1.l0u a; have q2 := g2.l0u a
        simp only [d1] at q1
        simp only [d2] at q2
        rw [q1 (by omega), q2 (by omega)]
        exact refl _
    · have q1 := g1.le i a; have q2 := g2.le i a
      simp only [d1] at q1
      simp only [d2] at q2
      rw [q1 (by omega) ha, q2 (by omega) ha]
      by_cases hx : a < d.nx
      · rw [h.distX_val (by omega) hx, h'.distX_state (by omega) hx]
        exact hX i a (by omega) hx
      · obtain ⟨a, rfl⟩ := Nat.exists_eq_add_of_le (Nat.le_of_not_lt hx)
        rw [h.distX_val_input (by omega), h'.distX_input (by omega)]
        exact refl _
  · obtain ⟨a1, a2⟩ := h.state_bounds hi ha
    obtain ⟨b1, b2⟩ := h'.state_bounds hi ha
    rw [a1, a2, b1, b2]
    exact ⟨refl _, refl _⟩
  · obtain ⟨a1, a2⟩ := h.held_bounds hi ha
    obtain ⟨b1, b2⟩ := h'.held_bounds hi ha
    rw [a1, a2, b1, b2]
    exact ⟨refl _, refl _⟩
  · obtain ⟨a1, a2⟩ := h.output_bounds_raw hi ha
    obtain ⟨b1, b2⟩ := h'.output_bounds hi ha
    rw [a1, a2, b1, b2, h.distY_val (by omega) ha]
    exact ⟨hl _ _ (by omega) ha, hu _ _ (by omega) ha⟩
  · obtain ⟨a1, a2⟩ := h.increment_bounds hi ha
    obtain ⟨b1, b2⟩ := h'.increment_bounds hi ha
    rw [a1, a2, b1, b2]
    constructor
    · refine e0 ?_
      split_ifs <;> rfl
    · refine e0 ?_
      split_ifs <;> rfl
  · obtain ⟨a1, a2⟩ := h.scalar_bounds hi
    obtain ⟨b1, b2⟩ := h'.scalar_bounds hi
    rw [a1, a2, b1, b2]
    exact ⟨refl _, refl _⟩

/-- Without disturbances the bounds are exact. -/
theorem bounds_exact (h : Solved d c x0 u0 st obj sol m m' r call)
    (h' : Solved d c.exact (x0.map Fl.val) (u0.map Fl.val) st' obj' sol' m1 m1' r' call') (hn : Spec.Undisturbed d c.exact)
    {ρ : Nat} (hρ : ρ < d.nC) : call.exact.l.get ρ = call'.l.get ρ ∧ call.exact.u.get ρ = call'.u.get ρ := by
  have zX : ∀ k a, k < d.ph → a < d.nx → ∀ e, e < d.ndu → c.Bd a e = 0 ∨ c.dist k e = 0 := by
    intro k a hk ha e he
    rcases hn with hn | ⟨hn, -⟩
    · exact .inr (Fl.ext (hn k e hk he))
    · exact .inl (Fl.ext (hn a e ha he))
  have zY : ∀ k a, k < d.ph → a < d.ny → ∀ e, e < d.ndu → c.Dd a e = 0 ∨ c.dist k e = 0 := by
    intro k a hk ha e he
    rcases hn with hn | ⟨-, hn⟩
    · exact .inr (Fl.ext (hn k e hk he))
    · exact .inl (Fl.ext (hn a e ha he))
  have s0 : ∀ f g : Nat → Fl R, (∀ e, e < d.ndu → f e = 0 ∨ g e = 0) → (sumTo d.ndu fun e => f e * g e) = 0 := by
    intro f g hh
    refine sumTo_zero fun e he => ?_
    rcases hh e he with hh | hh
    · rw [hh, ExactOps.zero_mul]
    · rw [hh, ExactOps.mul_zero]
  have d0 : ∀ f g : Nat → Fl R, (∀ e, e < d.ndu → f e = 0 ∨ g e = 0) →
      Spec.dot d.ndu (fun e => (f e).val) (fun e => (g e).val) = 0 := by
    intro f g hh
    refine Finset.sum_eq_zero fun e he => ?_
    dsimp only
    rcases hh e (mem_range.1 he) with hh | hh
    · rw [hh, Fl.val_zero, zero_mul]
    · rw [hh, Fl.val_zero, mul_zero]
  have out : ∀ (e : Ext (Fl R)) (k a : Nat), k < d.ph → a < d.ny →
      (e.add (-(sumTo d.ndu fun e => c.Dd a e * c.dist k e))).map Fl.val =
        (e.map Fl.val).add (-Spec.dot d.ndu (c.exact.Dd a) (c.exact.dist k)) := by
    intro e k a hk ha
    rw [s0 _ _ (zY k a hk ha), show Spec.dot d.ndu (c.exact.Dd a) (c.exact.dist k) = 0 from d0 _ _ (zY k a hk ha),
      ExactOps.neg_zero, ExactOps.neg_zero, Ext.add_zero_exact, Ext.add_zero_exact]
  refine bounds_rel h h' (P := fun a b => a = b) (fun _ => rfl) ?_ (fun k a hk ha => out _ k a hk ha)
    (fun k a hk ha => out _ k a hk ha) hρ
  intro k a hk ha
  rw [s0 _ _ (zX k a hk ha), show Spec.dot d.ndu (c.exact.Bd a) (c.exact.dist k) = 0 from d0 _ _ (zX k a hk ha)]
  rfl

/-- With disturbances the bounds are exact up to the rounding error of the disturbance terms. -/
theorem bounds_near (h : Solved d c x0 u0 st obj sol m m' r call)
    (h' : Solved d c.exact (x0.map Fl.val) (u0.map Fl.val) st' obj' sol' m1 m1' r' call') {B : K}
    (hB : Spec.DisturbanceScale d c.exact B) (hB0 : 0 ≤ B) {ρ : Nat} (hρ : ρ < d.nC) :
    ExtNear (R.gamma (d.ndu + 2) * B) (call.exact.l.get ρ) (call'.l.get ρ) ∧
      ExtNear (R.gamma (d.ndu + 2) * B) (call.exact.u.get ρ) (call'.u.get ρ) := by
  have g0 : 0 ≤ R.gamma (d.ndu + 2) * B := mul_nonneg (R.gamma_nonneg _) hB0
  have out : ∀ (e : Ext (Fl R)) (k a : Nat), k < d.ph → a < d.ny →
      (∀ l, e.map Fl.val = .fin l → |l| + Spec.dot d.ndu (fun e => |c.exact.Dd a e|) (fun e => |c.exact.dist k e|) ≤ B) →
      ExtNear (R.gamma (d.ndu + 2) * B) ((e.add (-(sumTo d.ndu fun e => c.Dd a e * c.dist k e))).map Fl.val)
        ((e.map Fl.val).add (-Spec.dot d.ndu (c.exact.Dd a) (c.exact.dist k))) := by
    intro e k a hk ha hb
    cases e with
    | negInf => exact ExtNear.of_eq g0 rfl
    | posInf => exact ExtNear.of_eq g0 rfl
    | fin l =>
      have key := ((Approx.exact R (1 + d.ndu) l.val).add (x := l) (y := -(sumTo d.ndu fun e => c.Dd a e * c.dist k e))
        (Approx.dot d.ndu (c.Dd a) (c.dist k)).neg)
      exact (key.mono (show 1 + d.ndu + 1 ≤ d.ndu + 2 by omega) (hb _ rfl)).err
  refine bounds_rel h h' (fun e => ExtNear.of_eq g0 rfl) ?_ (fun k a hk ha => out _ k a hk ha (fun l hl => hB.lower k a l hk ha hl))
    (fun k a hk ha => out _ k a hk ha (fun l hl => hB.upper k a l hk ha hl)) hρ
  intro k a hk ha
  exact ((Approx.dot d.ndu (c.Bd a) (c.dist k)).neg.mono (by omega) (hB.state k a hk ha)).err

end Solved
end Mpc
