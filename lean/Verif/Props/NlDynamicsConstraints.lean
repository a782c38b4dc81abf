import Verif.Proofs.NlDynEval
import Verif.Props.NlGradients

/-
C37, C38: the state-equation constraints handed to the nonlinear solver.
-/
namespace Mpc.Props
open Mpc Exec
set_option linter.unusedSectionVars false

section
variable {K : Type} [Field K] [LinearOrder K] [IsStrictOrderedRing K]

/-- C37 as claimed: for every history, the residual for decision vector `z` vanishes exactly when the documented state
and input sequences satisfy the model. -/
def C37Claim (K : Type) [Field K] [LinearOrder K] [IsStrictOrderedRing K] : Prop :=
  ∀ (d : Dims), HorizonsOk d → ∀ (junk : Nat → K) (cont : Bool) (Ts : K) (ops : List (NlOp d K)),
    (∀ o ∈ ops, NlSpec.OpFits d o) → ∀ s, NlState.run d junk cont Ts ops = .ok s →
    ∀ c, c = NlSpec.cfgOf d cont Ts ops → ∀ F x0, c.field = some F → c.x0 = some x0 →
    (∀ a, a < d.nx → c.stScale a ≠ 0) →
    ∀ (z : Vec K) (g : Bool) (j : Nat → K), z.size = d.nZ →
    ∃ r s', s.evalDyn z g j = .ok (r, s') ∧ r.value.size = d.ph * d.nx ∧
      ((∀ i, i < d.ph * d.nx → r.value.get i = 0) ↔
        NlSpec.SatisfiesModel c.cont c.Ts F (NlSpec.docStates d c.stScale x0 z.get) (NlSpec.inputs d c.inScale z.get))

/-- residual zero iff model satisfied, for the state sequence used by the code -/
theorem residual_zero_iff {d : Dims} (hd : HorizonsOk d) {s : NlState d K} {c : NlSpec.Cfg d K} (hs : s.Holds c)
    {F : FVec d.nx K → FVec d.nu K → Nat → FVec d.nx K} (hF : c.field = some F) {x0 : Nat → K} (hx : c.x0 = some x0)
    (hsc : ∀ a, a < d.nx → c.stScale a ≠ 0) (z : Vec K) (g : Bool) (j : Nat → K) (hz : z.size = d.nZ) :
    ∃ r s', s.evalDyn z g j = .ok (r, s') ∧ r.value.size = d.ph * d.nx ∧
      ((∀ i, i < d.ph * d.nx → r.value.get i = 0) ↔
        NlSpec.SatisfiesModel c.cont c.Ts F (NlSpec.codeStates d c.stScale x0 z.get)
          (NlSpec.inputs d c.inScale z.get)) := by
  obtain ⟨⟨r, s'⟩, e, v1, -, X, U, -, -, hX, hU, hv, -⟩ := NlState.evalDyn_post hs hd.ph_int hF z hz g j
  rw [hs.cx0 x0 hx] at hX
  dsimp only at v1 hv
  refine ⟨r, s', e, v1, ?_⟩
  have key : ∀ (k : Fin d.ph) (a : Fin d.nx), r.value.get (k * d.nx + a) = 0 ↔
      Constraints.resid F c.cont c.Ts X U k a = 0 := by
    intro k a
    rw [hv k a k.2 a.2, div_eq_zero_iff, or_iff_left (hsc a a.2)]
  constructor
  · intro h k a
    have h1 := (key k a).1 (h _ (block_lt a.2 k.2))
    rw [Constraints.resid_eq F c.cont c.Ts X U hX hU] at h1
    cases hc : c.cont with
    | true => rw [hc] at h1; simp only [if_true] at h1 ⊢; exact (sub_eq_zero.1 h1).symm
    | false => rw [hc] at h1; simp only [Bool.false_eq_true, if_false] at h1 ⊢; exact sub_eq_zero.1 h1
  · intro h i hi
    obtain ⟨k, a, hk, ha, rfl⟩ := exists_block hi
    refine (key ⟨k, hk⟩ ⟨a, ha⟩).2 ?_
    rw [Constraints.resid_eq F c.cont c.Ts X U hX hU]
    have h1 := h ⟨k, hk⟩ ⟨a, ha⟩
    cases hc : c.cont with
    | true => rw [hc] at h1; simp only [if_true] at h1 ⊢; exact sub_eq_zero.2 h1.symm
    | false => rw [hc] at h1; simp only [Bool.false_eq_true, if_false] at h1 ⊢; exact sub_eq_zero.2 h1

theorem docStates_eq {d : Dims} {s x0 z : Nat → K} (h : ∀ a, a < d.nx → s a * x0 a = x0 a) :
    NlSpec.codeStates d s x0 z = NlSpec.docStates d s x0 z := by
  funext k a
  unfold NlSpec.codeStates NlSpec.docStates NlSpec.stateAt
  split_ifs
  · exact h a a.2
  · rfl

/-- C37, proved part: the equivalence for every history (discrete and continuous models, all scalings of the inputs and
of the predicted states) in which every component of the measured state is unscaled or zero. Missing: a measured state
with a scaled non-zero component (see `c37_scaled_measured_state_violated`). -/
theorem c37_residual_zero_iff_model_partial (d : Dims) (hd : HorizonsOk d) (junk : Nat → K) (cont : Bool) (Ts : K)
    (ops : List (NlOp d K)) (hf : ∀ o ∈ ops, NlSpec.OpFits d o) (s : NlState d K)
    (hr : NlState.run d junk cont Ts ops = .ok s) (c : NlSpec.Cfg d K) (hc : c = NlSpec.cfgOf d cont Ts ops)
    (F : FVec d.nx K → FVec d.nu K → Nat → FVec d.nx K) (x0 : Nat → K) (hF : c.field = some F) (hx : c.x0 = some x0)
    (hsc : ∀ a, a < d.nx → c.stScale a ≠ 0) (hx0 : ∀ a, a < d.nx → c.stScale a = 1 ∨ x0 a = 0)
    (z : Vec K) (g : Bool) (j : Nat → K) (hz : z.size = d.nZ) :
    ∃ r s', s.evalDyn z g j = .ok (r, s') ∧ r.value.size = d.ph * d.nx ∧
      ((∀ i, i < d.ph * d.nx → r.value.get i = 0) ↔
        NlSpec.SatisfiesModel c.cont c.Ts F (NlSpec.docStates d c.stScale x0 z.get)
          (NlSpec.inputs d c.inScale z.get)) := by
  subst hc
  have hs := NlState.run_holds hd.ch_pos hd.ch_le hd.ph_int junk cont Ts ops hf hr
  rw [← docStates_eq (fun a ha => by rcases hx0 a ha with h | h <;> rw [h] <;> ring)]
  exact residual_zero_iff hd hs hF hx hsc z g j hz

/-- C37, what the code does for every history: the same equivalence for the trajectory which starts at the measured
state multiplied by the state scaling. -/
theorem c37_residual_zero_iff_scaled_start_partial (d : Dims) (hd : HorizonsOk d) (junk : Nat → K) (cont : Bool)
    (Ts : K) (ops : List (NlOp d K)) (hf : ∀ o ∈ ops, NlSpec.OpFits d o) (s : NlState d K)
    (hr : NlState.run d junk cont Ts ops = .ok s) (c : NlSpec.Cfg d K) (hc : c = NlSpec.cfgOf d cont Ts ops)
    (F : FVec d.nx K → FVec d.nu K → Nat → FVec d.nx K) (x0 : Nat → K) (hF : c.field = some F) (hx : c.x0 = some x0)
    (hsc : ∀ a, a < d.nx → c.stScale a ≠ 0)
    (z : Vec K) (g : Bool) (j : Nat → K) (hz : z.size = d.nZ) :
    ∃ r s', s.evalDyn z g j = .ok (r, s') ∧ r.value.size = d.ph * d.nx ∧
      ((∀ i, i < d.ph * d.nx → r.value.get i = 0) ↔
        NlSpec.SatisfiesModel c.cont c.Ts F (NlSpec.docStates d c.stScale (fun a => c.stScale a * x0 a) z.get)
          (NlSpec.inputs d c.inScale z.get)) := by
  subst hc
  have hs := NlState.run_holds hd.ch_pos hd.ch_le hd.ph_int junk cont Ts ops hf hr
  exact residual_zero_iff hd hs hF hx hsc z g j hz

/-- a sum against the positions of one step of the states -/
theorem sum_stateRow {d : Dims} (Q P : Nat → K) (w : Nat → Nat → K) {k : Nat} (hk : k < d.ph) :
    ∑ k' ∈ Finset.range d.ph, ∑ a ∈ Finset.range d.nx,
        (if k' = k then Q a else if k' + 1 = k then P a else 0) * w k' a
      = ∑ a ∈ Finset.range d.nx, Q a * w k a
        + if k = 0 then 0 else ∑ a ∈ Finset.range d.nx, P a * w (k - 1) a := by
  have e : ∀ k' ∈ Finset.range d.ph, ∑ a ∈ Finset.range d.nx,
        (if k' = k then Q a else if k' + 1 = k then P a else 0) * w k' a
      = (if k' = k then ∑ a ∈ Finset.range d.nx, Q a * w k a else 0)
        + (if k' + 1 = k then ∑ a ∈ Finset.range d.nx, P a * w (k - 1) a else 0) := by
    intro k' _
    by_cases h1 : k' = k
    · subst h1
      simp
    · by_cases h2 : k' + 1 = k
      · subst h2
        simp
      · simp [h1, h2]
  rw [Finset.sum_congr rfl e, Finset.sum_add_distrib]
  congr 1
  · rw [Finset.sum_ite_eq', if_pos (Finset.mem_range.2 hk)]
  · split_ifs with h0
    · exact Finset.sum_eq_zero fun k' _ => if_neg (by omega)
    · rw [Finset.sum_eq_single (k - 1)]
      · rw [if_pos (by omega)]
      · intro b _ hb; exact if_neg (by omega)
      · intro h; exact absurd (Finset.mem_range.2 (by omega)) h

/-- exactness of the gradient, from what the objects hold -/
theorem dynamics_gradient_of_holds {d : Dims} (hd : HorizonsOk d) {s : NlState d K} {c : NlSpec.Cfg d K} (hs : s.Holds c)
    {F : FVec d.nx K → FVec d.nu K → Nat → FVec d.nx K} (hF : c.field = some F)
    {c0 : Nat → Nat → K} {A B : Nat → Nat → Nat → K} (haff : NlSpec.AffineModel F c0 A B)
    (hsc : ∀ a, a < d.nx → c.stScale a ≠ 0)
    (z z' : Vec K) (g' : Bool) (j j' : Nat → K) (hz : z.size = d.nZ) (hz' : z'.size = d.nZ) :
    ∃ r r' s1 s2, s.evalDyn z true j = .ok (r, s1) ∧ s.evalDyn z' g' j' = .ok (r', s2) ∧
      r.grad.size = d.nZ * (d.ph * d.nx) ∧
      NlSpec.ExactRows d.nZ (d.ph * d.nx) z.get z'.get r.value.get r'.value.get r.grad.get := by
  obtain ⟨⟨r, s1⟩, e1, -, gsz, X, U, hXi, hUi, hX, hU, hv, hg⟩ := NlState.evalDyn_post hs hd.ph_int hF z hz true j
  obtain ⟨⟨r', s2⟩, e2, -, -, X', U', hXi', hUi', hX', hU', hv', -⟩ :=
    NlState.evalDyn_post hs hd.ph_int hF z' hz' g' j'
  obtain ⟨gs, gi, ge⟩ := hg rfl
  dsimp only at gsz hv hv' gs gi ge
  refine ⟨r, r', s1, s2, e1, e2, gsz, ?_⟩
  intro i hi
  obtain ⟨k, a, hk, ha, rfl⟩ := exists_block hi
  have hinv : s.mp.invStateScaling.get a = 1 / c.stScale a := by
    rw [hs.good.inv a (by rw [hs.dims]; exact ha), hs.stS]
  have hsa := hsc a ha
  rw [hv k a hk ha, hv' k a hk ha, NlSpec.sum_nZ, ge k a hk ha, zero_mul, add_zero,
    Constraints.resid_eq F c.cont c.Ts X U hX hU ⟨k, hk⟩ ⟨a, ha⟩,
    Constraints.resid_eq F c.cont c.Ts X' U' hX' hU' ⟨k, hk⟩ ⟨a, ha⟩]
  -- sum over the states
  rw [Finset.sum_congr rfl (fun k' hk' => Finset.sum_congr rfl (fun b hb => by
    rw [gs k a k' b hk ha (Finset.mem_range.1 hk') (Finset.mem_range.1 hb)]))]
  rw [sum_stateRow _ _ (fun k' b => z'.get (NlSpec.stateIx d k' b) - z.get (NlSpec.stateIx d k' b)) hk]
  -- sum over the inputs
  have ei : ∑ m ∈ Finset.range d.ch, ∑ b ∈ Finset.range d.nu,
        r.grad.get ((k * d.nx + a) * d.nZ + NlSpec.inputIx d m b)
          * (z'.get (NlSpec.inputIx d m b) - z.get (NlSpec.inputIx d m b))
      = ∑ b ∈ Finset.range d.nu, Constraints.blkR F c.cont c.Ts s.mp.invStateScaling.get X U k a b
          * (c.inScale b * (z'.get (NlSpec.inputIx d (min k (d.ch - 1)) b)
            - z.get (NlSpec.inputIx d (min k (d.ch - 1)) b))) := by
    have hch := hd.ch_pos
    rw [Finset.sum_eq_single (min k (d.ch - 1))]
    · refine Finset.sum_congr rfl fun b hb => ?_
      rw [gi k a _ b hk ha (by omega) (Finset.mem_range.1 hb), if_pos rfl]; ring
    · intro m hm hne
      refine Finset.sum_eq_zero fun b hb => ?_
      rw [gi k a m b hk ha (Finset.mem_range.1 hm) (Finset.mem_range.1 hb), if_neg (Ne.symm hne)]; ring
    · intro h; exact absurd (Finset.mem_range.2 (by omega)) h
  rw [ei]
  -- differences of the sequences
  have dF := haff.sub (NlSpec.codeStates d c.stScale s.con.x0.get z.get (Fin.castSucc ⟨k, hk⟩))
    (NlSpec.codeStates d c.stScale s.con.x0.get z'.get (Fin.castSucc ⟨k, hk⟩))
    (NlSpec.inputs d c.inScale z.get (Fin.castSucc ⟨k, hk⟩)) (NlSpec.inputs d c.inScale z'.get (Fin.castSucc ⟨k, hk⟩))
    k ⟨a, ha⟩
  have dF' := haff.sub (NlSpec.codeStates d c.stScale s.con.x0.get z.get (Fin.succ ⟨k, hk⟩))
    (NlSpec.codeStates d c.stScale s.con.x0.get z'.get (Fin.succ ⟨k, hk⟩))
    (NlSpec.inputs d c.inScale z.get (Fin.castSucc ⟨k, hk⟩)) (NlSpec.inputs d c.inScale z'.get (Fin.castSucc ⟨k, hk⟩))
    k ⟨a, ha⟩
  have dX := NlSpec.codeStates_sub_cast d c.stScale s.con.x0.get z.get z'.get ⟨k, hk⟩ ⟨a, ha⟩
  have dX' := NlSpec.codeStates_sub_succ d c.stScale s.con.x0.get z.get z'.get ⟨k, hk⟩ ⟨a, ha⟩
  simp only [NlSpec.codeStates_sub_cast, NlSpec.codeStates_sub_succ, NlSpec.inputs_sub, Fin.val_castSucc] at dF dF'
  dsimp only at dX dX'
  -- all sums over ranges
  have SX : ∑ b : Fin d.nx, A k a b * (c.stScale b * (z'.get (NlSpec.stateIx d k b) - z.get (NlSpec.stateIx d k b)))
      = ∑ b ∈ Finset.range d.nx,
        A k a b * (c.stScale b * (z'.get (NlSpec.stateIx d k b) - z.get (NlSpec.stateIx d k b))) :=
    (Finset.sum_range fun b => A k a b * (c.stScale b
      * (z'.get (NlSpec.stateIx d k b) - z.get (NlSpec.stateIx d k b)))).symm
  have SP : ∑ b : Fin d.nx, A k a b * (if k = 0 then 0 else
        c.stScale b * (z'.get (NlSpec.stateIx d (k - 1) b) - z.get (NlSpec.stateIx d (k - 1) b)))
      = if k = 0 then 0 else ∑ b ∈ Finset.range d.nx,
        A k a b * (c.stScale b * (z'.get (NlSpec.stateIx d (k - 1) b) - z.get (NlSpec.stateIx d (k - 1) b))) := by
    split_ifs
    · simp
    · exact (Finset.sum_range fun b => A k a b * (c.stScale b
        * (z'.get (NlSpec.stateIx d (k - 1) b) - z.get (NlSpec.stateIx d (k - 1) b)))).symm
  have SU : ∑ b : Fin d.nu, B k a b * (c.inScale b * (z'.get (NlSpec.inputIx d (min k (d.ch - 1)) b)
        - z.get (NlSpec.inputIx d (min k (d.ch - 1)) b)))
      = ∑ b ∈ Finset.range d.nu, B k a b * (c.inScale b * (z'.get (NlSpec.inputIx d (min k (d.ch - 1)) b)
        - z.get (NlSpec.inputIx d (min k (d.ch - 1)) b))) :=
    (Finset.sum_range fun b => B k a b * (c.inScale b * (z'.get (NlSpec.inputIx d (min k (d.ch - 1)) b)
        - z.get (NlSpec.inputIx d (min k (d.ch - 1)) b)))).symm
  rw [SP, SU] at dF
  rw [SX, SU] at dF'
  -- the blocks
  have hone : ∀ w : Nat → K, ∑ b ∈ Finset.range d.nx, (if a = b then (1 : K) else 0) * w b = w a := by
    intro w
    rw [Finset.sum_eq_single a]
    · simp
    · intro b _ hb; rw [if_neg (Ne.symm hb), zero_mul]
    · intro h; exact absurd (Finset.mem_range.2 ha) h
  cases hc : c.cont with
  | false =>
    simp only [Bool.false_eq_true, if_false]
    have bR : ∑ b ∈ Finset.range d.nu, Constraints.blkR F false c.Ts s.mp.invStateScaling.get X U k a b
          * (c.inScale b * (z'.get (NlSpec.inputIx d (min k (d.ch - 1)) b)
            - z.get (NlSpec.inputIx d (min k (d.ch - 1)) b)))
        = -(1 / c.stScale a) * ∑ b ∈ Finset.range d.nu, B k a b * (c.inScale b
          * (z'.get (NlSpec.inputIx d (min k (d.ch - 1)) b) - z.get (NlSpec.inputIx d (min k (d.ch - 1)) b))) := by
      rw [Finset.mul_sum]
      refine Finset.sum_congr rfl fun b hb => ?_
      simp only [Constraints.blkR, Bool.false_eq_true, if_false]
      rw [haff.dqU _ _ _ ha (Finset.mem_range.1 hb), hinv]; ring
    have bQ : ∑ b ∈ Finset.range d.nx,
          Constraints.blkQ F false c.Ts c.stScale s.mp.invStateScaling.get X U k a b
            * (z'.get (NlSpec.stateIx d k b) - z.get (NlSpec.stateIx d k b))
        = z'.get (NlSpec.stateIx d k a) - z.get (NlSpec.stateIx d k a) := by
      simp only [Constraints.blkQ, Bool.false_eq_true, if_false]
      exact hone _
    have bP : ∀ w : Nat → K, ∑ b ∈ Finset.range d.nx,
          Constraints.blkP F false c.Ts c.stScale s.mp.invStateScaling.get X U k a b * w b
        = -(1 / c.stScale a) * ∑ b ∈ Finset.range d.nx, A k a b * (c.stScale b * w b) := by
      intro w
      rw [Finset.mul_sum]
      refine Finset.sum_congr rfl fun b hb => ?_
      simp only [Constraints.blkP, Bool.false_eq_true, if_false]
      rw [haff.dqX _ _ _ ha (Finset.mem_range.1 hb), hinv]; ring
    rw [bR, bQ, bP]
    rw [← sub_div, div_eq_iff hsa]
    have e3 : ∀ p q x y : K, p - q - (x - y) = (p - x) - (q - y) := fun p q x y => by ring
    rw [e3, dX', dF]
    split_ifs with h0
    · field_simp
      ring
    · field_simp
      ring
  | true =>
    simp only [if_true]
    have bR : ∑ b ∈ Finset.range d.nu, Constraints.blkR F true c.Ts s.mp.invStateScaling.get X U k a b
          * (c.inScale b * (z'.get (NlSpec.inputIx d (min k (d.ch - 1)) b)
            - z.get (NlSpec.inputIx d (min k (d.ch - 1)) b)))
        = (c.Ts / 2 * (1 / c.stScale a) * 2) * ∑ b ∈ Finset.range d.nu, B k a b * (c.inScale b
          * (z'.get (NlSpec.inputIx d (min k (d.ch - 1)) b) - z.get (NlSpec.inputIx d (min k (d.ch - 1)) b))) := by
      rw [Finset.mul_sum]
      refine Finset.sum_congr rfl fun b hb => ?_
      simp only [Constraints.blkR, if_true]
      rw [haff.dqU _ _ _ ha (Finset.mem_range.1 hb), haff.dqU _ _ _ ha (Finset.mem_range.1 hb), hinv]; ring
    have bQ : ∀ w : Nat → K, ∑ b ∈ Finset.range d.nx,
          Constraints.blkQ F true c.Ts c.stScale s.mp.invStateScaling.get X U k a b * w b
        = -w a + (c.Ts / 2 * (1 / c.stScale a)) * ∑ b ∈ Finset.range d.nx, A k a b * (c.stScale b * w b) := by
      intro w
      rw [← hone w, Finset.mul_sum, ← Finset.sum_neg_distrib, ← Finset.sum_add_distrib]
      refine Finset.sum_congr rfl fun b hb => ?_
      simp only [Constraints.blkQ, if_true]
      rw [haff.dqX _ _ _ ha (Finset.mem_range.1 hb), hinv]; ring
    have bP : ∀ w : Nat → K, ∑ b ∈ Finset.range d.nx,
          Constraints.blkP F true c.Ts c.stScale s.mp.invStateScaling.get X U k a b * w b
        = w a + (c.Ts / 2 * (1 / c.stScale a)) * ∑ b ∈ Finset.range d.nx, A k a b * (c.stScale b * w b) := by
      intro w
      rw [← hone w, Finset.mul_sum, ← Finset.sum_add_distrib]
      refine Finset.sum_congr rfl fun b hb => ?_
      simp only [Constraints.blkP, if_true]
      rw [haff.dqX _ _ _ ha (Finset.mem_range.1 hb), hinv]; ring
    rw [bR, bQ, bP]
    rw [← sub_div, div_eq_iff hsa]
    have e3 : ∀ x x' f1 f1' f2 f2' y y' : K, x' + c.Ts / 2 * (f1' + f2') - y' - (x + c.Ts / 2 * (f1 + f2) - y)
        = (x' - x) + c.Ts / 2 * ((f1' - f1) + (f2' - f2)) - (y' - y) := by intros; ring
    rw [e3, dX', dF, dF', dX]
    split_ifs with h0
    · field_simp
      ring
    · field_simp
      ring

/-- C38: for every affine model, discrete or continuous, and every history (all scalings with non-zero state factors),
the Jacobian of the state-equation constraints handed to the solver is exact. -/
theorem c38_dynamics_gradient_exact (d : Dims) (hd : HorizonsOk d) (junk : Nat → K) (cont : Bool) (Ts : K)
    (ops : List (NlOp d K)) (hf : ∀ o ∈ ops, NlSpec.OpFits d o) (s : NlState d K)
    (hr : NlState.run d junk cont Ts ops = .ok s)
    (F : FVec d.nx K → FVec d.nu K → Nat → FVec d.nx K) (hF : (NlSpec.cfgOf d cont Ts ops).field = some F)
    (c0 : Nat → Nat → K) (A B : Nat → Nat → Nat → K) (haff : NlSpec.AffineModel F c0 A B)
    (hsc : ∀ a, a < d.nx → (NlSpec.cfgOf d cont Ts ops).stScale a ≠ 0)
    (z z' : Vec K) (g' : Bool) (j j' : Nat → K) (hz : z.size = d.nZ) (hz' : z'.size = d.nZ) :
    ∃ r r' s1 s2, s.evalDyn z true j = .ok (r, s1) ∧ s.evalDyn z' g' j' = .ok (r', s2) ∧
      r.grad.size = d.nZ * (d.ph * d.nx) ∧
      NlSpec.ExactRows d.nZ (d.ph * d.nx) z.get z'.get r.value.get r'.value.get r.grad.get :=
  dynamics_gradient_of_holds hd (NlState.run_holds hd.ch_pos hd.ch_le hd.ph_int junk cont Ts ops hf hr) hF haff hsc z z' g' j j' hz hz'

end

/-! ### Witness: measured state 1 with state scaling 2 -/

/-- discrete model `x⁺ = x`, state scaling 2, measured state 1 -/
def opsW37 : List (NlOp dW ℚ) :=
  [.stateScaling ⟨1, fun _ => 2⟩, .stateFn (fun x _ _ => x), .measure ⟨1, fun _ => 1⟩]

theorem opsW37_fits : ∀ o ∈ opsW37, NlSpec.OpFits dW o := by
  intro o ho
  simp only [opsW37, List.mem_cons, List.not_mem_nil, or_false] at ho
  rcases ho with rfl | rfl | rfl <;> simp [NlSpec.OpFits]

/-- C37 fails: with a state scaling, the trajectory constrained to satisfy the model starts at the measured state
multiplied by the scaling (Mapping.hpp:114-126), so a true trajectory of the model violates the constraints. -/
theorem c37_scaled_measured_state_violated : ¬ C37Claim ℚ := by
  intro H
  obtain ⟨s, hs⟩ := NlState.run_setters (d := dW) dW_ok.ch_pos dW_ok.ch_le dW_ok.ph_int (fun _ => (0 : ℚ)) false 1
    opsW37 opsW37_fits (by
      intro o ho
      simp only [opsW37, List.mem_cons, List.not_mem_nil, or_false] at ho
      rcases ho with rfl | rfl | rfl <;> trivial)
  have hh := NlState.run_holds dW_ok.ch_pos dW_ok.ch_le dW_ok.ph_int _ _ _ opsW37 opsW37_fits hs
  have hsc : ∀ a, a < dW.nx → (NlSpec.cfgOf dW false (1 : ℚ) opsW37).stScale a ≠ 0 := by
    intro a _; simp [NlSpec.cfgOf, opsW37, NlSpec.Cfg.step, NlSpec.Cfg.fresh]
  obtain ⟨r, s', e1, -, h1⟩ := H dW dW_ok _ _ _ opsW37 opsW37_fits s hs _ rfl _ _ rfl rfl hsc
    ⟨3, fun _ => 1 / 2⟩ false (fun _ => 0) rfl
  obtain ⟨r2, s2, e2, -, h2⟩ := residual_zero_iff dW_ok hh rfl rfl hsc
    ⟨3, fun _ => 1 / 2⟩ false (fun _ => 0) rfl
  rw [e1] at e2
  cases e2
  have h3 := h1.symm.trans h2
  have h4 := h3.1 (by
    intro k a
    simp [NlSpec.docStates, NlSpec.stateAt, NlSpec.cfgOf, opsW37, NlSpec.Cfg.step, NlSpec.Cfg.fresh])
  have h5 := h4 (0 : Fin 1) (0 : Fin 1)
  simp [NlSpec.codeStates, NlSpec.cfgOf, opsW37, NlSpec.Cfg.step, NlSpec.Cfg.fresh] at h5

/-! ### Non-vacuity: two states (scalings 2 and 1), one scaled input, continuous affine model -/

/-- `ẋ₁ = x₂ + k`, `ẋ₂ = u`, state scaling (2, 1), input scaling 5, measured state (0, 1) -/
def opsV37 : List (NlOp dV ℚ) :=
  [.stateScaling ⟨2, fun a => if a = 0 then 2 else 1⟩, .inputScaling ⟨1, fun _ => 5⟩,
   .stateFn (fun x u k a => if (a : Nat) = 0 then x (1 : Fin 2) + k else u (0 : Fin 1)),
   .measure ⟨2, fun a => if a = 0 then 0 else 1⟩]

theorem opsV37_fits : ∀ o ∈ opsV37, NlSpec.OpFits dV o := by
  intro o ho
  simp only [opsV37, List.mem_cons, List.not_mem_nil, or_false] at ho
  rcases ho with rfl | rfl | rfl | rfl <;> simp [NlSpec.OpFits]

/-- the hypotheses of the C37 and C38 theorems are met together -/
example : ∃ s F x0 c0 A B, NlState.run dV (fun _ => (0 : ℚ)) true (1 / 10) opsV37 = .ok s ∧
    (NlSpec.cfgOf dV true (1 / 10 : ℚ) opsV37).field = some F ∧
    (NlSpec.cfgOf dV true (1 / 10 : ℚ) opsV37).x0 = some x0 ∧ x0 1 = 1 ∧
    (∀ a, a < dV.nx → (NlSpec.cfgOf dV true (1 / 10 : ℚ) opsV37).stScale a ≠ 0) ∧
    (∀ a, a < dV.nx → (NlSpec.cfgOf dV true (1 / 10 : ℚ) opsV37).stScale a = 1 ∨ x0 a = 0) ∧
    NlSpec.AffineModel F c0 A B := by
  obtain ⟨s, hs⟩ := NlState.run_setters (d := dV) dV_ok.ch_pos dV_ok.ch_le dV_ok.ph_int (fun _ => (0 : ℚ)) true
    (1 / 10) opsV37 opsV37_fits (by
      intro o ho
      simp only [opsV37, List.mem_cons, List.not_mem_nil, or_false] at ho
      rcases ho with rfl | rfl | rfl | rfl <;> trivial)
  refine ⟨s, _, _, fun k a => if a = 0 then (k : ℚ) else 0, fun _ r a => if r = 0 ∧ a = 1 then 1 else 0,
    fun _ r _ => if r = 1 then 1 else 0, hs, rfl, rfl, rfl, ?_, ?_, ?_⟩
  · intro a _
    simp only [NlSpec.cfgOf, opsV37, List.foldl, NlSpec.Cfg.step]
    split_ifs <;> norm_num
  · intro a ha
    have : a = 0 ∨ a = 1 := by simp at ha; omega
    rcases this with rfl | rfl
    · right; rfl
    · left; rfl
  · intro x u k r
    have : r = (0 : Fin 2) ∨ r = (1 : Fin 2) := by
      match r with
      | ⟨0, _⟩ => left; rfl
      | ⟨1, _⟩ => right; rfl
    rcases this with rfl | rfl
    · simp [Fin.sum_univ_succ]; ring
    · simp

end Mpc.Props
