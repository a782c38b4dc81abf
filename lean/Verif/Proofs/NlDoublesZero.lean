import Verif.Proofs.NlStartDoubles

/-
The derivatives of the state equations on doubles when the state scaling contains zeros: the rows of the components with scaling zero
are not numbers (their inverse scaling is infinite).
-/
namespace Mpc.Dbl
open Exec NlSpec
set_option linter.unusedSectionVars false

variable {d : Dims} {K : Type} [Field K] [LinearOrder K] [IsStrictOrderedRing K]

/-- zero scaling of component `r`: not a number -/
def Spoilt (st : Nat → K) (_k r _a : Nat) (v : Flt K) : Prop := st r = 0 → ¬ IsNumber v

/-- no claim -/
def AnyV (_k _r _a : Nat) (_v : Flt K) : Prop := True

theorem spoilt_mul {x : Flt K} (h : ¬ IsNumber x) (y : Flt K) : ¬ IsNumber (x * y) := by
  rintro ⟨z, e⟩
  rcases x with _ | (_ | x | _)
  · cases e
  · rcases y with _ | (_ | y | _)
    · cases e
    · cases e
    · change Flt.infTimes _ _ = _ at e
      unfold Flt.infTimes at e
      split_ifs at e <;> cases e
    · cases e
  · exact h ⟨_, rfl⟩
  · exact inf_mul y ⟨z, e⟩

theorem inv_mul {n m : Nat} {mp : Mapping K} (hs : mp.invStateScaling.size = n) (A : Mat (Flt K)) (hA : A.Is n m) :
    Post (mp.invScalingF.mul A) (fun B => B.Is n m ∧
      ∀ r a, r < n → mp.stateScaling.get r = 0 → ¬ IsNumber (B.get r a)) := by
  rw [Mat.mul_ok (by simp only [Mapping.invScalingF]; rw [hs, hA.1])]
  refine post_ok ⟨⟨hs, hA.2⟩, ?_⟩
  intro r a hr h0 hn
  have := number_sum.1 hn r (by simp only [Mapping.invScalingF]; omega)
  simp only [Mapping.invScalingF, if_pos h0, if_true] at this
  exact inf_mul _ this

theorem inv_smul_mul {n m : Nat} {mp : Mapping K} (h : K) (hs : mp.invStateScaling.size = n) (A : Mat (Flt K)) (hA : A.Is n m) :
    Post ((mp.invScalingF.smul (Flt.fin h)).mul A) (fun B => B.Is n m ∧
      ∀ r a, r < n → mp.stateScaling.get r = 0 → ¬ IsNumber (B.get r a)) := by
  rw [Mat.mul_ok (by simp only [Mapping.invScalingF, Mat.smul]; rw [hs, hA.1])]
  refine post_ok ⟨⟨hs, hA.2⟩, ?_⟩
  intro r a hr h0 hn
  have := number_sum.1 hn r (by simp only [Mapping.invScalingF, Mat.smul]; omega)
  simp only [Mapping.invScalingF, Mat.smul, if_pos h0, if_true] at this
  exact spoilt_mul (fun hh => inf_mul (Flt.fin h) (by rw [mul_fin_comm]; exact hh)) _ this

/-- a row which is not a number stays one after a product from the right -/
theorem mul_spoilt {n m w : Nat} (A B : Mat (Flt K)) (hA : A.Is n m) (hB : B.Is m w) (hm : 0 < m) :
    Post (A.mul B) (fun C => C.Is n w ∧ ∀ r a, (∀ l, l < m → ¬ IsNumber (A.get r l)) → ¬ IsNumber (C.get r a)) := by
  rw [Mat.mul_ok (by rw [hA.2, hB.1])]
  refine post_ok ⟨⟨hA.1, hB.2⟩, ?_⟩
  intro r a h hn
  have := number_sum.1 hn 0 (by rw [hA.2]; exact hm)
  exact spoilt_mul (h 0 hm) _ this

theorem stateEq_zero (mp : Mapping K) (hm : mp.Good) (hd : mp.dims = d) (F : DoubleFns d K) (cont : Bool) (Ts : K)
    (junk : Nat → Flt K) (X U : Mat K) (hX : X.Is (d.ph + 1) d.nx) (hU : U.Is (d.ph + 1) d.nu) (hp : d.ph < 2 ^ 31) :
    Post (Constraints.getStateEqConstraintsF mp F cont Ts junk X U true) (fun r => r.2.Is d.nZ (d.ph * d.nx) ∧
      ∃ Jx Jm : Mat (Flt K),
        (∀ k r k' a, k < d.ph → k' + 1 = k → r < d.nx → a < d.nx → mp.stateScaling.get r = 0 →
          ¬ IsNumber (Jx.get (k * d.nx + r) (k' * d.nx + a))) ∧
        (∀ k r b, k < d.ph → r < d.nx → b < d.nu → mp.stateScaling.get r = 0 →
          ¬ IsNumber (Jm.get (k * d.nx + r) (k * d.nu + b))) ∧
        Glued mp (d.ph * d.nx) Jx Jm (Vec.const (d.ph * d.nx) 0) r.2) := by
  subst hd
  have hst := hm.stsz
  have hsi := hm.invsz
  unfold Constraints.getStateEqConstraintsF
  dsimp only
  refine Post.bind (Q := Acc mp.dims (fun k a => (resid F cont Ts X U k a).divBy (mp.stateScaling.get a))
    (Spoilt mp.stateScaling.get) AnyV (Spoilt mp.stateScaling.get) true mp.dims.ph) ?_ ?_
  · have h0 : ∀ (v : Nat → Nat → Flt K) (P Q R : Nat → Nat → Nat → Flt K → Prop), Acc mp.dims v P Q R true 0
        ((0 : Nat), Vec.const (mp.dims.ph * mp.dims.nx) 0, Mat.const (mp.dims.ph * mp.dims.nx) (mp.dims.ph * mp.dims.nx) 0,
          Mat.const (mp.dims.ph * mp.dims.nx) (mp.dims.ph * mp.dims.nu) 0) := fun v P Q R =>
      ⟨by simp, rfl, fun _ _ h => by omega, ⟨rfl, rfl⟩, ⟨rfl, rfl⟩, fun _ _ _ _ h => by omega, fun _ _ _ _ _ h => by omega,
        fun _ _ _ _ _ _ _ _ => rfl, fun _ _ _ _ h => by omega, fun _ _ _ _ _ _ _ _ => rfl⟩
    cases cont with
    | true =>
      simp only [if_true]
      refine forRange_post _ _ _ (Acc mp.dims _ _ _ _ true) (h0 _ _ _ _) ?_
      rintro i ⟨ic, c, Jx, Jm⟩ hi hacc
      unfold Constraints.stepContinuousF
      have hic := hacc.ic
      have hsz := hacc.sz
      have hjx := hacc.jx
      have hjm := hacc.jm
      dsimp only at hic hsz hjx hjm ⊢
      subst hic
      have hend : i * mp.dims.nx + mp.dims.nx ≤ mp.dims.ph * mp.dims.nx := block_end_le hi
      have hu1 : (Constraints.rowV U i).size = mp.dims.nu := hU.2
      have hx1 : (Constraints.rowV X i).size = mp.dims.nx := hX.2
      have hx2 : (Constraints.rowV X (i + 1)).size = mp.dims.nx := hX.2
      rw [Constraints.rowV_ok (by rw [hU.1]; omega), ok_bind, Constraints.rowV_ok (by rw [hX.1]; omega), ok_bind,
        Constraints.rowV_ok (by rw [hX.1]; omega), ok_bind, callState_ok F _ _ _ hx1 hu1, ok_bind,
        callState_ok F _ _ _ hx2 hu1, ok_bind, toUnsigned_of_lt (by omega),
        Vec.add_ok (by rfl), ok_bind, Vec.add_ok (by simp only [Vec.smul, Vec.to, Vec.ofF_size]; exact hx1), ok_bind,
        Vec.add_ok (by simp only [Vec.neg, Vec.to]; rw [hx1, hx2]), ok_bind]
      refine ceq_write c mp.stateScaling i mp.dims.nx (mp.dims.ph * mp.dims.nx) _ _ _ hst hx1 hsz hend ?_
      intro c' hc'1 hc'2
      have hval : ∀ k r, r < mp.dims.nx → c'.get (k * mp.dims.nx + r)
          = if k = i then (resid F true Ts X U i r).divBy (mp.stateScaling.get r) else c.get (k * mp.dims.nx + r) := by
        intro k r hr
        rw [hc'2 k r hr]
        simp only [Vec.smul, Vec.neg, Vec.to, resid, if_true, Constraints.rowV]
      simp only [if_true]
      refine Post.bind (computeStateEqJacobian_post F _ _ _ hx1 hu1) ?_
      rintro ⟨A, B⟩ ⟨hA, hB, -, -⟩
      dsimp only at hA hB ⊢
      refine Post.bind (computeStateEqJacobian_post F _ _ _ hx2 hu1) ?_
      rintro ⟨A1, B1⟩ ⟨hA1, hB1, -, -⟩
      dsimp only at hA1 hB1 ⊢
      refine Post.bind (Q := fun J' : Mat (Flt K) => J'.Is (mp.dims.ph * mp.dims.nx) (mp.dims.ph * mp.dims.nx) ∧
        (∀ r k' a, k' + 1 = i → r < mp.dims.nx → a < mp.dims.nx → Spoilt mp.stateScaling.get i r a
          (J'.get (i * mp.dims.nx + r) (k' * mp.dims.nx + a))) ∧
        ∀ k r k' a, ¬ (k = i ∧ k' + 1 = i) → r < mp.dims.nx → a < mp.dims.nx → J'.get (k * mp.dims.nx + r) (k' * mp.dims.nx + a)
          = Jx.get (k * mp.dims.nx + r) (k' * mp.dims.nx + a)) ?_ ?_
      · unfold Constraints.setPrevBlockF
        by_cases hpos : 0 < i
        · rw [if_pos hpos]
          simp only [bind_assoc]
          refine Post.bind (inv_smul_mul (Ts / 2) hsi A hA) ?_
          rintro T ⟨hT, hT2⟩
          by_cases hnx : 0 < mp.dims.nx
          · refine Post.bind (mul_spoilt T _ hT ⟨hst, hst⟩ hnx) ?_
            rintro T' ⟨hT', hT'2⟩
            rw [Mat.add_ok (by simp only [Mat.identity]; rw [hT'.1]) (by simp only [Mat.identity]; rw [hT'.2]), ok_bind]
            refine (block_write Jx _ i (i - 1) hi (by omega) hjx ⟨rfl, rfl⟩).mono ?_
            rintro J' ⟨q1, q2⟩
            refine ⟨q1, ?_, ?_⟩
            · intro r k' a hk' hr ha h0
              rw [q2 i r k' a hr ha, if_pos (show i = i ∧ k' = i - 1 from ⟨rfl, by omega⟩)]
              dsimp only
              rw [number_add]
              exact fun hh => hT'2 r a (fun l _ => hT2 r l hr h0) hh.2
            · intro k r k' a hne hr ha
              rw [q2 k r k' a hr ha, if_neg (by omega)]
          · refine Post.bind (mul_diag mp.stateScaling hst T hT) ?_
            rintro T' ⟨hT', -⟩
            rw [Mat.add_ok (by simp only [Mat.identity]; rw [hT'.1]) (by simp only [Mat.identity]; rw [hT'.2]), ok_bind]
            refine (block_write Jx _ i (i - 1) hi (by omega) hjx ⟨rfl, rfl⟩).mono ?_
            rintro J' ⟨q1, q2⟩
            exact ⟨q1, fun r k' a _ hr => by omega, fun k r k' a _ hr => by omega⟩
        · rw [if_neg hpos]
          refine post_pure ⟨hjx, ?_, ?_⟩
          · intro r k' a hk'; omega
          · intro k r k' a _ _ _; rfl
      · rintro Jx1 ⟨hJx1, hP1, hJx12⟩
        refine Post.bind (inv_smul_mul (Ts / 2) hsi A1 hA1) ?_
        rintro T ⟨hT, -⟩
        refine Post.bind (mul_diag mp.stateScaling hst T hT) ?_
        rintro T' ⟨hT', -⟩
        rw [Mat.add_ok (by simp only [Mat.identity, Mat.neg]; rw [hT'.1])
          (by simp only [Mat.identity, Mat.neg]; rw [hT'.2]), ok_bind]
        refine Post.bind (block_write Jx1 _ i i hi hi hJx1 ⟨rfl, rfl⟩) ?_
        rintro Jx2 ⟨hJx2, hJx22⟩
        rw [Mat.add_ok (by rw [hB.1, hB1.1]) (by rw [hB.2, hB1.2]), ok_bind]
        refine Post.bind (inv_smul_mul (Ts / 2) hsi _ ⟨hB.1, hB.2⟩) ?_
        rintro S ⟨hS, hS2⟩
        refine Post.bind (block_write Jm S i i hi hi hjm hS) ?_
        rintro Jm1 ⟨hJm1, hJm12⟩
        refine post_pure (hacc.step hc'1 hval hJx2 hJm1 ?_ ?_ ?_ ?_ ?_)
        · intro _ r a _ _; trivial
        · intro _ r k' a hk' hr ha
          rw [hJx22 i r k' a hr ha, if_neg (by omega)]
          exact hP1 r k' a hk' hr ha
        · intro _ k r k' a hne hr ha
          rw [hJx22 k r k' a hr ha, if_neg (by omega), hJx12 k r k' a (by omega) hr ha]
        · intro _ r b hr hb h0
          rw [hJm12 i r i b hr hb, if_pos ⟨rfl, rfl⟩]
          exact hS2 r b hr h0
        · intro _ k r k' b hne hr hb
          rw [hJm12 k r k' b hr hb, if_neg (by omega)]
    | false =>
      simp only [Bool.false_eq_true, if_false]
      refine forRange_post _ _ _ (Acc mp.dims _ _ _ _ true) (h0 _ _ _ _) ?_
      rintro i ⟨ic, c, Jx, Jm⟩ hi hacc
      unfold Constraints.stepDiscreteF
      have hic := hacc.ic
      have hsz := hacc.sz
      have hjx := hacc.jx
      have hjm := hacc.jm
      dsimp only at hic hsz hjx hjm ⊢
      subst hic
      have hend : i * mp.dims.nx + mp.dims.nx ≤ mp.dims.ph * mp.dims.nx := block_end_le hi
      have hu1 : (Constraints.rowV U i).size = mp.dims.nu := hU.2
      have hx1 : (Constraints.rowV X i).size = mp.dims.nx := hX.2
      have hx2 : (Constraints.rowV X (i + 1)).size = mp.dims.nx := hX.2
      rw [Constraints.rowV_ok (by rw [hU.1]; omega), ok_bind, Constraints.rowV_ok (by rw [hX.1]; omega), ok_bind,
        callState_ok F _ _ _ hx1 hu1, ok_bind,
        Constraints.rowV_ok (by rw [hX.1]; omega), ok_bind, toUnsigned_of_lt (by omega),
        Vec.add_ok (by simp only [Vec.neg, Vec.to, Vec.ofF_size]; exact hx2), ok_bind]
      refine ceq_write c mp.stateScaling i mp.dims.nx (mp.dims.ph * mp.dims.nx) _ _ _ hst hx2 hsz hend ?_
      intro c' hc'1 hc'2
      have hval : ∀ k r, r < mp.dims.nx → c'.get (k * mp.dims.nx + r)
          = if k = i then (resid F false Ts X U i r).divBy (mp.stateScaling.get r) else c.get (k * mp.dims.nx + r) := by
        intro k r hr
        rw [hc'2 k r hr]
        simp only [Vec.neg, Vec.to, resid, Constraints.rowV, Bool.false_eq_true, if_false]
      simp only [if_true]
      refine Post.bind (computeStateEqJacobian_post F _ _ _ hx1 hu1) ?_
      rintro ⟨A, B⟩ ⟨hA, hB, -, -⟩
      dsimp only at hA hB ⊢
      refine Post.bind (inv_mul hsi A hA) ?_
      rintro T ⟨hT, hT2⟩
      refine Post.bind (Q := fun T' : Mat (Flt K) => T'.Is mp.dims.nx mp.dims.nx ∧
        ∀ r a, r < mp.dims.nx → mp.stateScaling.get r = 0 → ¬ IsNumber (T'.get r a)) ?_ ?_
      · by_cases hnx : 0 < mp.dims.nx
        · refine (mul_spoilt T _ hT ⟨hst, hst⟩ hnx).mono ?_
          rintro T' ⟨hT', hT'2⟩
          exact ⟨hT', fun r a hr h0 => hT'2 r a fun l _ => hT2 r l hr h0⟩
        · refine (mul_diag mp.stateScaling hst T hT).mono ?_
          rintro T' ⟨hT', -⟩
          exact ⟨hT', fun r a hr => by omega⟩
      rintro T' ⟨hT', hT'2⟩
      refine Post.bind (inv_mul hsi B hB) ?_
      rintro S ⟨hS, hS2⟩
      refine Post.bind (block_write Jx _ i i hi hi hjx ⟨rfl, rfl⟩) ?_
      rintro Jx1 ⟨hJx1, hJx12⟩
      refine Post.bind (Q := fun J' : Mat (Flt K) => J'.Is (mp.dims.ph * mp.dims.nx) (mp.dims.ph * mp.dims.nx) ∧
        (∀ r k' a, k' + 1 = i → r < mp.dims.nx → a < mp.dims.nx → Spoilt mp.stateScaling.get i r a
          (J'.get (i * mp.dims.nx + r) (k' * mp.dims.nx + a))) ∧
        ∀ k r k' a, ¬ (k = i ∧ k' + 1 = i) → r < mp.dims.nx → a < mp.dims.nx → J'.get (k * mp.dims.nx + r) (k' * mp.dims.nx + a)
          = Jx1.get (k * mp.dims.nx + r) (k' * mp.dims.nx + a)) ?_ ?_
      · unfold Constraints.setPrevBlockF
        by_cases hpos : 0 < i
        · rw [if_pos hpos]
          simp only [pure_bind']
          refine (block_write Jx1 T'.neg i (i - 1) hi (by omega) hJx1 hT').mono ?_
          rintro J' ⟨q1, q2⟩
          refine ⟨q1, ?_, ?_⟩
          · intro r k' a hk' hr ha h0
            rw [q2 i r k' a hr ha, if_pos (show i = i ∧ k' = i - 1 from ⟨rfl, by omega⟩)]
            simp only [Mat.neg]
            rw [number_neg]
            exact hT'2 r a hr h0
          · intro k r k' a hne hr ha
            rw [q2 k r k' a hr ha, if_neg (by omega)]
        · rw [if_neg hpos]
          refine post_pure ⟨hJx1, ?_, ?_⟩
          · intro r k' a hk'; omega
          · intro k r k' a _ _ _; rfl
      · rintro Jx2 ⟨hJx2, hP2, hJx22⟩
        refine Post.bind (block_write Jm S.neg i i hi hi hjm hS) ?_
        rintro Jm1 ⟨hJm1, hJm12⟩
        refine post_pure (hacc.step hc'1 hval hJx2 hJm1 ?_ ?_ ?_ ?_ ?_)
        · intro _ r a _ _; trivial
        · intro _ r k' a hk' hr ha
          exact hP2 r k' a hk' hr ha
        · intro _ k r k' a hne hr ha
          rw [hJx22 k r k' a (by omega) hr ha, hJx12 k r k' a hr ha, if_neg (by omega)]
        · intro _ r b hr hb h0
          rw [hJm12 i r i b hr hb, if_pos ⟨rfl, rfl⟩]
          simp only [Mat.neg]
          rw [number_neg]
          exact hS2 r b hr h0
        · intro _ k r k' b hne hr hb
          rw [hJm12 k r k' b hr hb, if_neg (by omega)]
  · rintro ⟨ic, c, Jx, Jm⟩ hacc
    have hjx := hacc.jx
    have hjm := hacc.jm
    dsimp only at hjx hjm ⊢
    simp only [if_true]
    refine Post.bind (glueJacobian_post mp hm rfl junk (mp.dims.ph * mp.dims.nx)
      (Mat.const mp.dims.nZ (mp.dims.ph * mp.dims.nx) 0) Jx Jm _ ⟨rfl, rfl⟩ hjx hjm rfl) ?_
    intro G hG
    exact post_pure ⟨hG.is, Jx, Jm, fun k r k' a hk hk' hr ha => hacc.prev rfl k r k' a hk hk' hr ha,
      fun k r b hk hr hb => hacc.inp rfl k r b hk hr hb, hG⟩

theorem evalDyn_zero (o : Constraints d K) (ho : o.Sized) (mp : Mapping K) (hm : mp.Good) (hd : mp.dims = d) (F : DoubleFns d K)
    (cont : Bool) (Ts : K) (junk : Nat → Flt K) (x : Vec K) (hx : x.size = d.nZ) (hp : d.ph < 2 ^ 31) :
    Post (o.evaluateStateModelEqF mp F cont Ts x true junk) (fun r => ∀ k r0, k < d.ph → r0 < d.nx → mp.stateScaling.get r0 = 0 →
      (∀ j b, j < d.ch → b < d.nu → ¬ IsNumber (r.grad.get ((k * d.nx + r0) * d.nZ + NlSpec.inputIx d j b))) ∧
      ∀ k' a, k' + 1 = k → a < d.nx → ¬ IsNumber (r.grad.get ((k * d.nx + r0) * d.nZ + NlSpec.stateIx d k' a))) := by
  subst hd
  have hch := hm.ch_pos
  have hle := hm.ch_le
  unfold Constraints.evaluateStateModelEqF
  refine Post.bind (Mapping.unwrapVector_post mp hm x o.x0 o.Xmat o.Umat hx ho.x0 ho.X.1 ho.X.2 ho.U.1 ho.U.2) ?_
  rintro ⟨X, U, e⟩ hw
  have hXs : X.Is (mp.dims.ph + 1) mp.dims.nx := ⟨hw.xr, hw.xc⟩
  have hUs : U.Is (mp.dims.ph + 1) mp.dims.nu := ⟨hw.ur, hw.uc⟩
  dsimp only
  refine Post.bind (stateEq_zero mp hm rfl F cont Ts junk X U hXs hUs hp) ?_
  rintro ⟨c, J⟩ ⟨h3, Jx, Jm, hP, hR, hG⟩
  dsimp only at h3 hG ⊢
  refine post_pure ?_
  intro k r hk hr h0
  have hc : k * mp.dims.nx + r < mp.dims.ph * mp.dims.nx := block_lt hr hk
  refine ⟨?_, ?_⟩
  · intro j b hj hb
    have h := (hG.inputs _ j ⟨b, hb⟩ hc hj).spoiled (⟨k, hk⟩, ⟨b, hb⟩) (hR k r b hk hr hb h0)
    rw [dataVec_get h3 (inputIx_lt hj hb)]
    exact h
  · intro k' a hk' ha
    rw [dataVec_get h3 (stateIx_lt (by omega) ha), hG.states _ k' a hc (by omega) ha]
    exact hP k r k' a hk hk' hr ha h0

end Mpc.Dbl
