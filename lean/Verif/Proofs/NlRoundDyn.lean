import Verif.Proofs.NlRoundCalls
import Verif.Proofs.NlDetermined

/-
The state-equation constraints handed to the solver in rounded arithmetic.
-/
namespace Mpc
open Exec
set_option linter.unusedSectionVars false

variable {d : Dims} {K : Type} [Field K] [LinearOrder K] [IsStrictOrderedRing K] (R : Rounding K)

theorem Vec.viewF_setRaw_addR (x : Vec K) (n i : Nat) (t : K) :
    (x.setRaw i (R.rnd (x.get i + t))).viewF n = NlSpec.bumpVR R.rnd (x.viewF n) i t := by
  funext a
  simp only [Vec.viewF, Vec.setRaw, NlSpec.bumpVR]
  split_ifs with h
  · rw [h]
  · rfl

theorem Vec.addR_ok {v w : Vec K} (h : v.size = w.size) :
    v.addR R.rnd w = .ok ⟨v.size, fun i => R.rnd (v.get i + w.get i)⟩ := by
  simp [Vec.addR, require_ok h]

theorem Mat.addR_ok {m n : Mat K} (h : m.rows = n.rows) (h2 : m.cols = n.cols) :
    m.addR R.rnd n = .ok ⟨m.rows, m.cols, fun i j => R.rnd (m.get i j + n.get i j)⟩ := by
  simp [Mat.addR, require, h, h2]

namespace Constraints

/-- rounded central difference quotient of the model with respect to state component `a` -/
def dqXR (F : FVec d.nx K → FVec d.nu K → Nat → FVec d.nx K) (x u : Vec K) (p c a : Nat) : K :=
  R.rnd (R.rnd ((Vec.ofF (F (NlSpec.bumpVR R.rnd (x.viewF d.nx) a (R.rnd (R.rnd dv * x.absMax1.get a))) (u.viewF d.nu) p)).get c
    - (Vec.ofF (F (NlSpec.bumpVR R.rnd (x.viewF d.nx) a (-R.rnd (R.rnd dv * x.absMax1.get a))) (u.viewF d.nu) p)).get c)
    / R.rnd (2 * R.rnd (R.rnd dv * x.absMax1.get a)))

/-- rounded central difference quotient of the model with respect to input component `b` -/
def dqUR (F : FVec d.nx K → FVec d.nu K → Nat → FVec d.nx K) (x u : Vec K) (p c b : Nat) : K :=
  R.rnd (R.rnd ((Vec.ofF (F (x.viewF d.nx) (NlSpec.bumpVR R.rnd (u.viewF d.nu) b (R.rnd (R.rnd dv * u.absMax1.get b))) p)).get c
    - (Vec.ofF (F (x.viewF d.nx) (NlSpec.bumpVR R.rnd (u.viewF d.nu) b (-R.rnd (R.rnd dv * u.absMax1.get b))) p)).get c)
    / R.rnd (2 * R.rnd (R.rnd dv * u.absMax1.get b)))

theorem computeStateEqJacobianR_post (M : NlModel d K) (f : StateFn d K) (hf : M.vectorField = some f)
    (F : FVec d.nx K → FVec d.nu K → Nat → FVec d.nx K) (hF : NlSpec.FillsS f F) (junk : Nat → K)
    (x u : Vec K) (p : Nat) (hx : x.size = d.nx) (hu : u.size = d.nu) :
    Post (computeStateEqJacobianR R.rnd M junk x u p) (fun r => r.1.Is d.nx d.nx ∧ r.2.Is d.nx d.nu ∧
      (∀ c a, a < d.nx → r.1.get c a = dqXR R F x u p c a) ∧ (∀ c b, b < d.nu → r.2.get c b = dqUR R F x u p c b)) := by
  unfold computeStateEqJacobianR
  dsimp only
  refine Post.bind (Q := fun J : Mat K => J.Is d.nx d.nx ∧ ∀ c a, a < d.nx → J.get c a = dqXR R F x u p c a) ?_ ?_
  · refine forRange_post d.nx _ _ (fun i (J : Mat K) => J.Is d.nx d.nx ∧ ∀ c a, a < i → J.get c a = dqXR R F x u p c a)
      ⟨⟨rfl, rfl⟩, fun _ _ h => by omega⟩ ?_
    rintro i J hi ⟨⟨j1, j2⟩, j3⟩
    rw [Vec.at_ok (by simp only [Vec.absMax1]; omega), ok_bind, Vec.at_ok (by omega), ok_bind, Vec.set_ok (by omega),
      ok_bind, ok_bind, sub_eq_add_neg, Vec.set_ok (by omega), ok_bind,
      M.callState_ok f hf F hF _ _ u p (by exact hx) hu, ok_bind,
      M.callState_ok f hf F hF _ _ u p (by exact hx) hu, ok_bind]
    rw [Vec.subDivR_ok (by rfl), ok_bind, Mat.setCol_ok (by omega) (by simp only [Vec.ofF_size]; omega)]
    refine post_ok ⟨⟨j1, j2⟩, ?_⟩
    intro c a ha
    simp only [Mat.setColRaw]
    by_cases he : a = i
    · subst he
      rw [if_pos rfl, Vec.viewF_setRaw_addR, Vec.viewF_setRaw_addR]
      rfl
    · rw [if_neg he]; exact j3 c a (by omega)
  · rintro Jx ⟨hJx, hJx2⟩
    refine Post.bind (Q := fun J : Mat K => J.Is d.nx d.nu ∧ ∀ c b, b < d.nu → J.get c b = dqUR R F x u p c b) ?_ ?_
    · refine forRange_post d.nu _ _ (fun i (J : Mat K) => J.Is d.nx d.nu ∧ ∀ c a, a < i → J.get c a = dqUR R F x u p c a)
        ⟨⟨rfl, rfl⟩, fun _ _ h => by omega⟩ ?_
      rintro i J hi ⟨⟨j1, j2⟩, j3⟩
      rw [Vec.at_ok (by simp only [Vec.absMax1]; omega), ok_bind, Vec.at_ok (by omega), ok_bind, Vec.set_ok (by omega),
        ok_bind, ok_bind, sub_eq_add_neg, Vec.set_ok (by omega), ok_bind,
        M.callState_ok f hf F hF _ x _ p hx (by exact hu), ok_bind,
        M.callState_ok f hf F hF _ x _ p hx (by exact hu), ok_bind]
      rw [Vec.subDivR_ok (by rfl), ok_bind, Mat.setCol_ok (by omega) (by simp only [Vec.ofF_size]; omega)]
      refine post_ok ⟨⟨j1, j2⟩, ?_⟩
      intro c a ha
      simp only [Mat.setColRaw]
      by_cases he : a = i
      · subst he
        rw [if_pos rfl, Vec.viewF_setRaw_addR, Vec.viewF_setRaw_addR]
        rfl
      · rw [if_neg he]; exact j3 c a (by omega)
    · rintro Jm ⟨hJm, hJm2⟩
      exact post_pure ⟨hJx, hJm, hJx2, hJm2⟩

/-- writing the residual of one step -/
theorem ceq_writeR {β : Type} (ceq s : Vec K) (i nx n : Nat) (v : Vec K) (cont : Vec K → Exec β) (Q : β → Prop)
    (hs : s.size = nx) (hv : v.size = nx) (hsz : ceq.size = n) (hend : i * nx + nx ≤ n)
    (hk : ∀ c' : Vec K, c'.size = n → (∀ k r, r < nx → c'.get (k * nx + r)
      = if k = i then R.rnd (v.get r / s.get r) else ceq.get (k * nx + r)) → Post (cont c') Q) :
    Post (do
      let ceq ← ceq.setSeg (i * nx) nx v
      let v ← (← ceq.seg (i * nx) nx).cwiseDivR R.rnd s
      let c' ← ceq.setSeg (i * nx) nx v
      cont c') Q := by
  rw [Vec.setSeg_ok (by omega) hv, ok_bind, Vec.seg_ok (by simp only [Vec.setSegRaw]; omega), ok_bind]
  unfold Vec.cwiseDivR
  rw [require_ok (by dsimp only; omega), ok_bind, pure_bind',
    Vec.setSeg_ok (by simp only [Vec.setSegRaw]; omega) (by rfl), ok_bind]
  refine hk _ hsz ?_
  intro k r hr
  simp only [Vec.setSegRaw, block_mem_iff hr]
  by_cases he : k = i
  · subst he
    have hin : k * nx ≤ k * nx + (k * nx + r - k * nx) ∧ k * nx + (k * nx + r - k * nx) < k * nx + nx := by omega
    rw [if_pos rfl, if_pos rfl, if_pos hin]
    simp
  · rw [if_neg he, if_neg he, if_neg he]

theorem diag_mulR {n m : Nat} (s : Vec K) (h : K) (hs : s.size = n) (A : Mat K) (hA : A.Is n m) :
    Post ((s.asDiagonal.smulR R.rnd h).mulR R.rnd A) (fun B => B.Is n m ∧ ∀ r a, r < n →
      B.get r a = R.rnd (R.rnd (h * s.get r) * A.get r a)) := by
  rw [Mat.mulR_ok (by simp only [Mat.smulR, Vec.asDiagonal]; rw [hs, hA.1])]
  refine post_ok ⟨⟨hs, hA.2⟩, ?_⟩
  intro r a hr
  simp only [Mat.smulR, Vec.asDiagonal]
  rw [sumToR_single R _ r (by omega), if_pos rfl, R.idem]
  intro k _ hk; rw [if_neg (fun e => hk e.symm), mul_zero, R.zero, zero_mul, R.zero]

theorem diag_mul1R {n m : Nat} (s : Vec K) (hs : s.size = n) (A : Mat K) (hA : A.Is n m) :
    Post (s.asDiagonal.mulR R.rnd A) (fun B => B.Is n m ∧ ∀ r a, r < n → B.get r a = R.rnd (s.get r * A.get r a)) := by
  rw [Mat.mulR_ok (by simp only [Vec.asDiagonal]; rw [hs, hA.1])]
  refine post_ok ⟨⟨hs, hA.2⟩, ?_⟩
  intro r a hr
  simp only [Vec.asDiagonal]
  rw [sumToR_single R _ r (by omega), if_pos rfl, R.idem]
  intro k _ hk; rw [if_neg (fun e => hk e.symm), zero_mul, R.zero]

theorem mul_diagR {n m : Nat} (s : Vec K) (hs : s.size = m) (A : Mat K) (hA : A.Is n m) :
    Post (A.mulR R.rnd s.asDiagonal) (fun B => B.Is n m ∧ ∀ r a, a < m → B.get r a = R.rnd (A.get r a * s.get a)) := by
  rw [Mat.mulR_ok (by simp only [Vec.asDiagonal]; rw [hs, hA.2])]
  refine post_ok ⟨⟨hA.1, hs⟩, ?_⟩
  intro r a ha
  simp only [Vec.asDiagonal]
  rw [sumToR_single R _ a (by rw [hA.2]; exact ha), if_pos rfl, R.idem]
  intro k _ hk; rw [if_neg hk, mul_zero, R.zero]

/-- residual of step `k`, unscaled, rounded -/
def residR (F : FVec d.nx K → FVec d.nu K → Nat → FVec d.nx K) (cont : Bool) (Ts : K) (X U : Mat K) (k r : Nat) : K :=
  if cont then
    R.rnd (R.rnd (X.get k r + R.rnd (R.rnd (Ts / 2) * R.rnd ((Vec.ofF (F ((rowV X k).viewF d.nx) ((rowV U k).viewF d.nu) k)).get r
      + (Vec.ofF (F ((rowV X (k + 1)).viewF d.nx) ((rowV U k).viewF d.nu) k)).get r))) - X.get (k + 1) r)
  else R.rnd (X.get (k + 1) r - (Vec.ofF (F ((rowV X k).viewF d.nx) ((rowV U k).viewF d.nu) k)).get r)

/-- Jacobian block of step `k` with respect to the state of step `k`, rounded -/
def blkPR (F : FVec d.nx K → FVec d.nu K → Nat → FVec d.nx K) (cont : Bool) (Ts : K) (s si : Nat → K) (X U : Mat K)
    (k r a : Nat) : K :=
  if cont then R.rnd ((if r = a then 1 else 0)
    + R.rnd (R.rnd (R.rnd (R.rnd (Ts / 2) * si r) * dqXR R F (rowV X k) (rowV U k) k r a) * s a))
  else -R.rnd (R.rnd (si r * dqXR R F (rowV X k) (rowV U k) k r a) * s a)

/-- Jacobian block of step `k` with respect to the state of step `k + 1`, rounded -/
def blkQR (F : FVec d.nx K → FVec d.nu K → Nat → FVec d.nx K) (cont : Bool) (Ts : K) (s si : Nat → K) (X U : Mat K)
    (k r a : Nat) : K :=
  if cont then R.rnd (-(if r = a then 1 else 0)
    + R.rnd (R.rnd (R.rnd (R.rnd (Ts / 2) * si r) * dqXR R F (rowV X (k + 1)) (rowV U k) k r a) * s a))
  else (if r = a then 1 else 0)

/-- Jacobian block of step `k` with respect to the input of step `k`, rounded -/
def blkRR (F : FVec d.nx K → FVec d.nu K → Nat → FVec d.nx K) (cont : Bool) (Ts : K) (si : Nat → K) (X U : Mat K)
    (k r b : Nat) : K :=
  if cont then R.rnd (R.rnd (R.rnd (Ts / 2) * si r)
    * R.rnd (dqUR R F (rowV X k) (rowV U k) k r b + dqUR R F (rowV X (k + 1)) (rowV U k) k r b))
  else -R.rnd (si r * dqUR R F (rowV X k) (rowV U k) k r b)

theorem getStateEqConstraintsR_post (mp : Mapping K) (hm : mp.Good) (hd : mp.dims = d) (M : NlModel d K)
    (f : StateFn d K) (hf : M.vectorField = some f)
    (F : FVec d.nx K → FVec d.nu K → Nat → FVec d.nx K) (hF : NlSpec.FillsS f F) (junk : Nat → K) (X U : Mat K)
    (hX : X.Is (d.ph + 1) d.nx) (hU : U.Is (d.ph + 1) d.nu) (ceq : Vec K) (Jceq : Mat K)
    (hc : ceq.size = d.ph * d.nx) (hJ : Jceq.Is d.nZ (d.ph * d.nx)) (hp : d.ph < 2 ^ 31) (g : Bool) :
    Post (getStateEqConstraintsR R.rnd mp M junk X U ceq Jceq g) (fun r => r.1.size = d.ph * d.nx ∧
      (∀ k a, k < d.ph → a < d.nx → r.1.get (k * d.nx + a)
        = R.rnd (residR R F M.continuous M.Ts X U k a / mp.stateScaling.get a)) ∧
      r.2.Is d.nZ (d.ph * d.nx) ∧
      (if g then ∃ Jx Jm : Mat K,
        (∀ k r k' a, k < d.ph → r < d.nx → k' < d.ph → a < d.nx → Jx.get (k * d.nx + r) (k' * d.nx + a)
          = if k' = k then blkQR R F M.continuous M.Ts mp.stateScaling.get (mp.invStateScalingR R.rnd).get X U k r a
            else if k' + 1 = k then blkPR R F M.continuous M.Ts mp.stateScaling.get (mp.invStateScalingR R.rnd).get X U k r a
            else 0) ∧
        (∀ k r k' b, k < d.ph → r < d.nx → k' < d.ph → b < d.nu → Jm.get (k * d.nx + r) (k' * d.nu + b)
          = if k' = k then blkRR R F M.continuous M.Ts (mp.invStateScalingR R.rnd).get X U k r b else 0) ∧
        GluedR R.rnd mp (d.ph * d.nx) Jx Jm (Vec.const (d.ph * d.nx) 0) r.2
       else ∀ l c, r.2.get l c = 0)) := by
  subst hd
  have hst := hm.stsz
  have hsi : (mp.invStateScalingR R.rnd).size = mp.dims.nx := hm.invsz
  unfold getStateEqConstraintsR
  dsimp only
  refine Post.bind (Q := Acc mp.dims (fun k a => R.rnd (residR R F M.continuous M.Ts X U k a / mp.stateScaling.get a))
    (blkPR R F M.continuous M.Ts mp.stateScaling.get (mp.invStateScalingR R.rnd).get X U)
    (blkQR R F M.continuous M.Ts mp.stateScaling.get (mp.invStateScalingR R.rnd).get X U)
    (blkRR R F M.continuous M.Ts (mp.invStateScalingR R.rnd).get X U) g mp.dims.ph) ?_ ?_
  · have h0 : ∀ (v : Nat → Nat → K) (P Q S : Nat → Nat → Nat → K), Acc mp.dims v P Q S g 0
        ((0 : Nat), Vec.const ceq.size 0, Mat.const (mp.dims.ph * mp.dims.nx) (mp.dims.ph * mp.dims.nx) 0,
          Mat.const (mp.dims.ph * mp.dims.nx) (mp.dims.ph * mp.dims.nu) 0) := fun v P Q S =>
      ⟨by simp, hc, fun _ _ h => by omega, ⟨rfl, rfl⟩, ⟨rfl, rfl⟩,
        fun _ k r k' a _ _ _ => by rw [if_neg (by omega)]; rfl, fun _ k r k' a _ _ _ => by rw [if_neg (by omega)]; rfl⟩
    cases hcont : M.continuous with
    | true =>
      simp only [if_true]
      refine forRange_post _ _ _ (Acc mp.dims _ _ _ _ g) (h0 _ _ _ _) ?_
      rintro i ⟨ic, c, Jx, Jm⟩ hi hacc
      unfold stepContinuousR
      have hic := hacc.ic
      have hsz := hacc.sz
      have hjx := hacc.jx
      have hjm := hacc.jm
      dsimp only at hic hsz hjx hjm ⊢
      subst hic
      have hend : i * mp.dims.nx + mp.dims.nx ≤ mp.dims.ph * mp.dims.nx := block_end_le hi
      have hu1 : (rowV U i).size = mp.dims.nu := hU.2
      have hx1 : (rowV X i).size = mp.dims.nx := hX.2
      have hx2 : (rowV X (i + 1)).size = mp.dims.nx := hX.2
      rw [rowV_ok (by rw [hU.1]; omega), ok_bind, rowV_ok (by rw [hX.1]; omega), ok_bind,
        rowV_ok (by rw [hX.1]; omega), ok_bind, M.callState_ok f hf F hF _ _ _ _ hx1 hu1, ok_bind,
        M.callState_ok f hf F hF _ _ _ _ hx2 hu1, ok_bind, toUnsigned_of_lt (by omega),
        Vec.addR_ok R (by rfl), ok_bind, Vec.addR_ok R (by simp only [Vec.smulR, Vec.ofF_size]; exact hx1), ok_bind,
        Vec.addR_ok R (by simp only [Vec.neg]; rw [hx1, hx2]), ok_bind]
      refine ceq_writeR R c mp.stateScaling i mp.dims.nx (mp.dims.ph * mp.dims.nx) _ _ _ hst hx1 hsz hend ?_
      intro c' hc'1 hc'2
      have hval : ∀ k r, r < mp.dims.nx → c'.get (k * mp.dims.nx + r)
          = if k = i then R.rnd (residR R F true M.Ts X U i r / mp.stateScaling.get r) else c.get (k * mp.dims.nx + r) := by
        intro k r hr
        rw [hc'2 k r hr]
        simp only [Vec.smulR, Vec.neg, residR, if_true, rowV, sub_eq_add_neg]
      cases g with
      | false =>
        simp only [Bool.false_eq_true, if_false]
        exact post_pure (hacc.step hc'1 hval hjx hjm (fun h => by simp at h) (fun h => by simp at h))
      | true =>
        simp only [if_true]
        refine Post.bind (computeStateEqJacobianR_post R M f hf F hF junk _ _ _ hx1 hu1) ?_
        rintro ⟨A, B⟩ ⟨hA, hB, hA2, hB2⟩
        dsimp only at hA hB hA2 hB2 ⊢
        refine Post.bind (computeStateEqJacobianR_post R M f hf F hF junk _ _ _ hx2 hu1) ?_
        rintro ⟨A1, B1⟩ ⟨hA1, hB1, hA12, hB12⟩
        dsimp only at hA1 hB1 hA12 hB12 ⊢
        refine Post.bind (Q := fun J' : Mat K => J'.Is (mp.dims.ph * mp.dims.nx) (mp.dims.ph * mp.dims.nx) ∧
          ∀ k r k' a, r < mp.dims.nx → a < mp.dims.nx → J'.get (k * mp.dims.nx + r) (k' * mp.dims.nx + a)
            = if k = i ∧ k' + 1 = i
              then blkPR R F true M.Ts mp.stateScaling.get (mp.invStateScalingR R.rnd).get X U i r a
              else Jx.get (k * mp.dims.nx + r) (k' * mp.dims.nx + a)) ?_ ?_
        · unfold setPrevBlock
          by_cases hpos : 0 < i
          · rw [if_pos hpos]
            simp only [bind_assoc, pure_bind']
            refine Post.bind (diag_mulR R (mp.invStateScalingR R.rnd) (R.rnd (M.Ts / 2)) hsi A hA) ?_
            rintro T ⟨hT, hT2⟩
            refine Post.bind (mul_diagR R mp.stateScaling hst T hT) ?_
            rintro T' ⟨hT', hT'2⟩
            rw [Mat.addR_ok R (by simp only [Mat.identity]; rw [hT'.1]) (by simp only [Mat.identity]; rw [hT'.2]), ok_bind]
            refine (block_write Jx _ i (i - 1) hi (by omega) hjx ⟨rfl, rfl⟩).mono ?_
            rintro J' ⟨q1, q2⟩
            refine ⟨q1, ?_⟩
            intro k r k' a hr ha
            rw [q2 k r k' a hr ha]
            by_cases he : k = i ∧ k' = i - 1
            · rw [if_pos he, if_pos (by omega)]
              simp only [Mat.identity, blkPR, if_true]
              rw [hT'2 r a ha, hT2 r a hr, hA2 r a ha]
            · rw [if_neg he, if_neg (by omega)]
          · rw [if_neg hpos]
            refine post_pure ⟨hjx, ?_⟩
            intro k r k' a hr ha
            rw [if_neg (by omega)]
        · rintro Jx1 ⟨hJx1, hJx12⟩
          refine Post.bind (diag_mulR R (mp.invStateScalingR R.rnd) (R.rnd (M.Ts / 2)) hsi A1 hA1) ?_
          rintro T ⟨hT, hT2⟩
          refine Post.bind (mul_diagR R mp.stateScaling hst T hT) ?_
          rintro T' ⟨hT', hT'2⟩
          rw [Mat.addR_ok R (by simp only [Mat.identity, Mat.neg]; rw [hT'.1])
            (by simp only [Mat.identity, Mat.neg]; rw [hT'.2]), ok_bind]
          refine Post.bind (block_write Jx1 _ i i hi hi hJx1 ⟨rfl, rfl⟩) ?_
          rintro Jx2 ⟨hJx2, hJx22⟩
          rw [Mat.addR_ok R (by rw [hB.1, hB1.1]) (by rw [hB.2, hB1.2]), ok_bind]
          refine Post.bind (diag_mulR R (mp.invStateScalingR R.rnd) (R.rnd (M.Ts / 2)) hsi _ ⟨hB.1, hB.2⟩) ?_
          rintro S ⟨hS, hS2⟩
          refine Post.bind (block_write Jm S i i hi hi hjm hS) ?_
          rintro Jm1 ⟨hJm1, hJm12⟩
          refine post_pure (hacc.step hc'1 hval hJx2 hJm1 ?_ ?_)
          · intro _ k r k' a hr ha
            rw [hJx22 k r k' a hr ha, hJx12 k r k' a hr ha]
            by_cases he : k = i ∧ k' = i
            · rw [if_pos he, if_pos he]
              simp only [Mat.identity, Mat.neg, blkQR, if_true]
              rw [hT'2 r a ha, hT2 r a hr, hA12 r a ha]
            · rw [if_neg he, if_neg he]
          · intro _ k r k' b hr hb
            rw [hJm12 k r k' b hr hb]
            by_cases he : k = i ∧ k' = i
            · rw [if_pos he, if_pos he, hS2 r b hr]
              dsimp only
              rw [hB2 r b hb, hB12 r b hb]
              simp only [blkRR, if_true]
            · rw [if_neg he, if_neg he]
    | false =>
      simp only [Bool.false_eq_true, if_false]
      refine forRange_post _ _ _ (Acc mp.dims _ _ _ _ g) (h0 _ _ _ _) ?_
      rintro i ⟨ic, c, Jx, Jm⟩ hi hacc
      unfold stepDiscreteR
      have hic := hacc.ic
      have hsz := hacc.sz
      have hjx := hacc.jx
      have hjm := hacc.jm
      dsimp only at hic hsz hjx hjm ⊢
      subst hic
      have hend : i * mp.dims.nx + mp.dims.nx ≤ mp.dims.ph * mp.dims.nx := block_end_le hi
      have hu1 : (rowV U i).size = mp.dims.nu := hU.2
      have hx1 : (rowV X i).size = mp.dims.nx := hX.2
      have hx2 : (rowV X (i + 1)).size = mp.dims.nx := hX.2
      rw [rowV_ok (by rw [hU.1]; omega), ok_bind, rowV_ok (by rw [hX.1]; omega), ok_bind,
        M.callState_ok f hf F hF _ _ _ _ hx1 hu1, ok_bind,
        rowV_ok (by rw [hX.1]; omega), ok_bind, toUnsigned_of_lt (by omega),
        Vec.addR_ok R (by simp only [Vec.neg, Vec.ofF_size]; exact hx2), ok_bind]
      refine ceq_writeR R c mp.stateScaling i mp.dims.nx (mp.dims.ph * mp.dims.nx) _ _ _ hst hx2 hsz hend ?_
      intro c' hc'1 hc'2
      have hval : ∀ k r, r < mp.dims.nx → c'.get (k * mp.dims.nx + r)
          = if k = i then R.rnd (residR R F false M.Ts X U i r / mp.stateScaling.get r) else c.get (k * mp.dims.nx + r) := by
        intro k r hr
        rw [hc'2 k r hr]
        simp only [Vec.neg, residR, rowV, sub_eq_add_neg, Bool.false_eq_true, if_false]
      cases g with
      | false =>
        simp only [Bool.false_eq_true, if_false]
        exact post_pure (hacc.step hc'1 hval hjx hjm (fun h => by simp at h) (fun h => by simp at h))
      | true =>
        simp only [if_true]
        refine Post.bind (computeStateEqJacobianR_post R M f hf F hF junk _ _ _ hx1 hu1) ?_
        rintro ⟨A, B⟩ ⟨hA, hB, hA2, hB2⟩
        dsimp only at hA hB hA2 hB2 ⊢
        refine Post.bind (diag_mul1R R (mp.invStateScalingR R.rnd) hsi A hA) ?_
        rintro T ⟨hT, hT2⟩
        refine Post.bind (mul_diagR R mp.stateScaling hst T hT) ?_
        rintro T' ⟨hT', hT'2⟩
        refine Post.bind (diag_mul1R R (mp.invStateScalingR R.rnd) hsi B hB) ?_
        rintro S ⟨hS, hS2⟩
        refine Post.bind (block_write Jx _ i i hi hi hjx ⟨rfl, rfl⟩) ?_
        rintro Jx1 ⟨hJx1, hJx12⟩
        refine Post.bind (Q := fun J' : Mat K => J'.Is (mp.dims.ph * mp.dims.nx) (mp.dims.ph * mp.dims.nx) ∧
          ∀ k r k' a, r < mp.dims.nx → a < mp.dims.nx → J'.get (k * mp.dims.nx + r) (k' * mp.dims.nx + a)
            = if k = i ∧ k' + 1 = i
              then blkPR R F false M.Ts mp.stateScaling.get (mp.invStateScalingR R.rnd).get X U i r a
              else Jx1.get (k * mp.dims.nx + r) (k' * mp.dims.nx + a)) ?_ ?_
        · unfold setPrevBlock
          by_cases hpos : 0 < i
          · rw [if_pos hpos]
            simp only [bind_assoc, pure_bind']
            refine (block_write Jx1 T'.neg i (i - 1) hi (by omega) hJx1 hT').mono ?_
            rintro J' ⟨q1, q2⟩
            refine ⟨q1, ?_⟩
            intro k r k' a hr ha
            rw [q2 k r k' a hr ha]
            by_cases he : k = i ∧ k' = i - 1
            · rw [if_pos he, if_pos (by omega)]
              simp only [Mat.neg, blkPR, Bool.false_eq_true, if_false]
              rw [hT'2 r a ha, hT2 r a hr, hA2 r a ha]
            · rw [if_neg he, if_neg (by omega)]
          · rw [if_neg hpos]
            refine post_pure ⟨hJx1, ?_⟩
            intro k r k' a hr ha
            rw [if_neg (by omega)]
        · rintro Jx2 ⟨hJx2, hJx22⟩
          refine Post.bind (block_write Jm S.neg i i hi hi hjm hS) ?_
          rintro Jm1 ⟨hJm1, hJm12⟩
          refine post_pure (hacc.step hc'1 hval hJx2 hJm1 ?_ ?_)
          · intro _ k r k' a hr ha
            rw [hJx22 k r k' a hr ha, hJx12 k r k' a hr ha]
            by_cases he : k = i ∧ k' = i
            · rw [if_neg (by omega), if_pos he, if_pos he]
              simp only [Mat.identity, blkQR, Bool.false_eq_true, if_false]
            · rw [if_neg he, if_neg he]
          · intro _ k r k' b hr hb
            rw [hJm12 k r k' b hr hb]
            by_cases he : k = i ∧ k' = i
            · rw [if_pos he, if_pos he]
              simp only [Mat.neg]
              rw [hS2 r b hr, hB2 r b hb]
              simp only [blkRR, Bool.false_eq_true, if_false]
            · rw [if_neg he, if_neg he]
  · rintro ⟨ic, c, Jx, Jm⟩ hacc
    have hsz := hacc.sz
    have hjx := hacc.jx
    have hjm := hacc.jm
    have hval := hacc.val
    dsimp only at hsz hjx hjm hval ⊢
    cases g with
    | false =>
      simp only [Bool.false_eq_true, if_false]
      exact post_pure ⟨hsz, hval, hJ, fun _ _ => rfl⟩
    | true =>
      simp only [if_true]
      refine Post.bind (glueJacobianR_post mp hm rfl junk (mp.dims.ph * mp.dims.nx)
        (Mat.const Jceq.rows Jceq.cols 0) Jx Jm _ hJ hjx hjm rfl) ?_
      intro G hG
      refine post_pure ⟨hsz, hval, hG.is, Jx, Jm, ?_, ?_, hG⟩
      · intro k r k' a hk hr hk' ha
        have := hacc.gx rfl k r k' a hr hk' ha
        dsimp only at this
        rw [this, if_pos hk]
      · intro k r k' b hk hr hk' hb
        have := hacc.gu rfl k r k' b hr hk' hb
        dsimp only at this
        rw [this, if_pos hk]

theorem evaluateStateModelEqR_post (o : Constraints d K) (ho : o.Sized) (mp : Mapping K) (hm : mp.Good)
    (hd : mp.dims = d) (M : NlModel d K) (f : StateFn d K) (hf : M.vectorField = some f)
    (F : FVec d.nx K → FVec d.nu K → Nat → FVec d.nx K) (hF : NlSpec.FillsS f F)
    (junk : Nat → K) (x : Vec K) (hx : x.size = d.nZ) (hp : d.ph < 2 ^ 31) (g : Bool) :
    Post (o.evaluateStateModelEqR R.rnd mp M junk x g) (fun r => r.2.Sized ∧ r.2.x0 = o.x0 ∧ r.2.ieqUser = o.ieqUser ∧ r.2.eqUser = o.eqUser ∧
      r.1.value.size = d.ph * d.nx ∧ r.1.grad.size = d.nZ * (d.ph * d.nx) ∧
      ∃ X U : Mat K, X.Is (d.ph + 1) d.nx ∧ U.Is (d.ph + 1) d.nu ∧
        X.viewF (d.ph + 1) d.nx = NlSpec.codeStatesR R.rnd d mp.stateScaling.get o.x0.get x.get ∧
        U.viewF (d.ph + 1) d.nu = NlSpec.inputsR R.rnd d mp.inputScaling.get x.get ∧
      (∀ k a, k < d.ph → a < d.nx → r.1.value.get (k * d.nx + a)
        = R.rnd (residR R F M.continuous M.Ts X U k a / mp.stateScaling.get a)) ∧
      (g = true →
        (∀ k r' k' a, k < d.ph → r' < d.nx → k' < d.ph → a < d.nx →
          r.1.grad.get ((k * d.nx + r') * d.nZ + NlSpec.stateIx d k' a)
            = if k' = k then blkQR R F M.continuous M.Ts mp.stateScaling.get (mp.invStateScalingR R.rnd).get X U k r' a
              else if k' + 1 = k then blkPR R F M.continuous M.Ts mp.stateScaling.get (mp.invStateScalingR R.rnd).get X U k r' a
              else 0) ∧
        (∀ k r' j b, k < d.ph → r' < d.nx → j < d.ch → b < d.nu →
          r.1.grad.get ((k * d.nx + r') * d.nZ + NlSpec.inputIx d j b)
            = if min k (d.ch - 1) = j
                then R.rnd (mp.inputScaling.get b * blkRR R F M.continuous M.Ts (mp.invStateScalingR R.rnd).get X U k r' b) else 0) ∧
        (∀ k r', k < d.ph → r' < d.nx → r.1.grad.get ((k * d.nx + r') * d.nZ + NlSpec.slackIx d) = 0))) := by
  subst hd
  unfold evaluateStateModelEqR
  dsimp only
  refine Post.bind (Mapping.unwrapVectorR_post R mp hm x o.x0 o.Xmat o.Umat hx ho.x0 ho.X ho.U) ?_
  rintro ⟨X, U, e⟩ hw
  have hXv := hw.xv
  have hUv := hw.uv
  have hXs : X.Is (mp.dims.ph + 1) mp.dims.nx := hw.x
  have hUs : U.Is (mp.dims.ph + 1) mp.dims.nu := hw.u
  dsimp only at hXv hUv ⊢
  refine Post.bind (getStateEqConstraintsR_post R mp hm rfl M f hf F hF junk X U hXs hUs o.ceq o.Jceq ho.ceq ho.Jceq hp g) ?_
  rintro ⟨c, J⟩ ⟨h1, h2, h3, h4⟩
  dsimp only at h1 h2 h3 h4 ⊢
  refine post_pure ⟨⟨ho.x0, hXs, hUs, h1, h3, ho.ci, ho.Ji, ho.ce, ho.Je⟩, rfl, rfl, rfl, h1, ?_, X, U, hXs, hUs, hXv, hUv, h2, ?_⟩
  · simp only [Mat.dataVec]; rw [h3.1, h3.2]
  · intro hg
    subst hg
    simp only [if_true] at h4
    obtain ⟨Jx, Jm, k1, k2, hG⟩ := h4
    refine ⟨?_, ?_, ?_⟩
    · intro k r' k' a hk hr hk' ha
      dsimp only
      rw [dataVec_get h3 (stateIx_lt _ hk' ha), hG.states _ k' a (block_lt hr hk) hk' ha, k1 k r' k' a hk hr hk' ha]
    · intro k r' j b hk hr hj hb
      dsimp only
      rw [dataVec_get h3 (inputIx_lt _ hj hb), hG.inputs _ j b (block_lt hr hk) hj hb]
      rw [← sumToR_eq, sumToR_single R _ k hk, k2 k r' k b hk hr hk hb, if_pos rfl]
      · split_ifs
        · exact R.idem _
        · exact R.zero
      · intro k' hk' hne
        rw [k2 k r' k' b hk hr hk' hb, if_neg hne, mul_zero, R.zero, ite_self]
    · intro k r' hk hr
      dsimp only
      rw [dataVec_get h3 (slackIx_lt _), hG.slack _ (block_lt hr hk)]
      rfl

end Constraints
end Mpc
