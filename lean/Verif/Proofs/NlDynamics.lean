import Verif.Proofs.NlConstraints

/-
Characterisation of the state-equation constraints handed to the solver.
-/
namespace Mpc
open Exec
set_option linter.unusedSectionVars false

variable {d : Dims} {K : Type}

theorem NlModel.callState_ok [Zero K] (M : NlModel d K) (f : StateFn d K) (hf : M.vectorField = some f)
    (F : FVec d.nx K → FVec d.nu K → Nat → FVec d.nx K) (hF : NlSpec.FillsS f F) (buf : FVec d.nx K)
    (x u : Vec K) (p : Nat) (hx : x.size = d.nx) (hu : u.size = d.nu) :
    M.callState buf x u p = .ok (Vec.ofF (F (x.viewF d.nx) (u.viewF d.nu) p)) := by
  unfold NlModel.callState
  rw [hf]
  dsimp only
  rw [Vec.view_ok hx, ok_bind, Vec.view_ok hu, ok_bind, hF]
  rfl

theorem Vec.viewF_setRaw_add [Add K] (x : Vec K) (n i : Nat) (t : K) :
    (x.setRaw i (x.get i + t)).viewF n = NlSpec.bumpV (x.viewF n) i t := by
  funext a
  simp only [Vec.viewF, Vec.setRaw, NlSpec.bumpV]
  split_ifs with h
  · rw [h]
  · rfl

namespace Constraints
variable [Field K] [LinearOrder K] [IsStrictOrderedRing K]

/-- central difference quotient of the model with respect to state component `a` -/
def dqX (F : FVec d.nx K → FVec d.nu K → Nat → FVec d.nx K) (x u : Vec K) (p c a : Nat) : K :=
  ((Vec.ofF (F (NlSpec.bumpV (x.viewF d.nx) a (dv * x.absMax1.get a)) (u.viewF d.nu) p)).get c
    - (Vec.ofF (F (NlSpec.bumpV (x.viewF d.nx) a (-(dv * x.absMax1.get a))) (u.viewF d.nu) p)).get c)
    / (2 * (dv * x.absMax1.get a))

/-- central difference quotient of the model with respect to input component `b` -/
def dqU (F : FVec d.nx K → FVec d.nu K → Nat → FVec d.nx K) (x u : Vec K) (p c b : Nat) : K :=
  ((Vec.ofF (F (x.viewF d.nx) (NlSpec.bumpV (u.viewF d.nu) b (dv * u.absMax1.get b)) p)).get c
    - (Vec.ofF (F (x.viewF d.nx) (NlSpec.bumpV (u.viewF d.nu) b (-(dv * u.absMax1.get b))) p)).get c)
    / (2 * (dv * u.absMax1.get b))

theorem computeStateEqJacobian_post (M : NlModel d K) (f : StateFn d K) (hf : M.vectorField = some f)
    (F : FVec d.nx K → FVec d.nu K → Nat → FVec d.nx K) (hF : NlSpec.FillsS f F) (junk : Nat → K)
    (x u : Vec K) (p : Nat) (hx : x.size = d.nx) (hu : u.size = d.nu) :
    Post (computeStateEqJacobian M junk x u p) (fun r => r.1.Is d.nx d.nx ∧ r.2.Is d.nx d.nu ∧
      (∀ c a, a < d.nx → r.1.get c a = dqX F x u p c a) ∧ (∀ c b, b < d.nu → r.2.get c b = dqU F x u p c b)) := by
  unfold computeStateEqJacobian
  dsimp only
  refine Post.bind (Q := fun J : Mat K => J.Is d.nx d.nx ∧ ∀ c a, a < d.nx → J.get c a = dqX F x u p c a) ?_ ?_
  · refine forRange_post d.nx _ _ (fun i (J : Mat K) => J.Is d.nx d.nx ∧ ∀ c a, a < i → J.get c a = dqX F x u p c a)
      ⟨⟨rfl, rfl⟩, fun _ _ h => by omega⟩ ?_
    rintro i J hi ⟨⟨j1, j2⟩, j3⟩
    rw [Vec.at_ok (by simp only [Vec.absMax1]; omega), ok_bind, Vec.at_ok (by omega), ok_bind, Vec.set_ok (by omega),
      ok_bind, ok_bind, sub_eq_add_neg, Vec.set_ok (by omega), ok_bind,
      M.callState_ok f hf F hF _ _ u p (by exact hx) hu, ok_bind,
      M.callState_ok f hf F hF _ _ u p (by exact hx) hu, ok_bind]
    unfold Vec.subDiv
    rw [require_ok (by simp), ok_bind, pure_bind', Mat.setCol_ok (by omega) (by simp only [Vec.ofF_size]; omega)]
    refine post_ok ⟨⟨j1, j2⟩, ?_⟩
    intro c a ha
    simp only [Mat.setColRaw]
    by_cases he : a = i
    · subst he
      rw [if_pos rfl, Vec.viewF_setRaw_add, Vec.viewF_setRaw_add]
      rfl
    · rw [if_neg he]; exact j3 c a (by omega)
  · rintro Jx ⟨hJx, hJx2⟩
    refine Post.bind (Q := fun J : Mat K => J.Is d.nx d.nu ∧ ∀ c b, b < d.nu → J.get c b = dqU F x u p c b) ?_ ?_
    · refine forRange_post d.nu _ _ (fun i (J : Mat K) => J.Is d.nx d.nu ∧ ∀ c a, a < i → J.get c a = dqU F x u p c a)
        ⟨⟨rfl, rfl⟩, fun _ _ h => by omega⟩ ?_
      rintro i J hi ⟨⟨j1, j2⟩, j3⟩
      rw [Vec.at_ok (by simp only [Vec.absMax1]; omega), ok_bind, Vec.at_ok (by omega), ok_bind, Vec.set_ok (by omega),
        ok_bind, ok_bind, sub_eq_add_neg, Vec.set_ok (by omega), ok_bind,
        M.callState_ok f hf F hF _ x _ p hx (by exact hu), ok_bind,
        M.callState_ok f hf F hF _ x _ p hx (by exact hu), ok_bind]
      unfold Vec.subDiv
      rw [require_ok (by simp), ok_bind, pure_bind', Mat.setCol_ok (by omega) (by simp only [Vec.ofF_size]; omega)]
      refine post_ok ⟨⟨j1, j2⟩, ?_⟩
      intro c a ha
      simp only [Mat.setColRaw]
      by_cases he : a = i
      · subst he
        rw [if_pos rfl, Vec.viewF_setRaw_add, Vec.viewF_setRaw_add]
        rfl
      · rw [if_neg he]; exact j3 c a (by omega)
    · rintro Jm ⟨hJm, hJm2⟩
      exact post_pure ⟨hJx, hJm, hJx2, hJm2⟩

/-- accumulated constraint values and Jacobian blocks after `i` steps -/
structure Acc (d : Dims) (v : Nat → Nat → K) (P Q R : Nat → Nat → Nat → K) (g : Bool) (i : Nat)
    (s : Nat × Vec K × Mat K × Mat K) : Prop where
  ic : s.1 = i * d.nx
  sz : s.2.1.size = d.ph * d.nx
  val : ∀ k r, k < i → r < d.nx → s.2.1.get (k * d.nx + r) = v k r
  jx : s.2.2.1.Is (d.ph * d.nx) (d.ph * d.nx)
  jm : s.2.2.2.Is (d.ph * d.nx) (d.ph * d.nu)
  gx : g = true → ∀ k r k' a, r < d.nx → k' < d.ph → a < d.nx → s.2.2.1.get (k * d.nx + r) (k' * d.nx + a)
    = if k < i then (if k' = k then Q k r a else if k' + 1 = k then P k r a else 0) else 0
  gu : g = true → ∀ k r k' b, r < d.nx → k' < d.ph → b < d.nu → s.2.2.2.get (k * d.nx + r) (k' * d.nu + b)
    = if k < i then (if k' = k then R k r b else 0) else 0

/-- writing the residual of one step -/
theorem ceq_write {β : Type} (ceq s : Vec K) (i nx n : Nat) (v : Vec K) (cont : Vec K → Exec β) (R : β → Prop)
    (hs : s.size = nx) (hv : v.size = nx) (hsz : ceq.size = n) (hend : i * nx + nx ≤ n)
    (hk : ∀ c' : Vec K, c'.size = n → (∀ k r, r < nx → c'.get (k * nx + r)
      = if k = i then v.get r / s.get r else ceq.get (k * nx + r)) → Post (cont c') R) :
    Post (do
      let ceq ← ceq.setSeg (i * nx) nx v
      let v ← (← ceq.seg (i * nx) nx).cwiseDiv s
      let c' ← ceq.setSeg (i * nx) nx v
      cont c') R := by
  rw [Vec.setSeg_ok (by omega) hv, ok_bind, Vec.seg_ok (by simp only [Vec.setSegRaw]; omega), ok_bind]
  unfold Vec.cwiseDiv
  rw [require_ok (by dsimp only; omega), ok_bind, pure_bind',
    Vec.setSeg_ok (by simp only [Vec.setSegRaw]; omega) (by rfl), ok_bind]
  refine hk _ hsz ?_
  intro k r hr
  simp only [Vec.setSegRaw, block_mem_iff hr]
  by_cases he : k = i
  · subst he
    have hin : k * nx ≤ k * nx + (k * nx + r - k * nx) ∧ k * nx + (k * nx + r - k * nx) < k * nx + nx := by omega
    rw [if_pos rfl, if_pos rfl, if_pos hin]
    simp
  · rw [if_neg he, if_neg he, if_neg he]

theorem diag_mul {n m : Nat} (s : Vec K) (h : K) (hs : s.size = n) (A : Mat K) (hA : A.Is n m) :
    Post ((s.asDiagonal.smul h).mul A) (fun B => B.Is n m ∧ ∀ r a, r < n → B.get r a = h * s.get r * A.get r a) := by
  rw [Mat.mul_ok (by simp only [Mat.smul, Vec.asDiagonal]; rw [hs, hA.1])]
  refine post_ok ⟨⟨hs, hA.2⟩, ?_⟩
  intro r a hr
  simp only [Mat.smul, Vec.asDiagonal]
  rw [sumTo_eq, Finset.sum_eq_single r]
  · rw [if_pos rfl]
  · intro k _ hk; rw [if_neg (fun e => hk e.symm)]; ring
  · intro hh; exact absurd (Finset.mem_range.2 (by omega)) hh

theorem diag_mul1 {n m : Nat} (s : Vec K) (hs : s.size = n) (A : Mat K) (hA : A.Is n m) :
    Post (s.asDiagonal.mul A) (fun B => B.Is n m ∧ ∀ r a, r < n → B.get r a = s.get r * A.get r a) := by
  rw [Mat.mul_ok (by simp only [Vec.asDiagonal]; rw [hs, hA.1])]
  refine post_ok ⟨⟨hs, hA.2⟩, ?_⟩
  intro r a hr
  simp only [Vec.asDiagonal]
  rw [sumTo_eq, Finset.sum_eq_single r]
  · rw [if_pos rfl]
  · intro k _ hk; rw [if_neg (fun e => hk e.symm)]; ring
  · intro hh; exact absurd (Finset.mem_range.2 (by omega)) hh

theorem mul_diag {n m : Nat} (s : Vec K) (hs : s.size = m) (A : Mat K) (hA : A.Is n m) :
    Post (A.mul s.asDiagonal) (fun B => B.Is n m ∧ ∀ r a, a < m → B.get r a = A.get r a * s.get a) := by
  rw [Mat.mul_ok (by simp only [Vec.asDiagonal]; rw [hs, hA.2])]
  refine post_ok ⟨⟨hA.1, hs⟩, ?_⟩
  intro r a ha
  simp only [Vec.asDiagonal]
  rw [sumTo_eq, Finset.sum_eq_single a]
  · rw [if_pos rfl]
  · intro k _ hk; rw [if_neg hk]; ring
  · intro hh; exact absurd (Finset.mem_range.2 (by rw [hA.2]; exact ha)) hh

theorem block_write {ph nx w : Nat} (J src : Mat K) (i j : Nat) (hi : i < ph) (hj : j < ph)
    (hJ : J.Is (ph * nx) (ph * w)) (hs : src.Is nx w) :
    Post (J.setBlock (i * nx) (j * w) nx w src) (fun J' => J'.Is (ph * nx) (ph * w) ∧
      ∀ k r k' a, r < nx → a < w → J'.get (k * nx + r) (k' * w + a)
        = if k = i ∧ k' = j then src.get r a else J.get (k * nx + r) (k' * w + a)) := by
  have h1 : i * nx + nx ≤ ph * nx := block_end_le hi
  have h2 : j * w + w ≤ ph * w := block_end_le hj
  rw [Mat.setBlock_ok (by rw [hJ.1]; omega) (by rw [hJ.2]; omega) hs.1 hs.2]
  refine post_ok ⟨hJ, ?_⟩
  intro k r k' a hr ha
  rw [Mat.setBlockRaw_get]
  simp only [block_mem_iff hr, block_mem_iff ha]
  by_cases he : k = i ∧ k' = j
  · obtain ⟨rfl, rfl⟩ := he
    simp
  · rw [if_neg he, if_neg he]

/-- row `k` of a matrix, as a vector -/
def rowV (X : Mat K) (k : Nat) : Vec K := ⟨X.cols, fun j => X.get k j⟩

/-- residual of step `k`, unscaled -/
def resid (F : FVec d.nx K → FVec d.nu K → Nat → FVec d.nx K) (cont : Bool) (Ts : K) (X U : Mat K) (k r : Nat) : K :=
  if cont then
    X.get k r + Ts / 2 * ((Vec.ofF (F ((rowV X k).viewF d.nx) ((rowV U k).viewF d.nu) k)).get r
      + (Vec.ofF (F ((rowV X (k + 1)).viewF d.nx) ((rowV U k).viewF d.nu) k)).get r) - X.get (k + 1) r
  else X.get (k + 1) r - (Vec.ofF (F ((rowV X k).viewF d.nx) ((rowV U k).viewF d.nu) k)).get r

/-- Jacobian block of step `k` with respect to the state of step `k` -/
def blkP (F : FVec d.nx K → FVec d.nu K → Nat → FVec d.nx K) (cont : Bool) (Ts : K) (s si : Nat → K) (X U : Mat K)
    (k r a : Nat) : K :=
  if cont then (if r = a then 1 else 0) + Ts / 2 * si r * dqX F (rowV X k) (rowV U k) k r a * s a
  else -(si r * dqX F (rowV X k) (rowV U k) k r a * s a)

/-- Jacobian block of step `k` with respect to the state of step `k + 1` -/
def blkQ (F : FVec d.nx K → FVec d.nu K → Nat → FVec d.nx K) (cont : Bool) (Ts : K) (s si : Nat → K) (X U : Mat K)
    (k r a : Nat) : K :=
  if cont then -(if r = a then 1 else 0) + Ts / 2 * si r * dqX F (rowV X (k + 1)) (rowV U k) k r a * s a
  else (if r = a then 1 else 0)

/-- Jacobian block of step `k` with respect to the input of step `k` -/
def blkR (F : FVec d.nx K → FVec d.nu K → Nat → FVec d.nx K) (cont : Bool) (Ts : K) (si : Nat → K) (X U : Mat K)
    (k r b : Nat) : K :=
  if cont then Ts / 2 * si r * (dqU F (rowV X k) (rowV U k) k r b + dqU F (rowV X (k + 1)) (rowV U k) k r b)
  else -(si r * dqU F (rowV X k) (rowV U k) k r b)

theorem Acc.step {v : Nat → Nat → K} {P Q R : Nat → Nat → Nat → K} {g : Bool} {i : Nat} {ceq c' : Vec K}
    {Jx Jx' Jm Jm' : Mat K} {ic : Nat} (h : Acc d v P Q R g i (ic, ceq, Jx, Jm)) (hsz : c'.size = d.ph * d.nx)
    (hc : ∀ k r, r < d.nx → c'.get (k * d.nx + r) = if k = i then v i r else ceq.get (k * d.nx + r))
    (hJx : Jx'.Is (d.ph * d.nx) (d.ph * d.nx)) (hJm : Jm'.Is (d.ph * d.nx) (d.ph * d.nu))
    (hx : g = true → ∀ k r k' a, r < d.nx → a < d.nx → Jx'.get (k * d.nx + r) (k' * d.nx + a)
      = if k = i ∧ k' = i then Q i r a else if k = i ∧ k' + 1 = i then P i r a
        else Jx.get (k * d.nx + r) (k' * d.nx + a))
    (hu : g = true → ∀ k r k' b, r < d.nx → b < d.nu → Jm'.get (k * d.nx + r) (k' * d.nu + b)
      = if k = i ∧ k' = i then R i r b else Jm.get (k * d.nx + r) (k' * d.nu + b)) :
    Acc d v P Q R g (i + 1) (ic + d.nx, c', Jx', Jm') := by
  have h1 := h.ic
  dsimp only at h1
  refine ⟨by dsimp only; rw [h1, Nat.add_mul, Nat.one_mul], hsz, ?_, hJx, hJm, ?_, ?_⟩
  · intro k r hk hr
    dsimp only
    rw [hc k r hr]
    by_cases he : k = i
    · subst he; rw [if_pos rfl]
    · rw [if_neg he]; exact h.val k r (by omega) hr
  · intro hg k r k' a hr hk' ha
    dsimp only
    have := h.gx hg k r k' a hr hk' ha
    dsimp only at this
    rw [hx hg k r k' a hr ha, this]
    by_cases he : k = i
    · subst he
      by_cases h2 : k' = k
      · subst h2; simp
      · by_cases h3 : k' + 1 = k
        · simp [h2, h3]
        · simp [h2, h3]
    · by_cases hlt : k < i
      · rw [if_neg (fun h => he h.1), if_neg (fun h => he h.1), if_pos hlt, if_pos (show k < i + 1 by omega)]
      · rw [if_neg (fun h => he h.1), if_neg (fun h => he h.1), if_neg hlt, if_neg (show ¬ k < i + 1 by omega)]
  · intro hg k r k' a hr hk' ha
    dsimp only
    have := h.gu hg k r k' a hr hk' ha
    dsimp only at this
    rw [hu hg k r k' a hr ha, this]
    by_cases he : k = i
    · subst he
      by_cases h2 : k' = k
      · subst h2; simp
      · simp [h2]
    · by_cases hlt : k < i
      · rw [if_neg (fun h => he h.1), if_pos hlt, if_pos (show k < i + 1 by omega)]
      · rw [if_neg (fun h => he h.1), if_neg hlt, if_neg (show ¬ k < i + 1 by omega)]

theorem rowV_ok {X : Mat K} {k : Nat} (h : k < X.rows) : X.row k = .ok (rowV X k) := Mat.row_ok h

theorem getStateEqConstraints_post (mp : Mapping K) (hm : mp.Good) (hd : mp.dims = d) (M : NlModel d K)
    (f : StateFn d K) (hf : M.vectorField = some f)
    (F : FVec d.nx K → FVec d.nu K → Nat → FVec d.nx K) (hF : NlSpec.FillsS f F) (junk : Nat → K) (X U : Mat K)
    (hX : X.Is (d.ph + 1) d.nx) (hU : U.Is (d.ph + 1) d.nu) (ceq : Vec K) (Jceq : Mat K)
    (hc : ceq.size = d.ph * d.nx) (hJ : Jceq.Is d.nZ (d.ph * d.nx)) (hp : d.ph < 2 ^ 31) (g : Bool) :
    Post (getStateEqConstraints mp M junk X U ceq Jceq g) (fun r => r.1.size = d.ph * d.nx ∧
      (∀ k a, k < d.ph → a < d.nx → r.1.get (k * d.nx + a)
        = resid F M.continuous M.Ts X U k a / mp.stateScaling.get a) ∧
      r.2.Is d.nZ (d.ph * d.nx) ∧
      (if g then ∃ Jx Jm : Mat K,
        (∀ k r k' a, k < d.ph → r < d.nx → k' < d.ph → a < d.nx → Jx.get (k * d.nx + r) (k' * d.nx + a)
          = if k' = k then blkQ F M.continuous M.Ts mp.stateScaling.get mp.invStateScaling.get X U k r a
            else if k' + 1 = k then blkP F M.continuous M.Ts mp.stateScaling.get mp.invStateScaling.get X U k r a
            else 0) ∧
        (∀ k r k' b, k < d.ph → r < d.nx → k' < d.ph → b < d.nu → Jm.get (k * d.nx + r) (k' * d.nu + b)
          = if k' = k then blkR F M.continuous M.Ts mp.invStateScaling.get X U k r b else 0) ∧
        Glued mp (d.ph * d.nx) Jx Jm (Vec.const (d.ph * d.nx) 0) r.2
       else ∀ l c, r.2.get l c = 0)) := by
  subst hd
  have hst := hm.stsz
  have hsi := hm.invsz
  unfold getStateEqConstraints
  dsimp only
  refine Post.bind (Q := Acc mp.dims (fun k a => resid F M.continuous M.Ts X U k a / mp.stateScaling.get a)
    (blkP F M.continuous M.Ts mp.stateScaling.get mp.invStateScaling.get X U)
    (blkQ F M.continuous M.Ts mp.stateScaling.get mp.invStateScaling.get X U)
    (blkR F M.continuous M.Ts mp.invStateScaling.get X U) g mp.dims.ph) ?_ ?_
  · have h0 : ∀ (v : Nat → Nat → K) (P Q R : Nat → Nat → Nat → K), Acc mp.dims v P Q R g 0
        ((0 : Nat), Vec.const ceq.size 0, Mat.const (mp.dims.ph * mp.dims.nx) (mp.dims.ph * mp.dims.nx) 0,
          Mat.const (mp.dims.ph * mp.dims.nx) (mp.dims.ph * mp.dims.nu) 0) := fun v P Q R =>
      ⟨by simp, hc, fun _ _ h => by omega, ⟨rfl, rfl⟩, ⟨rfl, rfl⟩,
        fun _ k r k' a _ _ _ => by rw [if_neg (by omega)]; rfl, fun _ k r k' a _ _ _ => by rw [if_neg (by omega)]; rfl⟩
    cases hcont : M.continuous with
    | true =>
      simp only [if_true]
      refine forRange_post _ _ _ (Acc mp.dims _ _ _ _ g) (h0 _ _ _ _) ?_
      rintro i ⟨ic, c, Jx, Jm⟩ hi hacc
      unfold stepContinuous
      have hic := hacc.ic
      have hsz := hacc.sz
      have hjx := hacc.jx
      have hjm := hacc.jm
      dsimp only at hic hsz hjx hjm ⊢
      subst hic
      have hend : i * mp.dims.nx + mp.dims.nx ≤ mp.dims.ph * mp.dims.nx := block_end_le hi
      have hu1 : (rowV U i).size = mp.dims.nu := hU.2
      have hx1 : (rowV X i).size = mp.dims.nx := hX.2
      have hx2 : (rowV X (i + 1)).size = mp.dims.nx := hX.2
      rw [rowV_ok (by rw [hU.1]; omega), ok_bind, rowV_ok (by rw [hX.1]; omega), ok_bind,
        rowV_ok (by rw [hX.1]; omega), ok_bind, M.callState_ok f hf F hF _ _ _ _ hx1 hu1, ok_bind,
        M.callState_ok f hf F hF _ _ _ _ hx2 hu1, ok_bind, toUnsigned_of_lt (by omega),
        Vec.add_ok (by rfl), ok_bind, Vec.add_ok (by simp only [Vec.smul, Vec.ofF_size]; exact hx1), ok_bind,
        Vec.add_ok (by simp only [Vec.neg]; rw [hx1, hx2]), ok_bind]
      refine ceq_write c mp.stateScaling i mp.dims.nx (mp.dims.ph * mp.dims.nx) _ _ _ hst hx1 hsz hend ?_
      intro c' hc'1 hc'2
      have hval : ∀ k r, r < mp.dims.nx → c'.get (k * mp.dims.nx + r)
          = if k = i then resid F true M.Ts X U i r / mp.stateScaling.get r else c.get (k * mp.dims.nx + r) := by
        intro k r hr
        rw [hc'2 k r hr]
        simp only [Vec.smul, Vec.neg, resid, if_true, rowV, sub_eq_add_neg]
      cases g with
      | false =>
        simp only [Bool.false_eq_true, if_false]
        exact post_pure (hacc.step hc'1 hval hjx hjm (fun h => by simp at h) (fun h => by simp at h))
      | true =>
        simp only [if_true]
        refine Post.bind (computeStateEqJacobian_post M f hf F hF junk _ _ _ hx1 hu1) ?_
        rintro ⟨A, B⟩ ⟨hA, hB, hA2, hB2⟩
        dsimp only at hA hB hA2 hB2 ⊢
        refine Post.bind (computeStateEqJacobian_post M f hf F hF junk _ _ _ hx2 hu1) ?_
        rintro ⟨A1, B1⟩ ⟨hA1, hB1, hA12, hB12⟩
        dsimp only at hA1 hB1 hA12 hB12 ⊢
        refine Post.bind (Q := fun J' : Mat K => J'.Is (mp.dims.ph * mp.dims.nx) (mp.dims.ph * mp.dims.nx) ∧
          ∀ k r k' a, r < mp.dims.nx → a < mp.dims.nx → J'.get (k * mp.dims.nx + r) (k' * mp.dims.nx + a)
            = if k = i ∧ k' + 1 = i
              then blkP F true M.Ts mp.stateScaling.get mp.invStateScaling.get X U i r a
              else Jx.get (k * mp.dims.nx + r) (k' * mp.dims.nx + a)) ?_ ?_
        · unfold setPrevBlock
          by_cases hpos : 0 < i
          · rw [if_pos hpos]
            simp only [bind_assoc, pure_bind']
            refine Post.bind (diag_mul mp.invStateScaling (M.Ts / 2) hsi A hA) ?_
            rintro T ⟨hT, hT2⟩
            refine Post.bind (mul_diag mp.stateScaling hst T hT) ?_
            rintro T' ⟨hT', hT'2⟩
            rw [Mat.add_ok (by simp only [Mat.identity]; rw [hT'.1]) (by simp only [Mat.identity]; rw [hT'.2]), ok_bind]
            refine (block_write Jx _ i (i - 1) hi (by omega) hjx ⟨rfl, rfl⟩).mono ?_
            rintro J' ⟨q1, q2⟩
            refine ⟨q1, ?_⟩
            intro k r k' a hr ha
            rw [q2 k r k' a hr ha]
            by_cases he : k = i ∧ k' = i - 1
            · rw [if_pos he, if_pos (by omega)]
              simp only [Mat.identity, blkP, if_true]
              rw [hT'2 r a ha, hT2 r a hr, hA2 r a ha]
            · rw [if_neg he, if_neg (by omega)]
          · rw [if_neg hpos]
            refine post_pure ⟨hjx, ?_⟩
            intro k r k' a hr ha
            rw [if_neg (by omega)]
        · rintro Jx1 ⟨hJx1, hJx12⟩
          refine Post.bind (diag_mul mp.invStateScaling (M.Ts / 2) hsi A1 hA1) ?_
          rintro T ⟨hT, hT2⟩
          refine Post.bind (mul_diag mp.stateScaling hst T hT) ?_
          rintro T' ⟨hT', hT'2⟩
          rw [Mat.add_ok (by simp only [Mat.identity, Mat.neg]; rw [hT'.1])
            (by simp only [Mat.identity, Mat.neg]; rw [hT'.2]), ok_bind]
          refine Post.bind (block_write Jx1 _ i i hi hi hJx1 ⟨rfl, rfl⟩) ?_
          rintro Jx2 ⟨hJx2, hJx22⟩
          rw [Mat.add_ok (by rw [hB.1, hB1.1]) (by rw [hB.2, hB1.2]), ok_bind]
          refine Post.bind (diag_mul mp.invStateScaling (M.Ts / 2) hsi _ ⟨hB.1, hB.2⟩) ?_
          rintro S ⟨hS, hS2⟩
          refine Post.bind (block_write Jm S i i hi hi hjm hS) ?_
          rintro Jm1 ⟨hJm1, hJm12⟩
          refine post_pure (hacc.step hc'1 hval hJx2 hJm1 ?_ ?_)
          · intro _ k r k' a hr ha
            rw [hJx22 k r k' a hr ha, hJx12 k r k' a hr ha]
            by_cases he : k = i ∧ k' = i
            · rw [if_pos he, if_pos he]
              simp only [Mat.identity, Mat.neg, blkQ, if_true]
              rw [hT'2 r a ha, hT2 r a hr, hA12 r a ha]
            · rw [if_neg he, if_neg he]
          · intro _ k r k' b hr hb
            rw [hJm12 k r k' b hr hb]
            by_cases he : k = i ∧ k' = i
            · rw [if_pos he, if_pos he, hS2 r b hr]
              dsimp only
              rw [hB2 r b hb, hB12 r b hb]
              simp only [blkR, if_true]
            · rw [if_neg he, if_neg he]
    | false =>
      simp only [Bool.false_eq_true, if_false]
      refine forRange_post _ _ _ (Acc mp.dims _ _ _ _ g) (h0 _ _ _ _) ?_
      rintro i ⟨ic, c, Jx, Jm⟩ hi hacc
      unfold stepDiscrete
      have hic := hacc.ic
      have hsz := hacc.sz
      have hjx := hacc.jx
      have hjm := hacc.jm
      dsimp only at hic hsz hjx hjm ⊢
      subst hic
      have hend : i * mp.dims.nx + mp.dims.nx ≤ mp.dims.ph * mp.dims.nx := block_end_le hi
      have hu1 : (rowV U i).size = mp.dims.nu := hU.2
      have hx1 : (rowV X i).size = mp.dims.nx := hX.2
      have hx2 : (rowV X (i + 1)).size = mp.dims.nx := hX.2
      rw [rowV_ok (by rw [hU.1]; omega), ok_bind, rowV_ok (by rw [hX.1]; omega), ok_bind,
        M.callState_ok f hf F hF _ _ _ _ hx1 hu1, ok_bind,
        rowV_ok (by rw [hX.1]; omega), ok_bind, toUnsigned_of_lt (by omega),
        Vec.add_ok (by simp only [Vec.neg, Vec.ofF_size]; exact hx2), ok_bind]
      refine ceq_write c mp.stateScaling i mp.dims.nx (mp.dims.ph * mp.dims.nx) _ _ _ hst hx2 hsz hend ?_
      intro c' hc'1 hc'2
      have hval : ∀ k r, r < mp.dims.nx → c'.get (k * mp.dims.nx + r)
          = if k = i then resid F false M.Ts X U i r / mp.stateScaling.get r else c.get (k * mp.dims.nx + r) := by
        intro k r hr
        rw [hc'2 k r hr]
        simp only [Vec.neg, resid, rowV, sub_eq_add_neg, Bool.false_eq_true, if_false]
      cases g with
      | false =>
        simp only [Bool.false_eq_true, if_false]
        exact post_pure (hacc.step hc'1 hval hjx hjm (fun h => by simp at h) (fun h => by simp at h))
      | true =>
        simp only [if_true]
        refine Post.bind (computeStateEqJacobian_post M f hf F hF junk _ _ _ hx1 hu1) ?_
        rintro ⟨A, B⟩ ⟨hA, hB, hA2, hB2⟩
        dsimp only at hA hB hA2 hB2 ⊢
        refine Post.bind (diag_mul1 mp.invStateScaling hsi A hA) ?_
        rintro T ⟨hT, hT2⟩
        refine Post.bind (mul_diag mp.stateScaling hst T hT) ?_
        rintro T' ⟨hT', hT'2⟩
        refine Post.bind (diag_mul1 mp.invStateScaling hsi B hB) ?_
        rintro S ⟨hS, hS2⟩
        refine Post.bind (block_write Jx _ i i hi hi hjx ⟨rfl, rfl⟩) ?_
        rintro Jx1 ⟨hJx1, hJx12⟩
        refine Post.bind (Q := fun J' : Mat K => J'.Is (mp.dims.ph * mp.dims.nx) (mp.dims.ph * mp.dims.nx) ∧
          ∀ k r k' a, r < mp.dims.nx → a < mp.dims.nx → J'.get (k * mp.dims.nx + r) (k' * mp.dims.nx + a)
            = if k = i ∧ k' + 1 = i
              then blkP F false M.Ts mp.stateScaling.get mp.invStateScaling.get X U i r a
              else Jx1.get (k * mp.dims.nx + r) (k' * mp.dims.nx + a)) ?_ ?_
        · unfold setPrevBlock
          by_cases hpos : 0 < i
          · rw [if_pos hpos]
            simp only [bind_assoc, pure_bind']
            refine (block_write Jx1 T'.neg i (i - 1) hi (by omega) hJx1 hT').mono ?_
            rintro J' ⟨q1, q2⟩
            refine ⟨q1, ?_⟩
            intro k r k' a hr ha
            rw [q2 k r k' a hr ha]
            by_cases he : k = i ∧ k' = i - 1
            · rw [if_pos he, if_pos (by omega)]
              simp only [Mat.neg, blkP, Bool.false_eq_true, if_false]
              rw [hT'2 r a ha, hT2 r a hr, hA2 r a ha]
            · rw [if_neg he, if_neg (by omega)]
          · rw [if_neg hpos]
            refine post_pure ⟨hJx1, ?_⟩
            intro k r k' a hr ha
            rw [if_neg (by omega)]
        · rintro Jx2 ⟨hJx2, hJx22⟩
          refine Post.bind (block_write Jm S.neg i i hi hi hjm hS) ?_
          rintro Jm1 ⟨hJm1, hJm12⟩
          refine post_pure (hacc.step hc'1 hval hJx2 hJm1 ?_ ?_)
          · intro _ k r k' a hr ha
            rw [hJx22 k r k' a hr ha, hJx12 k r k' a hr ha]
            by_cases he : k = i ∧ k' = i
            · rw [if_neg (by omega), if_pos he, if_pos he]
              simp only [Mat.identity, blkQ, Bool.false_eq_true, if_false]
            · rw [if_neg he, if_neg he]
          · intro _ k r k' b hr hb
            rw [hJm12 k r k' b hr hb]
            by_cases he : k = i ∧ k' = i
            · rw [if_pos he, if_pos he]
              simp only [Mat.neg]
              rw [hS2 r b hr, hB2 r b hb]
              simp only [blkR, Bool.false_eq_true, if_false]
            · rw [if_neg he, if_neg he]
  · rintro ⟨ic, c, Jx, Jm⟩ hacc
    have hsz := hacc.sz
    have hjx := hacc.jx
    have hjm := hacc.jm
    have hval := hacc.val
    dsimp only at hsz hjx hjm hval ⊢
    cases g with
    | false =>
      simp only [Bool.false_eq_true, if_false]
      exact post_pure ⟨hsz, hval, hJ, fun _ _ => rfl⟩
    | true =>
      simp only [if_true]
      refine Post.bind (glueJacobian_post mp hm rfl junk (mp.dims.ph * mp.dims.nx)
        (Mat.const Jceq.rows Jceq.cols 0) Jx Jm _ hJ hjx hjm rfl) ?_
      intro G hG
      refine post_pure ⟨hsz, hval, hG.is, Jx, Jm, ?_, ?_, hG⟩
      · intro k r k' a hk hr hk' ha
        have := hacc.gx rfl k r k' a hr hk' ha
        dsimp only at this
        rw [this, if_pos hk]
      · intro k r k' b hk hr hk' hb
        have := hacc.gu rfl k r k' b hr hk' hb
        dsimp only at this
        rw [this, if_pos hk]

theorem evaluateStateModelEq_post (o : Constraints d K) (ho : o.Sized) (mp : Mapping K) (hm : mp.Good)
    (hd : mp.dims = d) (M : NlModel d K) (f : StateFn d K) (hf : M.vectorField = some f)
    (F : FVec d.nx K → FVec d.nu K → Nat → FVec d.nx K) (hF : NlSpec.FillsS f F)
    (junk : Nat → K) (x : Vec K) (hx : x.size = d.nZ) (hp : d.ph < 2 ^ 31) (g : Bool) :
    Post (o.evaluateStateModelEq mp M junk x g) (fun r => r.2.Sized ∧ r.2.x0 = o.x0 ∧
      r.1.value.size = d.ph * d.nx ∧ r.1.grad.size = d.nZ * (d.ph * d.nx) ∧
      ∃ X U : Mat K, X.Is (d.ph + 1) d.nx ∧ U.Is (d.ph + 1) d.nu ∧
        X.viewF (d.ph + 1) d.nx = NlSpec.codeStates d mp.stateScaling.get o.x0.get x.get ∧
        U.viewF (d.ph + 1) d.nu = NlSpec.inputs d mp.inputScaling.get x.get ∧
      (∀ k a, k < d.ph → a < d.nx → r.1.value.get (k * d.nx + a)
        = resid F M.continuous M.Ts X U k a / mp.stateScaling.get a) ∧
      (g = true →
        (∀ k r' k' a, k < d.ph → r' < d.nx → k' < d.ph → a < d.nx →
          r.1.grad.get ((k * d.nx + r') * d.nZ + NlSpec.stateIx d k' a)
            = if k' = k then blkQ F M.continuous M.Ts mp.stateScaling.get mp.invStateScaling.get X U k r' a
              else if k' + 1 = k then blkP F M.continuous M.Ts mp.stateScaling.get mp.invStateScaling.get X U k r' a
              else 0) ∧
        (∀ k r' j b, k < d.ph → r' < d.nx → j < d.ch → b < d.nu →
          r.1.grad.get ((k * d.nx + r') * d.nZ + NlSpec.inputIx d j b)
            = mp.inputScaling.get b * if min k (d.ch - 1) = j
                then blkR F M.continuous M.Ts mp.invStateScaling.get X U k r' b else 0) ∧
        (∀ k r', k < d.ph → r' < d.nx → r.1.grad.get ((k * d.nx + r') * d.nZ + NlSpec.slackIx d) = 0))) := by
  subst hd
  unfold evaluateStateModelEq
  dsimp only
  refine Post.bind (Mapping.unwrapVector_post mp hm x o.x0 o.Xmat o.Umat hx ho.x0 ho.X.1 ho.X.2 ho.U.1 ho.U.2) ?_
  rintro ⟨X, U, e⟩ hw
  have hXv := Objective.viewF_states hw
  have hUv := Objective.viewF_inputs hw
  have hXs : X.Is (mp.dims.ph + 1) mp.dims.nx := ⟨hw.xr, hw.xc⟩
  have hUs : U.Is (mp.dims.ph + 1) mp.dims.nu := ⟨hw.ur, hw.uc⟩
  dsimp only at hXv hUv ⊢
  refine Post.bind (getStateEqConstraints_post mp hm rfl M f hf F hF junk X U hXs hUs o.ceq o.Jceq ho.ceq ho.Jceq hp g) ?_
  rintro ⟨c, J⟩ ⟨h1, h2, h3, h4⟩
  dsimp only at h1 h2 h3 h4 ⊢
  refine post_pure ⟨⟨ho.x0, hXs, hUs, h1, h3, ho.ci, ho.Ji, ho.ce, ho.Je⟩, rfl, h1, ?_, X, U, hXs, hUs, hXv, hUv, h2, ?_⟩
  · simp only [Mat.dataVec]; rw [h3.1, h3.2]
  · intro hg
    subst hg
    simp only [if_true] at h4
    obtain ⟨Jx, Jm, k1, k2, hG⟩ := h4
    refine ⟨?_, ?_, ?_⟩
    · intro k r' k' a hk hr hk' ha
      dsimp only
      rw [dataVec_get h3 (stateIx_lt _ hk' ha), hG.states _ k' a (block_lt hr hk) hk' ha, k1 k r' k' a hk hr hk' ha]
    · intro k r' j b hk hr hj hb
      dsimp only
      rw [dataVec_get h3 (inputIx_lt _ hj hb), hG.inputs _ j b (block_lt hr hk) hj hb]
      congr 1
      rw [Finset.sum_eq_single k]
      · rw [k2 k r' k b hk hr hk hb, if_pos rfl]
      · intro k' hk' hne
        rw [k2 k r' k' b hk hr (Finset.mem_range.1 hk') hb, if_neg hne]
        simp
      · intro hh; exact absurd (Finset.mem_range.2 hk) hh
    · intro k r' hk hr
      dsimp only
      rw [dataVec_get h3 (slackIx_lt _), hG.slack _ (block_lt hr hk)]
      rfl

end Constraints
end Mpc
