import Verif.Proofs.Builder

/-
Pointwise characterisation of the constraint matrix and bounds assembled by the problem builder.
-/
namespace Mpc
open Exec
namespace Builder
variable {K : Type} [Zero K] [One K] [Add K] [Mul K] [Neg K]

/-- Pointwise description of the dynamics rows. -/
structure AeqSpec (b : Builder K) (M : Mat K) : Prop where
  dims : M.rows = b.d.nS ∧ M.cols = b.d.nV
  xx : ∀ i a j c, i ≤ b.d.ph → j ≤ b.d.ph → a < b.d.nu + b.d.nx → c < b.d.nu + b.d.nx →
    M.get (i * (b.d.nu + b.d.nx) + a) (j * (b.d.nu + b.d.nx) + c) =
      (if i = j ∧ a = c then -1 else 0) + (if i = j + 1 then b.ssA.get a c else 0)
  xd : ∀ i a j c, i ≤ b.d.ph → j < b.d.ph → a < b.d.nu + b.d.nx → c < b.d.nu →
    M.get (i * (b.d.nu + b.d.nx) + a) (b.d.nS + (j * b.d.nu + c)) =
      if i = j + 1 then b.ssB.get a c else 0

variable [ExactOps K]

theorem buildAeq_post (b : Builder K) (hb : b.Shaped) : Post b.buildAeq b.AeqSpec := by
  unfold buildAeq
  simp only []
  rw [Mat.setBlockIdentity_ok (by simp; omega) (by simp)]
  simp only [ok_bind]
  rw [Mat.add_ok (by simp [hb.ssA.1]) (by simp [hb.ssA.2])]
  simp only [ok_bind]
  rw [Mat.setBlock_ok (by simp) (by simp) (by simp) (by simp)]
  simp only [ok_bind]
  rw [Mat.setBlockIdentity_ok (by simp; omega) (by simp)]
  simp only [ok_bind]
  have hS : (b.d.ph + 1) * (b.d.nu + b.d.nx) = b.d.nS := rfl
  rw [Mat.setBlock_ok (by simp) (by simp) (by simp [hb.ssB.1]) (by simp [hb.ssB.2])]
  refine post_ok ⟨⟨rfl, rfl⟩, ?_, ?_⟩
  · intro i a j c hi hj ha hc
    have h1 := block_lt (i := i) (n := b.d.ph + 1) ha (by omega)
    have h2 := block_lt (i := j) (n := b.d.ph + 1) hc (by omega)
    rw [Mat.setBlockRaw_out _ _ _ _ _ _ (by omega)]
    have := Mat.setBlockRaw_in (⟨(b.d.ph + 1) * (b.d.nu + b.d.nx),
      (b.d.ph + 1) * (b.d.nu + b.d.nx) + b.d.ph * b.d.nu, b.uninit⟩ : Mat K) 0 0
      ((b.d.ph + 1) * (b.d.nu + b.d.nx)) ((b.d.ph + 1) * (b.d.nu + b.d.nx))
      (fun i j => ((Mat.identity (b.d.ph + 1) (b.d.ph + 1) : Mat K).kron
        (Mat.identity (b.d.nu + b.d.nx) (b.d.nu + b.d.nx) : Mat K).neg).get i j +
        (((Mat.const (b.d.ph + 1) (b.d.ph + 1) 0 : Mat K).setBlockRaw 1 0 b.d.ph b.d.ph
        fun i j => if i = j then 1 else 0).kron b.ssA).get i j) h1 h2
    rw [Nat.zero_add, Nat.zero_add] at this
    rw [this, Mat.kron_get (r := b.d.nu + b.d.nx) (c := b.d.nu + b.d.nx) _ _ rfl rfl ha hc, Mat.kron_get _ _ hb.ssA.1 hb.ssA.2 ha hc]
    simp only [Mat.identity_get, Mat.neg_get, Mat.setBlockRaw, Mat.const_get]
    congr 1
    · split_ifs <;> first | rfl | omega | simp [ExactOps.one_mul, ExactOps.zero_mul, ExactOps.mul_zero, ExactOps.neg_zero]
    · split_ifs <;> first | rfl | omega | simp [ExactOps.one_mul, ExactOps.zero_mul, ExactOps.mul_zero, ExactOps.neg_zero]
  · intro i a j c hi hj ha hc
    have h1 := block_lt (i := i) (n := b.d.ph + 1) ha (by omega)
    have h2 := block_lt (i := j) (n := b.d.ph) hc hj
    rw [← hS]
    have := fun m src => Mat.setBlockRaw_in (α := K) m 0 ((b.d.ph + 1) * (b.d.nu + b.d.nx))
      ((b.d.ph + 1) * (b.d.nu + b.d.nx)) (b.d.ph * b.d.nu) src h1 h2
    simp only [Nat.zero_add] at this
    rw [this, Mat.kron_get _ _ hb.ssB.1 hb.ssB.2 ha hc]
    simp only [Mat.setBlockRaw, Mat.const_get]
    split_ifs <;> first | rfl | omega | simp [ExactOps.one_mul, ExactOps.zero_mul, ExactOps.mul_zero, ExactOps.neg_zero]

/-- Pointwise description of the inequality rows (row index relative to the first inequality row). -/
structure AineqSpec (b : Builder K) (M : Mat K) : Prop where
  dims : M.rows = b.d.nI ∧ M.cols = b.d.nV
  /-- extended state rows: identity -/
  sx : ∀ r c, r < b.d.nS → c < b.d.nV → M.get r c = if r = c then 1 else 0
  /-- output rows -/
  yx : ∀ i a j c, i ≤ b.d.ph → j ≤ b.d.ph → a < b.d.ny → c < b.d.nu + b.d.nx →
    M.get (b.d.nS + (i * b.d.ny + a)) (j * (b.d.nu + b.d.nx) + c) = if i = j then b.ssC.get a c else 0
  yd : ∀ r c, r < b.d.nY → c < b.d.nD → M.get (b.d.nS + r) (b.d.nS + c) = 0
  /-- increment rows: identity -/
  dr : ∀ r c, r < b.d.nD → c < b.d.nV →
    M.get (b.d.nS + b.d.nY + r) c = if b.d.nS + r = c then 1 else 0
  /-- scalar constraint rows -/
  cx : ∀ i c, i ≤ b.d.ph → c < b.d.nS → M.get (b.d.nS + b.d.nY + b.d.nD + i) c = b.sMultiplier.get i c
  cd : ∀ i c, i ≤ b.d.ph → c < b.d.nD → M.get (b.d.nS + b.d.nY + b.d.nD + i) (b.d.nS + c) = 0

theorem buildAineq_post (b : Builder K) (hb : b.Shaped) : Post b.buildAineq b.AineqSpec := by
  have hS : (b.d.ph + 1) * (b.d.nu + b.d.nx) = b.d.nS := rfl
  have hY : (b.d.ph + 1) * b.d.ny = b.d.nY := rfl
  have hD : b.d.ph * b.d.nu = b.d.nD := rfl
  have hV : b.d.nV = b.d.nS + b.d.nD := rfl
  have hI : b.d.nI = b.d.nS + (b.d.nY + b.d.nD + (b.d.ph + 1)) := rfl
  unfold buildAineq
  simp only [hS, hY, hD]
  rw [Mat.setBlockIdentity_ok (by simp) (by simp)]
  simp only [ok_bind]
  rw [Mat.middleRows_ok (by rw [hb.ssC.1]; omega)]
  simp only [ok_bind]
  rw [Mat.setBlock_ok (by simp; omega) (by simp) (by simp [hY]) (by simp [hb.ssC.2, hS])]
  simp only [ok_bind]
  rw [Mat.setBlockIdentity_ok (by simp; omega) (by simp)]
  simp only [ok_bind]
  rw [Mat.setBlock_ok (by simp; omega) (by simp) hb.sMul.1 (by rw [hb.sMul.2, hS])]
  refine post_ok ⟨⟨by simp [hI], by simp [hV]⟩, ?_, ?_, ?_, ?_, ?_, ?_⟩
  · intro r c hr hc
    rw [Mat.setBlockRaw_out _ _ _ _ _ _ (by omega), Mat.setBlockRaw_out _ _ _ _ _ _ (by omega),
      Mat.setBlockRaw_out _ _ _ _ _ _ (by omega)]
    simp only [Mat.setBlockRaw, Mat.const_get]
    split_ifs <;> first | rfl | omega
  · intro i a j c hi hj ha hc
    have h1 := block_lt (i := i) (n := b.d.ph + 1) ha (by omega)
    have h2 := block_lt (i := j) (n := b.d.ph + 1) hc (by omega)
    rw [Mat.setBlockRaw_out _ _ _ _ _ _ (by omega), Mat.setBlockRaw_out _ _ _ _ _ _ (by omega)]
    have := fun m src => Mat.setBlockRaw_in (α := K) m b.d.nS 0 b.d.nY b.d.nS src h1 h2
    simp only [Nat.zero_add] at this
    rw [this, Mat.kron_get (r := b.d.ny) (c := b.d.nu + b.d.nx) _ _ rfl (by exact hb.ssC.2) ha hc]
    simp [ExactOps.one_mul, ExactOps.zero_mul]
  · intro r c hr hc
    rw [Mat.setBlockRaw_out _ _ _ _ _ _ (by omega), Mat.setBlockRaw_out _ _ _ _ _ _ (by omega),
      Mat.setBlockRaw_out _ _ _ _ _ _ (by omega), Mat.setBlockRaw_out _ _ _ _ _ _ (by omega)]
    simp
  · intro r c hr hc
    rw [Mat.setBlockRaw_out _ _ _ _ _ _ (by omega)]
    by_cases h : c < b.d.nS
    · rw [Mat.setBlockRaw_out _ _ _ _ _ _ (by omega), Mat.setBlockRaw_out _ _ _ _ _ _ (by omega),
        Mat.setBlockRaw_out _ _ _ _ _ _ (by omega), if_neg (by omega)]
      simp
    · simp only [Mat.setBlockRaw]
      rw [if_pos (by omega)]
      split_ifs <;> first | rfl | omega
  · intro i c hi hc
    have := fun m src => Mat.setBlockRaw_in (α := K) m (b.d.nS + b.d.nY + b.d.nD) 0 (b.d.ph + 1) b.d.nS src
      (i := i) (j := c) (by omega) hc
    simp only [Nat.zero_add] at this
    rw [this]
  · intro i c hi hc
    rw [Mat.setBlockRaw_out _ _ _ _ _ _ (by omega), Mat.setBlockRaw_out _ _ _ _ _ _ (by omega),
      Mat.setBlockRaw_out _ _ _ _ _ _ (by omega), Mat.setBlockRaw_out _ _ _ _ _ _ (by omega)]
    simp

/-- Pointwise description of one inequality bound vector. -/
structure BoundSpec (d : Dims) (inf : Ext K) (X U Y : Mat (Ext K)) (s v : Vec (Ext K)) : Prop where
  size : v.size = d.nI
  x : ∀ i a, i ≤ d.ph → a < d.nx → v.get (i * (d.nu + d.nx) + a) = X.get a i
  u : ∀ i a, i ≤ d.ph → a < d.nu →
    v.get (i * (d.nu + d.nx) + (d.nx + a)) = U.get a (if i = d.ph then i - 1 else i)
  y : ∀ i a, i ≤ d.ph → a < d.ny → v.get (d.nS + (i * d.ny + a)) = Y.get a i
  du : ∀ i a, i < d.ph → a < d.nu →
    v.get (d.nS + d.nY + (i * d.nu + a)) = if d.ch < i then .fin 0 else inf
  sc : ∀ i, i ≤ d.ph → v.get (d.nS + d.nY + d.nD + i) = s.get i

omit [Zero K] [One K] [Add K] [Mul K] [Neg K] [ExactOps K] in
theorem extBounds_post (d : Dims) (hph : 0 < d.ph) (uninit : Nat → Ext K) (X U : Mat (Ext K))
    (hX : X.rows = d.nx ∧ X.cols = d.ph + 1) (hU : U.rows = d.nu ∧ U.cols = d.ph) :
    Post (extBounds d uninit X U) (fun e => e.size = d.nS ∧
      (∀ i a, i ≤ d.ph → a < d.nx → e.get (i * (d.nu + d.nx) + a) = X.get a i) ∧
      (∀ i a, i ≤ d.ph → a < d.nu →
        e.get (i * (d.nu + d.nx) + (d.nx + a)) = U.get a (if i = d.ph then i - 1 else i))) := by
  unfold extBounds
  refine Post.mono (forRange_post _ _ _ (fun k (e : Vec (Ext K)) => e.size = d.nS ∧
      (∀ i a, i < k → a < d.nx → e.get (i * (d.nu + d.nx) + a) = X.get a i) ∧
      (∀ i a, i < k → a < d.nu →
        e.get (i * (d.nu + d.nx) + (d.nx + a)) = U.get a (if i = d.ph then i - 1 else i))) ?_ ?_) ?_
  · exact ⟨rfl, by intros; omega, by intros; omega⟩
  · rintro k e hk ⟨hs, hx, hu⟩
    have htmp : (if k = d.ph then U.col (k - 1) else U.col k)
        = .ok ⟨d.nu, fun a => U.get a (if k = d.ph then k - 1 else k)⟩ := by
      split
      · rw [Mat.col_ok (by omega), hU.1]
      · rw [Mat.col_ok (by omega), hU.1]
    rw [htmp]
    simp only [ok_bind]
    rw [Mat.col_ok (by omega)]
    simp only [ok_bind]
    rw [Vec.comma_ok (by simp only [hX.1]; omega)]
    simp only [ok_bind]
    have hkS : k * (d.nu + d.nx) + (d.nu + d.nx) ≤ d.nS := block_end_le (by omega)
    rw [Vec.setSeg_ok (by omega) (by rfl)]
    refine post_ok ⟨hs, ?_, ?_⟩
    · intro i a hi ha
      rw [Vec.setSegRaw_block0 _ _ _ _ (by omega)]
      by_cases h : i = k
      · subst h; simp [hX.1, ha]
      · rw [if_neg h]; exact hx i a (by omega) ha
    · intro i a hi ha
      rw [Vec.setSegRaw_block0 _ _ _ _ (by omega)]
      by_cases h : i = k
      · subst h
        simp only [if_true]
        simp [hX.1]
      · rw [if_neg h]; exact hu i a (by omega) ha
  · rintro e ⟨hs, hx, hu⟩
    exact ⟨hs, fun i a hi => hx i a (by omega), fun i a hi => hu i a (by omega)⟩

theorem incrementBounds_post (d : Dims) (inf : Ext K) (v : Vec (Ext K)) (hv : v.size = d.nI) :
    Post (incrementBounds d inf v) (fun v' => v'.size = d.nI ∧
      (∀ r, r < d.nS + d.nY → v'.get r = v.get r) ∧
      (∀ i a, i < d.ph → a < d.nu →
        v'.get (d.nS + d.nY + (i * d.nu + a)) = if d.ch < i then .fin 0 else inf)) := by
  have hS : (d.ph + 1) * (d.nu + d.nx) = d.nS := rfl
  have hY : (d.ph + 1) * d.ny = d.nY := rfl
  have hI : d.nI = d.nS + (d.nY + d.nD + (d.ph + 1)) := rfl
  unfold incrementBounds
  simp only [hS, hY]
  refine Post.mono (forRange_post _ _ _ (fun k (v' : Vec (Ext K)) => v'.size = d.nI ∧
      (∀ r, r < d.nS + d.nY → v'.get r = v.get r) ∧
      (∀ i a, i < k → a < d.nu →
        v'.get (d.nS + d.nY + (i * d.nu + a)) = if d.ch < i then .fin 0 else inf)) ?_ ?_) ?_
  · exact ⟨hv, fun _ _ => rfl, by intros; omega⟩
  · rintro k v' hk ⟨hs, h1, h2⟩
    have hkD : k * d.nu + d.nu ≤ d.nD := block_end_le hk
    rw [Vec.setSeg_ok (by omega) (Vec.const_size _ _)]
    refine post_ok ⟨hs, ?_, ?_⟩
    · intro r hr
      rw [Vec.setSegRaw_out _ _ _ _ (by omega)]
      exact h1 r hr
    · intro i a hi ha
      rw [Vec.setSegRaw_block _ _ _ _ _ ha]
      by_cases h : i = k
      · subst h; simp
      · rw [if_neg h]; exact h2 i a (by omega) ha
  · rintro v' h; exact h

theorem buildBound_post (d : Dims) (hph : 0 < d.ph) (uninit : Nat → Ext K) (inf : Ext K) (old : Vec (Ext K))
    (X U Y : Mat (Ext K)) (s : Vec (Ext K)) (ho : old.size = d.nI)
    (hX : X.rows = d.nx ∧ X.cols = d.ph + 1) (hU : U.rows = d.nu ∧ U.cols = d.ph)
    (hYd : Y.rows = d.ny ∧ Y.cols = d.ph + 1) (hs : s.size = d.ph + 1) :
    Post (buildBound d uninit inf old X U Y s) (BoundSpec d inf X U Y s) := by
  have hS : (d.ph + 1) * (d.nu + d.nx) = d.nS := rfl
  have hY : (d.ph + 1) * d.ny = d.nY := rfl
  have hD : d.ph * d.nu = d.nD := rfl
  have hI : d.nI = d.nS + (d.nY + d.nD + (d.ph + 1)) := rfl
  unfold buildBound
  simp only [hS, hY, hD]
  refine Post.bind (extBounds_post d hph uninit X U hX hU) ?_
  rintro e ⟨he, hex, heu⟩
  rw [Vec.setSeg_ok (by omega) he]
  simp only [ok_bind]
  have hYs : Y.dataVec.size = d.nY := by
    rw [Mat.dataVec_size, hYd.1, hYd.2, Nat.mul_comm]; rfl
  rw [Vec.setSeg_ok (by simp [ho]; omega) hYs]
  simp only [ok_bind]
  refine Post.bind (incrementBounds_post d inf _ ho) ?_
  rintro v ⟨hv, h1, h2⟩
  rw [Vec.setSeg_ok (by omega) hs]
  refine post_ok ⟨hv, ?_, ?_, ?_, ?_, ?_⟩
  · intro i a hi ha
    have hb := block_lt (i := i) (n := d.ph + 1) (s := d.nu + d.nx) (a := a) (by omega) (by omega)
    rw [Vec.setSegRaw_out _ _ _ _ (by omega), h1 _ (by omega), Vec.setSegRaw_out _ _ _ _ (by omega)]
    have := Vec.setSegRaw_in old e 0 d.nS (i := i * (d.nu + d.nx) + a) (by omega)
    rw [Nat.zero_add] at this
    rw [this, hex i a hi ha]
  · intro i a hi ha
    have hb := block_lt (i := i) (n := d.ph + 1) (s := d.nu + d.nx) (a := d.nx + a) (by omega) (by omega)
    rw [Vec.setSegRaw_out _ _ _ _ (by omega), h1 _ (by omega), Vec.setSegRaw_out _ _ _ _ (by omega)]
    have := Vec.setSegRaw_in old e 0 d.nS (i := i * (d.nu + d.nx) + (d.nx + a)) (by omega)
    rw [Nat.zero_add] at this
    rw [this, heu i a hi ha]
  · intro i a hi ha
    have hb := block_lt (i := i) (n := d.ph + 1) ha (by omega)
    rw [Vec.setSegRaw_out _ _ _ _ (by omega), h1 _ (by omega), Vec.setSegRaw_in _ _ _ _ (by omega),
      Mat.dataVec_get _ hYd.1 ha]
  · intro i a hi ha
    have hb := block_lt (i := i) (n := d.ph) ha hi
    rw [Vec.setSegRaw_out _ _ _ _ (by omega), h2 i a hi ha]
  · intro i hi
    rw [Vec.setSegRaw_in _ _ _ _ (by omega)]

/-- The cached terms are the ones determined by the configuration members. -/
structure Derived (b : Builder K) : Prop where
  P : b.PSpec b.P
  Aeq : b.AeqSpec ⟨b.d.nS, b.d.nV, b.A.get⟩
  Aineq : b.AineqSpec ⟨b.d.nI, b.d.nV, fun r c => b.A.get (b.d.nS + r) c⟩
  lineq : BoundSpec b.d .negInf b.minX b.minU b.minY b.sMin b.lineq
  uineq : BoundSpec b.d .posInf b.maxX b.maxU b.maxY b.sMax b.uineq

/-- `b'` differs from `b` only in the cached terms. -/
structure SameConfig (b b' : Builder K) : Prop where
  d : b'.d = b.d
  uninit : b'.uninit = b.uninit
  ssA : b'.ssA = b.ssA
  ssB : b'.ssB = b.ssB
  ssC : b'.ssC = b.ssC
  ssBv : b'.ssBv = b.ssBv
  ssDv : b'.ssDv = b.ssDv
  wOutput : b'.wOutput = b.wOutput
  wU : b'.wU = b.wU
  wDeltaU : b'.wDeltaU = b.wDeltaU
  minX : b'.minX = b.minX
  maxX : b'.maxX = b.maxX
  minY : b'.minY = b.minY
  maxY : b'.maxY = b.maxY
  minU : b'.minU = b.minU
  maxU : b'.maxU = b.maxU
  sMin : b'.sMin = b.sMin
  sMax : b'.sMax = b.sMax
  sMul : b'.sMultiplier = b.sMultiplier

theorem build_post (b : Builder K) (hb : b.Shaped) (hph : 0 < b.d.ph) :
    Post b.build (fun r => r.2 = true ∧ SameConfig b r.1 ∧ r.1.Shaped ∧ r.1.Derived) := by
  have hS : (b.d.ph + 1) * (b.d.nu + b.d.nx) = b.d.nS := rfl
  have hY : (b.d.ph + 1) * b.d.ny = b.d.nY := rfl
  have hD : b.d.ph * b.d.nu = b.d.nD := rfl
  have hV : b.d.nV = b.d.nS + b.d.nD := rfl
  have hI : b.d.nI = b.d.nS + (b.d.nY + b.d.nD + (b.d.ph + 1)) := rfl
  have hC : b.d.nC = b.d.nS + b.d.nI := rfl
  unfold build
  simp only [hS, hY, hD]
  refine Post.bind (buildP_post b hb) fun P hP => ?_
  refine Post.bind (buildAeq_post b hb) fun Aeq hAeq => ?_
  refine Post.bind (buildAineq_post b hb) fun Aineq hAineq => ?_
  refine Post.bind (buildBound_post b.d hph _ _ _ _ _ _ _ hb.lineq hb.minX hb.minU hb.minY hb.sMin)
    fun lineq hl => ?_
  refine Post.bind (buildBound_post b.d hph _ _ _ _ _ _ _ hb.uineq hb.maxX hb.maxU hb.maxY hb.sMax)
    fun uineq hu => ?_
  rw [Mat.setBlock_ok (by simp [hb.A.1]; omega) (by simp [hb.A.2]; omega) hAeq.dims.1
    (by rw [hAeq.dims.2]; omega)]
  simp only [ok_bind]
  rw [Mat.setBlock_ok (by simp [hb.A.1]; omega) (by simp [hb.A.2]; omega)
    (by rw [hAineq.dims.1]; omega) (by rw [hAineq.dims.2]; omega)]
  simp only [ok_bind]
  refine post_pure ⟨rfl, ⟨rfl, rfl, rfl, rfl, rfl, rfl, rfl, rfl, rfl, rfl, rfl, rfl, rfl, rfl, rfl, rfl,
    rfl, rfl, rfl⟩, ⟨hb.ssA, hb.ssB, hb.ssC, hb.ssBv, hb.ssDv, hb.wOutput, hb.wU, hb.wDeltaU, hb.minX, hb.maxX,
    hb.minY, hb.maxY, hb.minU, hb.maxU, hb.sMin, hb.sMax, hb.sMul, hb.leq, hb.ueq, hl.size, hu.size, hb.off,
    hP.dims, hb.q, hb.A, hb.l, hb.u⟩, ⟨⟨hP.dims, hP.xx, hP.xd, hP.dx, hP.dd⟩, ?_, ?_, hl, hu⟩⟩
  · have hget : ∀ r c, r < b.d.nS → c < b.d.nV → ((((Mat.const b.A.rows b.A.cols 0 : Mat K).setBlockRaw 0 0 b.d.nS
        (b.d.nS + b.d.nD) Aeq.get).setBlockRaw b.d.nS 0 (b.d.nS + (b.d.nY + b.d.nD) + (b.d.ph + 1))
        (b.d.nS + b.d.nD) Aineq.get).get r c) = Aeq.get r c := by
      intro r c hr hc
      rw [Mat.setBlockRaw_out _ _ _ _ _ _ (by omega)]
      have := Mat.setBlockRaw_in (Mat.const b.A.rows b.A.cols 0 : Mat K) 0 0 b.d.nS (b.d.nS + b.d.nD) Aeq.get
        hr (j := c) (by omega)
      simpa using this
    refine ⟨⟨rfl, rfl⟩, ?_, ?_⟩ <;> dsimp only
    · intro i a j c hi hj ha hc
      have h1 := block_lt (i := i) (n := b.d.ph + 1) ha (by omega)
      have h2 := block_lt (i := j) (n := b.d.ph + 1) hc (by omega)
      refine (hget _ _ (by omega) (by omega)).trans (hAeq.xx i a j c hi hj ha hc)
    · intro i a j c hi hj ha hc
      have h1 := block_lt (i := i) (n := b.d.ph + 1) ha (by omega)
      have h2 := block_lt (i := j) (n := b.d.ph) hc hj
      refine (hget _ _ (by omega) (by omega)).trans (hAeq.xd i a j c hi hj ha hc)
  · have hget : ∀ r c, r < b.d.nI → c < b.d.nV → ((((Mat.const b.A.rows b.A.cols 0 : Mat K).setBlockRaw 0 0 b.d.nS
        (b.d.nS + b.d.nD) Aeq.get).setBlockRaw b.d.nS 0 (b.d.nS + (b.d.nY + b.d.nD) + (b.d.ph + 1))
        (b.d.nS + b.d.nD) Aineq.get).get (b.d.nS + r) c) = Aineq.get r c := by
      intro r c hr hc
      have := Mat.setBlockRaw_in ((Mat.const b.A.rows b.A.cols 0 : Mat K).setBlockRaw 0 0 b.d.nS
        (b.d.nS + b.d.nD) Aeq.get) b.d.nS 0 (b.d.nS + (b.d.nY + b.d.nD) + (b.d.ph + 1)) (b.d.nS + b.d.nD) Aineq.get
        (i := r) (by omega) (j := c) (by omega)
      simpa using this
    refine ⟨⟨rfl, rfl⟩, ?_, ?_, ?_, ?_, ?_, ?_⟩ <;> dsimp only
    · intro r c hr hc
      exact (hget _ _ (by omega) (by omega)).trans (hAineq.sx r c hr hc)
    · intro i a j c hi hj ha hc
      have h1 := block_lt (i := i) (n := b.d.ph + 1) ha (by omega)
      have h2 := block_lt (i := j) (n := b.d.ph + 1) hc (by omega)
      refine (hget _ _ (by omega) (by omega)).trans (hAineq.yx i a j c hi hj ha hc)
    · intro r c hr hc
      exact (hget _ _ (by omega) (by omega)).trans (hAineq.yd r c hr hc)
    · intro r c hr hc
      exact (hget _ _ (by omega) (by omega)).trans (hAineq.dr r c hr hc)
    · intro i c hi hc
      exact (hget _ _ (by omega) (by omega)).trans (hAineq.cx i c hi hc)
    · intro i c hi hc
      exact (hget _ _ (by omega) (by omega)).trans (hAineq.cd i c hi hc)

end Builder
end Mpc
