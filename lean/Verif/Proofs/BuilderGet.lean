import Verif.Proofs.Builder2

/-
Characterisation of `ProblemBuilder::get`.
-/
namespace Mpc
open Exec
namespace Builder
variable {K : Type} [Zero K] [One K] [Add K] [Mul K] [Neg K]

/-- Sizes of the arguments of `get`. -/
structure ArgShaped (d : Dims) (x0 u0 : Vec K) (yRef uRef duRef uMeas : Mat K) : Prop where
  x0 : x0.size = d.nx
  u0 : u0.size = d.nu
  yRef : yRef.rows = d.ny ∧ yRef.cols = d.ph
  uRef : uRef.rows = d.nu ∧ uRef.cols = d.ph
  duRef : duRef.rows = d.nu ∧ duRef.cols = d.ph
  uMeas : uMeas.rows = d.ndu ∧ uMeas.cols = d.ph

/-- reference on the extended output -/
def extRef (d : Dims) (yRef uRef : Mat K) (e c : Nat) : K :=
  if e < d.ny then yRef.get e c else uRef.get (e - d.ny) c

/-- `(ssDv * uMeas.col(c))(e)` -/
def distY (b : Builder K) (uMeas : Mat K) (e c : Nat) : K :=
  sumTo b.d.ndu fun k => b.ssDv.get e k * uMeas.get k c

/-- `(ssBv * uMeas.col(c))(a)` -/
def distX (b : Builder K) (uMeas : Mat K) (a c : Nat) : K :=
  sumTo b.d.ndu fun k => b.ssBv.get a k * uMeas.get k c

/-- the linear cost of step `i` on the extended state -/
def qEntry (b : Builder K) (yRef uRef uMeas : Mat K) (i a : Nat) : K :=
  sumTo (b.d.nu + b.d.ny) fun e =>
    b.ssC.get e a * b.wDiag i e * (-(extRef b.d yRef uRef e (i - 1)) + b.distY uMeas e (i - 1))

/-- Loop invariant / result of the loop of `get`. -/
structure LoopSpec (b : Builder K) (yRef uRef duRef uMeas : Mat K) (k : Nat) (s : GetState K) : Prop where
  w : WShape (b.d.nu + b.d.ny) b.d.ny s.w
  qs : s.q.size = b.d.nV
  ls : s.leq.size = b.d.nS
  os : s.off.size = b.d.nI
  qx : ∀ i a, i < k → a < b.d.nu + b.d.nx →
    s.q.get (i * (b.d.nu + b.d.nx) + a) = b.qEntry yRef uRef uMeas i a
  qd : ∀ i a, i < k → i < b.d.ph → a < b.d.nu →
    s.q.get (b.d.nS + (i * b.d.nu + a)) = -(b.wDeltaU.get a i * duRef.get a (i - 1))
  le : ∀ i a, 0 < i → i < k → a < b.d.nu + b.d.nx →
    s.leq.get (i * (b.d.nu + b.d.nx) + a) = -(b.distX uMeas a (i - 1))
  ox : ∀ r, r < b.d.nS → s.off.get r = 0
  oy : ∀ i a, i < k → a < b.d.ny → s.off.get (b.d.nS + (i * b.d.ny + a)) = -(b.distY uMeas a (i - 1))
  ot : ∀ r, b.d.nS + b.d.nY ≤ r → s.off.get r = 0

/-- `(-ssDv * uMeas.col(c))(e)`, as computed -/
def negDistY (b : Builder K) (uMeas : Mat K) (e c : Nat) : K :=
  sumTo b.d.ndu fun k => -b.ssDv.get e k * uMeas.get k c

/-- `(-ssBv * uMeas.col(c))(a)`, as computed -/
def negDistX (b : Builder K) (uMeas : Mat K) (a c : Nat) : K :=
  sumTo b.d.ndu fun k => -b.ssBv.get a k * uMeas.get k c

/-- the linear cost of step `i` on the extended state, as computed: the matrix of the weights is a dense one, and so is the
product with it -/
def qDense (b : Builder K) (yRef uRef uMeas : Mat K) (i a : Nat) : K :=
  sumTo (b.d.nu + b.d.ny) fun e =>
    (sumTo (b.d.nu + b.d.ny) fun f => b.ssC.get f a * (if f = e then b.wDiag i f else 0)) *
      (-(extRef b.d yRef uRef e (i - 1)) + b.distY uMeas e (i - 1))

/-- Loop invariant / result of the loop of `get`, with the values as computed (no law of arithmetic is used). -/
structure LoopDense (b : Builder K) (yRef uRef duRef uMeas : Mat K) (k : Nat) (s : GetState K) : Prop where
  w : WShape (b.d.nu + b.d.ny) b.d.ny s.w
  qs : s.q.size = b.d.nV
  ls : s.leq.size = b.d.nS
  os : s.off.size = b.d.nI
  qx : ∀ i a, i < k → a < b.d.nu + b.d.nx →
    s.q.get (i * (b.d.nu + b.d.nx) + a) = b.qDense yRef uRef uMeas i a
  qd : ∀ i a, i < k → i < b.d.ph → a < b.d.nu →
    s.q.get (b.d.nS + (i * b.d.nu + a)) = -(b.wDeltaU.get a i * duRef.get a (i - 1))
  le : ∀ i a, 0 < i → i < k → a < b.d.nu + b.d.nx →
    s.leq.get (i * (b.d.nu + b.d.nx) + a) = b.negDistX uMeas a (i - 1)
  ox : ∀ r, r < b.d.nS → s.off.get r = 0
  oy : ∀ i a, i < k → a < b.d.ny → s.off.get (b.d.nS + (i * b.d.ny + a)) = b.negDistY uMeas a (i - 1)
  ot : ∀ r, b.d.nS + b.d.nY ≤ r → s.off.get r = 0

theorem getBody_post (b : Builder K) (hb : b.Shaped) {x0 u0 : Vec K} {yRef uRef duRef uMeas : Mat K}
    (ha : ArgShaped b.d x0 u0 yRef uRef duRef uMeas) (hph : 0 < b.d.ph) (k : Nat) (s : GetState K)
    (hk : k < b.d.ph + 1)
    (hs : b.LoopDense yRef uRef duRef uMeas k s) :
    Post (b.getBody yRef uRef duRef uMeas k s) (b.LoopDense yRef uRef duRef uMeas (k + 1)) := by
  have hS : (b.d.ph + 1) * (b.d.nu + b.d.nx) = b.d.nS := rfl
  have hY : (b.d.ph + 1) * b.d.ny = b.d.nY := rfl
  have hV : b.d.nV = b.d.nS + b.d.nD := rfl
  have hI : b.d.nI = b.d.nS + (b.d.nY + b.d.nD + (b.d.ph + 1)) := rfl
  have hc : (if k = 0 then 0 else k - 1) = k - 1 := by split <;> omega
  have hkS : k * (b.d.nu + b.d.nx) + (b.d.nu + b.d.nx) ≤ b.d.nS := block_end_le (by omega)
  have hkY : k * b.d.ny + b.d.ny ≤ b.d.nY := block_end_le (by omega)
  obtain ⟨co, cu, w1, w2, e1, e2, e3, e4, hw2, hw2'⟩ := b.wUpdate hb (i := k) (by omega) rfl s.w hs.w
  unfold getBody
  simp only [hc, hS, Nat.add_comm b.d.nx b.d.nu]
  rw [Mat.col_ok (by rw [ha.yRef.2]; omega)]
  simp only [ok_bind]
  rw [Mat.col_ok (by rw [ha.uRef.2]; omega)]
  simp only [ok_bind]
  rw [Mat.col_ok (by rw [ha.duRef.2]; omega)]
  simp only [ok_bind]
  rw [Mat.col_ok (by rw [ha.uMeas.2]; omega)]
  simp only [ok_bind]
  rw [Vec.comma_ok (by simp only [ha.yRef.1, ha.uRef.1])]
  simp only [ok_bind, e1, e2, e3, e4]
  rw [Mat.mul_ok (by simp [hb.ssC.1, hw2.1.1])]
  simp only [ok_bind]
  rw [Mat.mulVec_ok (by simp only [hb.ssDv.2, ha.uMeas.1])]
  simp only [ok_bind]
  rw [Vec.add_ok (by simp only [Vec.neg_size, hb.ssDv.1]; omega)]
  simp only [ok_bind]
  rw [Mat.mulVec_ok (by simp only [Vec.neg_size, hw2.1.2]; omega)]
  simp only [ok_bind]
  rw [Vec.setSeg_ok (by rw [hs.qs]; omega) (by simp [hb.ssC.2])]
  simp only [ok_bind]
  -- value of the linear cost of this step
  have hq : ∀ a, a < b.d.nu + b.d.nx →
      (sumTo w2.cols fun k_1 =>
        (sumTo b.ssC.transpose.cols fun k => b.ssC.transpose.get a k * w2.get k k_1) *
          ((Vec.neg ⟨b.d.ny + b.d.nu, fun k_1 => if k_1 < yRef.rows then yRef.get k_1 (k - 1)
            else uRef.get (k_1 - yRef.rows) (k - 1)⟩).get k_1 +
            sumTo b.ssDv.cols fun k_2 => b.ssDv.get k_1 k_2 * uMeas.get k_2 (k - 1)))
      = b.qDense yRef uRef uMeas k a := by
    intro a haa
    rw [hw2.1.2]
    refine sumTo_congr fun e he => ?_
    congr 1
    · simp only [Mat.transpose_cols, Mat.transpose_get, hb.ssC.1]
      exact sumTo_congr fun f hf => by rw [hw2.2 f e hf he]
    · rw [hb.ssDv.2]
      simp only [Vec.neg_get, extRef, distY, ha.yRef.1]
  generalize hq1 : Vec.setSegRaw s.q _ _ _ = q1
  have hq1x : ∀ i a, i < k + 1 → a < b.d.nu + b.d.nx →
      q1.get (i * (b.d.nu + b.d.nx) + a) = b.qDense yRef uRef uMeas i a := by
    intro i a hi haa
    rw [← hq1, Vec.setSegRaw_block0 _ _ _ _ haa]
    by_cases h : i = k
    · subst h; simp only [if_true]; exact hq a haa
    · rw [if_neg h]; exact hs.qx i a (by omega) haa
  have hq1d : ∀ r, q1.get (b.d.nS + r) = s.q.get (b.d.nS + r) := by
    intro r
    rw [← hq1, Vec.setSegRaw_out _ _ _ _ (by omega)]
  have hq1s : q1.size = b.d.nV := by rw [← hq1]; exact hs.qs
  -- the increment part of q
  have hQ : Post (if k < b.d.ph then do
      let cd ← b.wDeltaU.col k
      let t ← cd.diagMul ⟨duRef.rows, fun i => duRef.get i (k - 1)⟩
      q1.setSeg (b.d.nS + k * b.d.nu) b.d.nu t.neg
    else pure q1) (fun q : Vec K => q.size = b.d.nV ∧
      (∀ i a, i < k + 1 → a < b.d.nu + b.d.nx →
        q.get (i * (b.d.nu + b.d.nx) + a) = b.qDense yRef uRef uMeas i a) ∧
      (∀ i a, i < k + 1 → i < b.d.ph → a < b.d.nu →
        q.get (b.d.nS + (i * b.d.nu + a)) = -(b.wDeltaU.get a i * duRef.get a (i - 1)))) := by
    by_cases hkp : k < b.d.ph
    · have hkD : k * b.d.nu + b.d.nu ≤ b.d.nD := block_end_le hkp
      rw [if_pos hkp, Mat.col_ok (by rw [hb.wDeltaU.2]; exact hkp)]
      simp only [ok_bind]
      rw [Vec.diagMul_ok (by simp only [hb.wDeltaU.1, ha.duRef.1])]
      simp only [ok_bind]
      rw [Vec.setSeg_ok (by omega) (by simp [hb.wDeltaU.1])]
      refine post_ok ⟨hq1s, ?_, ?_⟩
      · intro i a hi haa
        have h1 := block_lt (i := i) (n := b.d.ph + 1) haa (by omega)
        rw [Vec.setSegRaw_out _ _ _ _ (by omega)]
        exact hq1x i a hi haa
      · intro i a hi hip haa
        rw [Vec.setSegRaw_block _ _ _ _ _ haa]
        by_cases h : i = k
        · subst h
          simp only [if_true, Vec.neg_get]
        · rw [if_neg h, hq1d]; exact hs.qd i a (by omega) hip haa
    · rw [if_neg hkp]
      refine post_pure ⟨hq1s, hq1x, ?_⟩
      intro i a hi hip haa
      rw [hq1d]; exact hs.qd i a (by omega) hip haa
  refine Post.bind hQ ?_
  rintro q ⟨hqs, hqx, hqd⟩
  -- the equality bounds
  have hL : Post (if k > 0 then do
      let t ← b.ssBv.neg.mulVec ⟨uMeas.rows, fun i => uMeas.get i (k - 1)⟩
      s.leq.setSeg (k * (b.d.nu + b.d.nx)) (b.d.nu + b.d.nx) t
    else pure s.leq) (fun l : Vec K => l.size = b.d.nS ∧
      (∀ i a, 0 < i → i < k + 1 → a < b.d.nu + b.d.nx →
        l.get (i * (b.d.nu + b.d.nx) + a) = b.negDistX uMeas a (i - 1))) := by
    by_cases hk0 : k > 0
    · rw [if_pos hk0, Mat.mulVec_ok (by simp only [Mat.neg_cols, hb.ssBv.2, ha.uMeas.1])]
      simp only [ok_bind]
      rw [Vec.setSeg_ok (by rw [hs.ls]; omega) (by simp [hb.ssBv.1])]
      refine post_ok ⟨hs.ls, ?_⟩
      intro i a hi0 hi haa
      rw [Vec.setSegRaw_block0 _ _ _ _ haa]
      by_cases h : i = k
      · subst h
        simp only [if_true, Mat.neg_cols, Mat.neg_get, hb.ssBv.2, negDistX]
      · rw [if_neg h]; exact hs.le i a hi0 (by omega) haa
    · rw [if_neg hk0]
      exact post_pure ⟨hs.ls, fun i a h1 h2 => by omega⟩
  refine Post.bind hL ?_
  rintro lq ⟨hls, hle⟩
  rw [Mat.block_ok (by rw [hb.ssDv.1]; omega) (by rw [hb.ssDv.2]; omega)]
  simp only [ok_bind]
  rw [Mat.mulVec_ok (by simp only [Mat.neg_cols, ha.uMeas.1])]
  simp only [ok_bind]
  rw [Nat.add_comm (k * b.d.ny) b.d.nS]
  rw [Vec.setSeg_ok (by rw [hs.os]; omega) (by simp)]
  simp only [ok_bind]
  refine post_pure ⟨hw2', hqs, hls, hs.os, hqx, hqd, hle, ?_, ?_, ?_⟩
  · intro r hr
    rw [Vec.setSegRaw_out _ _ _ _ (by omega)]
    exact hs.ox r hr
  · intro i a hi haa
    rw [Vec.setSegRaw_block _ _ _ _ _ haa]
    by_cases h : i = k
    · subst h
      simp only [if_true, Mat.neg_cols, Mat.neg_get, Nat.zero_add, negDistY]
    · rw [if_neg h]; exact hs.oy i a (by omega) haa
  · intro r hr
    rw [Vec.setSegRaw_out _ _ _ _ (by omega)]
    exact hs.ot r hr

/-- The loop of `get`. -/
theorem getLoop_post (b : Builder K) (hb : b.Shaped) {x0 u0 : Vec K} {yRef uRef duRef uMeas : Mat K}
    (ha : ArgShaped b.d x0 u0 yRef uRef duRef uMeas) (hph : 0 < b.d.ph) :
    Post (forRange (b.d.ph + 1)
      (⟨Mat.const (b.d.ny + b.d.nu) (b.d.ny + b.d.nu) 0, Vec.const b.q.size 0, Vec.const b.leq.size 0,
        Vec.const b.ineqOffset.size 0⟩ : GetState K) (b.getBody yRef uRef duRef uMeas))
      (b.LoopDense yRef uRef duRef uMeas (b.d.ph + 1)) := by
  refine forRange_post _ _ _ (b.LoopDense yRef uRef duRef uMeas) ?_
    (fun k s hk hs => getBody_post b hb ha hph k s hk hs)
  refine ⟨⟨⟨Nat.add_comm _ _, Nat.add_comm _ _⟩, fun _ _ _ => rfl⟩, hb.q, hb.leq, hb.off, ?_, ?_, ?_, ?_, ?_, ?_⟩
  · intros; omega
  · intros; omega
  · intros; omega
  · intros; rfl
  · intros; omega
  · intros; rfl

variable [ExactOps K]

theorem qDense_eq (b : Builder K) (yRef uRef uMeas : Mat K) (i a : Nat) :
    b.qDense yRef uRef uMeas i a = b.qEntry yRef uRef uMeas i a := by
  refine sumTo_congr fun e he => ?_
  rw [sumTo_single he fun f hf hne => by rw [if_neg hne, ExactOps.mul_zero], if_pos rfl]

theorem negDistX_eq (b : Builder K) (uMeas : Mat K) (a c : Nat) : b.negDistX uMeas a c = -(b.distX uMeas a c) := by
  simp only [negDistX, distX, ExactOps.neg_mul, sumTo_neg]

theorem negDistY_eq (b : Builder K) (uMeas : Mat K) (a c : Nat) : b.negDistY uMeas a c = -(b.distY uMeas a c) := by
  simp only [negDistY, distY, ExactOps.neg_mul, sumTo_neg]

theorem LoopDense.exact {b : Builder K} {yRef uRef duRef uMeas : Mat K} {k : Nat} {s : GetState K}
    (h : b.LoopDense yRef uRef duRef uMeas k s) : b.LoopSpec yRef uRef duRef uMeas k s :=
  ⟨h.w, h.qs, h.ls, h.os, fun i a hi ha => by rw [h.qx i a hi ha, qDense_eq], h.qd,
    fun i a h0 hi ha => by rw [h.le i a h0 hi ha, negDistX_eq], h.ox, fun i a hi ha => by rw [h.oy i a hi ha, negDistY_eq], h.ot⟩

/-- Result of `get`. -/
structure GetSpec (b : Builder K) (x0 u0 : Vec K) (yRef uRef duRef uMeas : Mat K) (r : Builder K) : Prop where
  same : SameConfig b r
  shaped : r.Shaped
  P : r.P = b.P
  A : r.A = b.A
  lineq : r.lineq = b.lineq
  uineq : r.uineq = b.uineq
  qx : ∀ i a, i ≤ b.d.ph → a < b.d.nu + b.d.nx →
    r.q.get (i * (b.d.nu + b.d.nx) + a) = b.qEntry yRef uRef uMeas i a
  qd : ∀ i a, i < b.d.ph → a < b.d.nu →
    r.q.get (b.d.nS + (i * b.d.nu + a)) = -(b.wDeltaU.get a i * duRef.get a (i - 1))
  leqlu : ∀ k, k < b.d.nS → r.l.get k = r.u.get k
  l0x : ∀ a, a < b.d.nx → r.l.get a = .fin (-(x0.get a))
  l0u : ∀ a, a < b.d.nu → r.l.get (b.d.nx + a) = .fin (-(u0.get a))
  le : ∀ i a, i < b.d.ph → a < b.d.nu + b.d.nx →
    r.l.get ((i + 1) * (b.d.nu + b.d.nx) + a) = .fin (-(b.distX uMeas a i))
  lx : ∀ k, k < b.d.nS → r.l.get (b.d.nS + k) = b.lineq.get k
  ux : ∀ k, k < b.d.nS → r.u.get (b.d.nS + k) = b.uineq.get k
  ly : ∀ i a, i ≤ b.d.ph → a < b.d.ny → r.l.get (b.d.nS + (b.d.nS + (i * b.d.ny + a))) =
    (b.lineq.get (b.d.nS + (i * b.d.ny + a))).add (-(b.distY uMeas a (i - 1)))
  uy : ∀ i a, i ≤ b.d.ph → a < b.d.ny → r.u.get (b.d.nS + (b.d.nS + (i * b.d.ny + a))) =
    (b.uineq.get (b.d.nS + (i * b.d.ny + a))).add (-(b.distY uMeas a (i - 1)))
  lt : ∀ k, b.d.nS + b.d.nY ≤ k → k < b.d.nI → r.l.get (b.d.nS + k) = b.lineq.get k
  ut : ∀ k, b.d.nS + b.d.nY ≤ k → k < b.d.nI → r.u.get (b.d.nS + k) = b.uineq.get k

theorem get_post (b : Builder K) (hb : b.Shaped) {x0 u0 : Vec K} {yRef uRef duRef uMeas : Mat K}
    (ha : ArgShaped b.d x0 u0 yRef uRef duRef uMeas) (hph : 0 < b.d.ph) :
    Post (b.get x0 u0 yRef uRef duRef uMeas) (b.GetSpec x0 u0 yRef uRef duRef uMeas) := by
  have hS : (b.d.ph + 1) * (b.d.nu + b.d.nx) = b.d.nS := rfl
  have hY : (b.d.ph + 1) * b.d.ny = b.d.nY := rfl
  have hD : b.d.ph * b.d.nu = b.d.nD := rfl
  have hV : b.d.nV = b.d.nS + b.d.nD := rfl
  have hI : b.d.nI = b.d.nS + (b.d.nY + b.d.nD + (b.d.ph + 1)) := rfl
  have hC : b.d.nC = b.d.nS + b.d.nI := rfl
  have hsS : b.d.nu + b.d.nx ≤ b.d.nS := by
    have := block_end_le (s := b.d.nu + b.d.nx) (i := 0) (n := b.d.ph + 1) (by omega)
    omega
  unfold get
  simp only [hS, hY, hD]
  refine Post.bind ((getLoop_post b hb ha hph).mono fun s hs => hs.exact) ?_
  · intro s hs
    rw [Vec.setSeg_ok (by rw [hs.ls]; omega) (by simp [ha.x0])]
    simp only [ok_bind]
    rw [Vec.setSeg_ok (by simp only [Vec.setSegRaw_size, hs.ls]; omega) (by simp [ha.u0])]
    simp only [ok_bind]
    generalize hlq : Vec.setSegRaw (Vec.setSegRaw s.leq _ _ _) _ _ _ = lq
    have hlqs : lq.size = b.d.nS := by rw [← hlq]; exact hs.ls
    have hlq0 : ∀ a, a < b.d.nx → lq.get a = -(x0.get a) := by
      intro a haa
      rw [← hlq, Vec.setSegRaw_out _ _ _ _ (by omega)]
      have := Vec.setSegRaw_in s.leq x0.neg 0 b.d.nx haa
      simpa using this
    have hlq1 : ∀ a, a < b.d.nu → lq.get (b.d.nx + a) = -(u0.get a) := by
      intro a haa
      rw [← hlq, Vec.setSegRaw_in _ _ _ _ haa]; rfl
    have hlq2 : ∀ i a, i < b.d.ph → a < b.d.nu + b.d.nx →
        lq.get ((i + 1) * (b.d.nu + b.d.nx) + a) = -(b.distX uMeas a i) := by
      intro i a hi haa
      have : (i + 1) * (b.d.nu + b.d.nx) = i * (b.d.nu + b.d.nx) + (b.d.nu + b.d.nx) := by ring
      rw [← hlq, Vec.setSegRaw_out _ _ _ _ (by omega), Vec.setSegRaw_out _ _ _ _ (by omega)]
      have := hs.le (i + 1) a (by omega) (by omega) haa
      simpa using this
    rw [Vec.setSeg_ok (by simp only [Vec.const_size, hb.l]; omega) (by exact hlqs)]
    simp only [ok_bind]
    rw [Vec.setSeg_ok (by simp only [Vec.const_size, hb.u]; omega) (by exact hlqs)]
    simp only [ok_bind]
    unfold addOffset
    rw [require_ok (by rw [hb.lineq, hs.os])]
    simp only [ok_bind, pure_bind']
    rw [Vec.setSeg_ok (by simp only [Vec.setSegRaw_size, Vec.const_size, hb.l]; omega)
      (by simp only [hb.lineq]; omega)]
    simp only [ok_bind]
    rw [require_ok (by rw [hb.uineq, hs.os])]
    simp only [ok_bind, pure_bind']
    rw [Vec.setSeg_ok (by simp only [Vec.setSegRaw_size, Vec.const_size, hb.u]; omega)
      (by simp only [hb.uineq]; omega)]
    simp only [ok_bind]
    have hlow : ∀ (v0 : Vec (Ext K)) (lo : Vec (Ext K)) (n k : Nat), k < b.d.nS →
        ((v0.setSegRaw 0 b.d.nS (finVec lq)).setSegRaw b.d.nS n lo).get k = .fin (lq.get k) := by
      intro v0 lo n k hk
      rw [Vec.setSegRaw_out _ _ _ _ (by omega)]
      have := Vec.setSegRaw_in v0 (finVec lq) 0 b.d.nS hk
      rw [Nat.zero_add] at this
      rw [this]; rfl
    have hn : b.d.nS + b.d.nY + b.d.nD + (b.d.ph + 1) = b.d.nI := by omega
    simp only [hn]
    refine post_pure ⟨⟨rfl, rfl, rfl, rfl, rfl, rfl, rfl, rfl, rfl, rfl, rfl, rfl, rfl, rfl, rfl, rfl,
      rfl, rfl, rfl⟩, ⟨hb.ssA, hb.ssB, hb.ssC, hb.ssBv, hb.ssDv, hb.wOutput, hb.wU, hb.wDeltaU, hb.minX, hb.maxX,
      hb.minY, hb.maxY, hb.minU, hb.maxU, hb.sMin, hb.sMax, hb.sMul, hlqs, hlqs, hb.lineq, hb.uineq, hs.os,
      hb.P, hs.qs, hb.A, hb.l, hb.u⟩, rfl, rfl, rfl, rfl, ?_, ?_, ?_, ?_, ?_, ?_, ?_, ?_, ?_, ?_, ?_, ?_⟩
    · intro i a hi haa; exact hs.qx i a (by omega) haa
    · intro i a hi haa; exact hs.qd i a (by omega) hi haa
    · intro k hk
      rw [hlow _ _ _ _ hk, hlow _ _ _ _ hk]
    · intro a haa
      rw [hlow _ _ _ _ (by omega), hlq0 a haa]
    · intro a haa
      rw [hlow _ _ _ _ (by omega), hlq1 a haa]
    · intro i a hi haa
      have := block_lt (i := i + 1) (n := b.d.ph + 1) haa (by omega)
      rw [hlow _ _ _ _ this, hlq2 i a hi haa]
    · intro k hk
      rw [Vec.setSegRaw_in _ _ _ _ (by omega)]
      simp [hs.ox k hk, ExactOps.neg_zero, Ext.add_zero_exact]
    · intro k hk
      rw [Vec.setSegRaw_in _ _ _ _ (by omega)]
      simp [hs.ox k hk, ExactOps.neg_zero, Ext.add_zero_exact]
    · intro i a hi haa
      have := block_lt (i := i) (n := b.d.ph + 1) haa (by omega)
      rw [Vec.setSegRaw_in _ _ _ _ (by omega)]
      simp [hs.oy i a (by omega) haa]
    · intro i a hi haa
      have := block_lt (i := i) (n := b.d.ph + 1) haa (by omega)
      rw [Vec.setSegRaw_in _ _ _ _ (by omega)]
      simp [hs.oy i a (by omega) haa]
    · intro k hk hk2
      rw [Vec.setSegRaw_in _ _ _ _ (by omega)]
      simp [hs.ot k hk, ExactOps.neg_zero, Ext.add_zero_exact]
    · intro k hk hk2
      rw [Vec.setSegRaw_in _ _ _ _ (by omega)]
      simp [hs.ot k hk, ExactOps.neg_zero, Ext.add_zero_exact]

end Builder
end Mpc
