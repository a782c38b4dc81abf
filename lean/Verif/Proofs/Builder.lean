import Mathlib.Tactic.Ring
import Mathlib.Algebra.BigOperators.Ring.Finset
import Mathlib.Algebra.BigOperators.Group.Finset.Piecewise
import Verif.Basic.ExactOps
import Verif.Model.ProblemBuilder

/-
Pointwise characterisation of the matrices assembled by the problem builder.
-/
namespace Mpc
open Exec

section raw
variable {α : Type}

theorem Mat.setBlockRaw_in (m : Mat α) (r0 c0 h w : Nat) (src : Nat → Nat → α) {i j : Nat} (hi : i < h)
    (hj : j < w) : (m.setBlockRaw r0 c0 h w src).get (r0 + i) (c0 + j) = src i j := by
  have h1 : (r0 ≤ r0 + i ∧ r0 + i < r0 + h) ∧ (c0 ≤ c0 + j ∧ c0 + j < c0 + w) := by omega
  simp [Mat.setBlockRaw, h1]

theorem Mat.setBlockRaw_out (m : Mat α) (r0 c0 h w : Nat) (src : Nat → Nat → α) {i j : Nat}
    (hij : i < r0 ∨ r0 + h ≤ i ∨ j < c0 ∨ c0 + w ≤ j) :
    (m.setBlockRaw r0 c0 h w src).get i j = m.get i j := by
  have h1 : ¬ ((r0 ≤ i ∧ i < r0 + h) ∧ (c0 ≤ j ∧ j < c0 + w)) := by omega
  simp [Mat.setBlockRaw, h1]

@[simp] theorem Mat.setBlockRaw_rows (m : Mat α) (r0 c0 h w : Nat) (src : Nat → Nat → α) :
    (m.setBlockRaw r0 c0 h w src).rows = m.rows := rfl
@[simp] theorem Mat.setBlockRaw_cols (m : Mat α) (r0 c0 h w : Nat) (src : Nat → Nat → α) :
    (m.setBlockRaw r0 c0 h w src).cols = m.cols := rfl
@[simp] theorem Mat.setColRaw_rows (m : Mat α) (j : Nat) (v : Nat → α) : (m.setColRaw j v).rows = m.rows := rfl
@[simp] theorem Mat.setColRaw_cols (m : Mat α) (j : Nat) (v : Nat → α) : (m.setColRaw j v).cols = m.cols := rfl
@[simp] theorem Mat.setColRaw_get (m : Mat α) (j : Nat) (v : Nat → α) (i k : Nat) :
    (m.setColRaw j v).get i k = if k = j then v i else m.get i k := rfl
@[simp] theorem Mat.setRowRaw_rows (m : Mat α) (j : Nat) (v : Nat → α) : (m.setRowRaw j v).rows = m.rows := rfl
@[simp] theorem Mat.setRowRaw_cols (m : Mat α) (j : Nat) (v : Nat → α) : (m.setRowRaw j v).cols = m.cols := rfl
@[simp] theorem Mat.setRowRaw_get (m : Mat α) (j : Nat) (v : Nat → α) (i k : Nat) :
    (m.setRowRaw j v).get i k = if i = j then v k else m.get i k := rfl
@[simp] theorem Mat.const_rows (r c : Nat) (a : α) : (Mat.const r c a).rows = r := rfl
@[simp] theorem Mat.const_cols (r c : Nat) (a : α) : (Mat.const r c a).cols = c := rfl
@[simp] theorem Mat.const_get (r c : Nat) (a : α) (i j : Nat) : (Mat.const r c a).get i j = a := rfl
@[simp] theorem Mat.transpose_rows (m : Mat α) : m.transpose.rows = m.cols := rfl
@[simp] theorem Mat.transpose_cols (m : Mat α) : m.transpose.cols = m.rows := rfl
@[simp] theorem Mat.transpose_get (m : Mat α) (i j : Nat) : m.transpose.get i j = m.get j i := rfl
@[simp] theorem Mat.neg_rows [Neg α] (m : Mat α) : m.neg.rows = m.rows := rfl
@[simp] theorem Mat.neg_cols [Neg α] (m : Mat α) : m.neg.cols = m.cols := rfl
@[simp] theorem Mat.neg_get [Neg α] (m : Mat α) (i j : Nat) : m.neg.get i j = - m.get i j := rfl
@[simp] theorem Mat.identity_rows [Zero α] [One α] (r c : Nat) : (Mat.identity r c : Mat α).rows = r := rfl
@[simp] theorem Mat.identity_cols [Zero α] [One α] (r c : Nat) : (Mat.identity r c : Mat α).cols = c := rfl
@[simp] theorem Mat.identity_get [Zero α] [One α] (r c i j : Nat) :
    (Mat.identity r c : Mat α).get i j = if i = j then 1 else 0 := rfl
@[simp] theorem Mat.kron_rows [Mul α] (m n : Mat α) : (m.kron n).rows = m.rows * n.rows := rfl
@[simp] theorem Mat.kron_cols [Mul α] (m n : Mat α) : (m.kron n).cols = m.cols * n.cols := rfl
@[simp] theorem Vec.asDiagonal_rows [Zero α] (v : Vec α) : v.asDiagonal.rows = v.size := rfl
@[simp] theorem Vec.asDiagonal_cols [Zero α] (v : Vec α) : v.asDiagonal.cols = v.size := rfl
@[simp] theorem Vec.asDiagonal_get [Zero α] (v : Vec α) (i j : Nat) :
    v.asDiagonal.get i j = if i = j then v.get i else 0 := rfl
@[simp] theorem Vec.asCol_rows (v : Vec α) : v.asCol.rows = v.size := rfl
@[simp] theorem Vec.asCol_cols (v : Vec α) : v.asCol.cols = 1 := rfl
@[simp] theorem Vec.asCol_get (v : Vec α) (i j : Nat) : v.asCol.get i j = v.get i := rfl
@[simp] theorem Vec.asRow_rows (v : Vec α) : v.asRow.rows = 1 := rfl
@[simp] theorem Vec.asRow_cols (v : Vec α) : v.asRow.cols = v.size := rfl
@[simp] theorem Vec.asRow_get (v : Vec α) (i j : Nat) : v.asRow.get i j = v.get j := rfl
@[simp] theorem Vec.const_size (n : Nat) (a : α) : (Vec.const n a).size = n := rfl
@[simp] theorem Vec.const_get (n : Nat) (a : α) (i : Nat) : (Vec.const n a).get i = a := rfl
@[simp] theorem Vec.neg_size [Neg α] (v : Vec α) : v.neg.size = v.size := rfl
@[simp] theorem Vec.neg_get [Neg α] (v : Vec α) (i : Nat) : v.neg.get i = - v.get i := rfl
@[simp] theorem Vec.setSegRaw_size (v src : Vec α) (s n : Nat) : (v.setSegRaw s n src).size = v.size := rfl
@[simp] theorem Vec.setRaw_size (v : Vec α) (i : Nat) (a : α) : (v.setRaw i a).size = v.size := rfl
@[simp] theorem Vec.setRaw_get (v : Vec α) (i k : Nat) (a : α) :
    (v.setRaw i a).get k = if k = i then a else v.get k := rfl
@[simp] theorem Mat.dataVec_size (m : Mat α) : m.dataVec.size = m.rows * m.cols := rfl

theorem Vec.setSegRaw_in (v src : Vec α) (s n : Nat) {i : Nat} (hi : i < n) :
    (v.setSegRaw s n src).get (s + i) = src.get i := by
  have h1 : s ≤ s + i ∧ s + i < s + n := by omega
  simp [Vec.setSegRaw, h1]

theorem Vec.setSegRaw_out (v src : Vec α) (s n : Nat) {i : Nat} (hi : i < s ∨ s + n ≤ i) :
    (v.setSegRaw s n src).get i = v.get i := by
  have h1 : ¬ (s ≤ i ∧ i < s + n) := by omega
  simp [Vec.setSegRaw, h1]

/-- Writing block `k` of a stacked vector, seen entry by entry. -/
theorem Vec.setSegRaw_block (v src : Vec α) (o k s : Nat) {i a : Nat} (ha : a < s) :
    (v.setSegRaw (o + k * s) s src).get (o + (i * s + a)) =
      if i = k then src.get a else v.get (o + (i * s + a)) := by
  have h := block_mem_iff' (i := i) (k := k) o ha
  simp only [Vec.setSegRaw, h]
  split
  · next hik => subst hik; congr 1; omega
  · rfl

theorem Vec.setSegRaw_block0 (v src : Vec α) (k s : Nat) {i a : Nat} (ha : a < s) :
    (v.setSegRaw (k * s) s src).get (i * s + a) =
      if i = k then src.get a else v.get (i * s + a) := by
  have := Vec.setSegRaw_block v src 0 k s (i := i) ha
  simpa using this

theorem Mat.kron_get [Mul α] (m n : Mat α) {r c i a j b : Nat} (hr : n.rows = r) (hc : n.cols = c)
    (ha : a < r) (hb : b < c) :
    (m.kron n).get (i * r + a) (j * c + b) = m.get i j * n.get a b := by
  subst hr; subst hc
  simp only [Mat.kron, block_div _ ha, block_div _ hb, block_mod _ ha, block_mod _ hb]

theorem Mat.dataVec_get (m : Mat α) {r i a : Nat} (hr : m.rows = r) (ha : a < r) :
    m.dataVec.get (i * r + a) = m.get a i := by
  subst hr
  simp only [Mat.dataVec, block_div _ ha, block_mod _ ha]

end raw

namespace Builder
variable {K : Type} [Zero K] [One K] [Add K] [Mul K] [Neg K]

/-- All members have the sizes given to them by `onInit`. -/
structure Shaped (b : Builder K) : Prop where
  ssA : b.ssA.rows = b.d.nu + b.d.nx ∧ b.ssA.cols = b.d.nu + b.d.nx
  ssB : b.ssB.rows = b.d.nu + b.d.nx ∧ b.ssB.cols = b.d.nu
  ssC : b.ssC.rows = b.d.nu + b.d.ny ∧ b.ssC.cols = b.d.nu + b.d.nx
  ssBv : b.ssBv.rows = b.d.nu + b.d.nx ∧ b.ssBv.cols = b.d.ndu
  ssDv : b.ssDv.rows = b.d.nu + b.d.ny ∧ b.ssDv.cols = b.d.ndu
  wOutput : b.wOutput.rows = b.d.ny ∧ b.wOutput.cols = b.d.ph + 1
  wU : b.wU.rows = b.d.nu ∧ b.wU.cols = b.d.ph + 1
  wDeltaU : b.wDeltaU.rows = b.d.nu ∧ b.wDeltaU.cols = b.d.ph
  minX : b.minX.rows = b.d.nx ∧ b.minX.cols = b.d.ph + 1
  maxX : b.maxX.rows = b.d.nx ∧ b.maxX.cols = b.d.ph + 1
  minY : b.minY.rows = b.d.ny ∧ b.minY.cols = b.d.ph + 1
  maxY : b.maxY.rows = b.d.ny ∧ b.maxY.cols = b.d.ph + 1
  minU : b.minU.rows = b.d.nu ∧ b.minU.cols = b.d.ph
  maxU : b.maxU.rows = b.d.nu ∧ b.maxU.cols = b.d.ph
  sMin : b.sMin.size = b.d.ph + 1
  sMax : b.sMax.size = b.d.ph + 1
  sMul : b.sMultiplier.rows = b.d.ph + 1 ∧ b.sMultiplier.cols = (b.d.ph + 1) * (b.d.nu + b.d.nx)
  leq : b.leq.size = (b.d.ph + 1) * (b.d.nu + b.d.nx)
  ueq : b.ueq.size = (b.d.ph + 1) * (b.d.nu + b.d.nx)
  lineq : b.lineq.size = b.d.nI
  uineq : b.uineq.size = b.d.nI
  off : b.ineqOffset.size = b.d.nI
  P : b.P.rows = b.d.nV ∧ b.P.cols = b.d.nV
  q : b.q.size = b.d.nV
  A : b.A.rows = b.d.nC ∧ b.A.cols = b.d.nV
  l : b.l.size = b.d.nC
  u : b.u.size = b.d.nC

/-- The diagonal weight of step `i` on the extended output `[y; u]`. -/
def wDiag (b : Builder K) (i e : Nat) : K :=
  if e < b.d.ny then b.wOutput.get e i else b.wU.get (e - b.d.ny) i

/-- Pointwise description of the Hessian. -/
structure PSpec (b : Builder K) (P : Mat K) : Prop where
  dims : P.rows = b.d.nV ∧ P.cols = b.d.nV
  xx : ∀ i a j c, i ≤ b.d.ph → j ≤ b.d.ph → a < b.d.nu + b.d.nx → c < b.d.nu + b.d.nx →
    P.get (i * (b.d.nu + b.d.nx) + a) (j * (b.d.nu + b.d.nx) + c) =
      if i = j then sumTo (b.d.nu + b.d.ny) (fun e => b.ssC.get e a * b.wDiag i e * b.ssC.get e c) else 0
  xd : ∀ i a j c, i ≤ b.d.ph → j < b.d.ph → a < b.d.nu + b.d.nx → c < b.d.nu →
    P.get (i * (b.d.nu + b.d.nx) + a) (b.d.nS + (j * b.d.nu + c)) = 0
  dx : ∀ i a j c, i ≤ b.d.ph → j < b.d.ph → a < b.d.nu + b.d.nx → c < b.d.nu →
    P.get (b.d.nS + (j * b.d.nu + c)) (i * (b.d.nu + b.d.nx) + a) = 0
  dd : ∀ i a j c, i < b.d.ph → j < b.d.ph → a < b.d.nu → c < b.d.nu →
    P.get (b.d.nS + (i * b.d.nu + a)) (b.d.nS + (j * b.d.nu + c)) =
      if i = j ∧ a = c then b.wDeltaU.get a i else 0

/-- The working matrix `wExtendedState` after step `i`. -/
def WSpec (b : Builder K) (n i : Nat) (w : Mat K) : Prop :=
  (w.rows = n ∧ w.cols = n) ∧
  ∀ e f, e < n → f < n → w.get e f = if e = f then b.wDiag i e else 0

/-- Shape of `wExtendedState` before the first iteration: off-diagonal blocks are zero. -/
def WShape (n ny : Nat) (w : Mat K) : Prop :=
  (w.rows = n ∧ w.cols = n) ∧ ∀ e f, (e < ny ∧ ny ≤ f) ∨ (ny ≤ e ∧ f < ny) → w.get e f = 0

/-- The two block assignments which put the weights of step `i` on the diagonal of `wExtendedState`. -/
theorem wUpdate (b : Builder K) (hb : b.Shaped) {i : Nat} (hi : i ≤ b.d.ph) {n : Nat}
    (hn : n = b.d.nu + b.d.ny) (w : Mat K)
    (hw : WShape n b.d.ny w) :
    ∃ co cu w1 w2, b.wOutput.col i = .ok co ∧ w.setBlock 0 0 b.d.ny b.d.ny co.asDiagonal = .ok w1 ∧
      b.wU.col i = .ok cu ∧ w1.setBlock b.d.ny b.d.ny b.d.nu b.d.nu cu.asDiagonal = .ok w2 ∧
      b.WSpec n i w2 ∧ WShape n b.d.ny w2 := by
  subst hn
  refine ⟨_, _, _, _, Mat.col_ok (by rw [hb.wOutput.2]; omega), Mat.setBlock_ok (by rw [hw.1.1]; omega)
    (by rw [hw.1.2]; omega) hb.wOutput.1 hb.wOutput.1, Mat.col_ok (by rw [hb.wU.2]; omega),
    Mat.setBlock_ok (by simp [hw.1.1]; omega)
    (by simp [hw.1.2]; omega) hb.wU.1 hb.wU.1, ⟨⟨hw.1.1, hw.1.2⟩, ?_⟩, ⟨⟨hw.1.1, hw.1.2⟩, ?_⟩⟩
  · intro e f he hf
    simp only [Mat.setBlockRaw, Vec.asDiagonal_get, wDiag]
    have hz := hw.2 e f
    split_ifs <;> first | rfl | omega | (apply hz; omega)
  · intro e f h
    have hz := hw.2 e f h
    simp only [Mat.setBlockRaw, Vec.asDiagonal_get]
    split_ifs <;> first | rfl | omega

variable [ExactOps K]

theorem buildP_post (b : Builder K) (hb : b.Shaped) : Post b.buildP (b.PSpec) := by
  have hnV : b.d.nV = (b.d.ph + 1) * (b.d.nu + b.d.nx) + b.d.ph * b.d.nu := rfl
  unfold buildP
  simp only []
  refine Post.bind (Q := fun wP : Mat K × Mat K => b.PSpec wP.2) ?_ (fun wP h => ?_)
  · refine Post.mono (forRange_post _ _ _ (fun k (wP : Mat K × Mat K) =>
      WShape (b.d.nu + b.d.ny) b.d.ny wP.1 ∧
      (wP.2.rows = b.d.nV ∧ wP.2.cols = b.d.nV) ∧
      (∀ i a j c, i ≤ b.d.ph → j ≤ b.d.ph → a < b.d.nu + b.d.nx → c < b.d.nu + b.d.nx →
        wP.2.get (i * (b.d.nu + b.d.nx) + a) (j * (b.d.nu + b.d.nx) + c) =
        if i = j ∧ i < k then
          sumTo (b.d.nu + b.d.ny) (fun e => b.ssC.get e a * b.wDiag i e * b.ssC.get e c) else 0) ∧
      (∀ i a j c, i ≤ b.d.ph → j < b.d.ph → a < b.d.nu + b.d.nx → c < b.d.nu →
        wP.2.get (i * (b.d.nu + b.d.nx) + a) (b.d.nS + (j * b.d.nu + c)) = 0) ∧
      (∀ i a j c, i ≤ b.d.ph → j < b.d.ph → a < b.d.nu + b.d.nx → c < b.d.nu →
        wP.2.get (b.d.nS + (j * b.d.nu + c)) (i * (b.d.nu + b.d.nx) + a) = 0) ∧
      (∀ i a j c, i < b.d.ph → j < b.d.ph → a < b.d.nu → c < b.d.nu →
        wP.2.get (b.d.nS + (i * b.d.nu + a)) (b.d.nS + (j * b.d.nu + c)) =
          if (i = j ∧ a = c) ∧ i < k then b.wDeltaU.get a i else 0)) ?_ ?_) ?_
    · refine ⟨⟨⟨rfl, rfl⟩, fun _ _ _ => rfl⟩, ⟨hb.P.1, hb.P.2⟩, ?_, ?_, ?_, ?_⟩ <;> intros <;> simp
    · rintro k ⟨w, P⟩ hk ⟨hw, hP, hxx, hxd, hdx, hdd⟩
      simp only at hw hP hxx hxd hdx hdd
      obtain ⟨co, cu, w1, w2, e1, e2, e3, e4, hw2, hw2'⟩ := b.wUpdate hb (i := k) (by omega) rfl w hw
      simp only [e1, e2, e3, e4, ok_bind]
      rw [Mat.mul_ok (by simp [hb.ssC.1, hw2.1.1])]
      simp only [ok_bind]
      rw [Mat.mul_ok (by simp [hb.ssC.1, hw2.1.2])]
      simp only [ok_bind]
      have hkS : k * (b.d.nu + b.d.nx) + (b.d.nu + b.d.nx) ≤ b.d.nS := block_end_le (by omega)
      have hSV : b.d.nS + b.d.nD = b.d.nV := rfl
      rw [Mat.setBlock_ok (by rw [hP.1]; omega) (by rw [hP.2]; omega)
        (by simp [hb.ssC.2]) (by simp [hb.ssC.2])]
      simp only [ok_bind]
      have hT : ∀ a c, a < b.d.nu + b.d.nx → c < b.d.nu + b.d.nx →
          sumTo w2.cols (fun k_1 => sumTo b.ssC.transpose.cols (fun k => b.ssC.transpose.get a k * w2.get k k_1)
            * b.ssC.get k_1 c)
          = sumTo (b.d.nu + b.d.ny) (fun e => b.ssC.get e a * b.wDiag k e * b.ssC.get e c) := by
        intro a c ha hc
        rw [hw2.1.2]
        refine sumTo_congr fun e he => ?_
        congr 1
        simp only [Mat.transpose_cols, Mat.transpose_get, hb.ssC.1]
        rw [sumTo_single he fun f hf hne => by rw [hw2.2 f e hf he, if_neg hne, ExactOps.mul_zero]]
        rw [hw2.2 e e he he, if_pos rfl]
      -- the state after the first block assignment
      have key : ∀ P' : Mat K, P' = P.setBlockRaw (k * (b.d.nu + b.d.nx)) (k * (b.d.nu + b.d.nx))
          (b.d.nu + b.d.nx) (b.d.nu + b.d.nx)
          (fun i j => sumTo w2.cols (fun k_1 => sumTo b.ssC.transpose.cols
            (fun k => b.ssC.transpose.get i k * w2.get k k_1) * b.ssC.get k_1 j)) →
        (P'.rows = b.d.nV ∧ P'.cols = b.d.nV) ∧
        (∀ i a j c, i ≤ b.d.ph → j ≤ b.d.ph → a < b.d.nu + b.d.nx → c < b.d.nu + b.d.nx →
          P'.get (i * (b.d.nu + b.d.nx) + a) (j * (b.d.nu + b.d.nx) + c) =
          if i = j ∧ i < k + 1 then
            sumTo (b.d.nu + b.d.ny) (fun e => b.ssC.get e a * b.wDiag i e * b.ssC.get e c) else 0) ∧
        (∀ i a j c, i ≤ b.d.ph → j < b.d.ph → a < b.d.nu + b.d.nx → c < b.d.nu →
          P'.get (i * (b.d.nu + b.d.nx) + a) (b.d.nS + (j * b.d.nu + c)) = 0) ∧
        (∀ i a j c, i ≤ b.d.ph → j < b.d.ph → a < b.d.nu + b.d.nx → c < b.d.nu →
          P'.get (b.d.nS + (j * b.d.nu + c)) (i * (b.d.nu + b.d.nx) + a) = 0) ∧
        (∀ i a j c, i < b.d.ph → j < b.d.ph → a < b.d.nu → c < b.d.nu →
          P'.get (b.d.nS + (i * b.d.nu + a)) (b.d.nS + (j * b.d.nu + c)) =
            if (i = j ∧ a = c) ∧ i < k then b.wDeltaU.get a i else 0) := by
        rintro P' rfl
        refine ⟨⟨hP.1, hP.2⟩, ?_, ?_, ?_, ?_⟩
        · intro i a j c hi hj ha hc
          simp only [Mat.setBlockRaw, block_mem_iff ha, block_mem_iff hc]
          split_ifs with h1 h2 h2
          · obtain ⟨rfl, rfl⟩ := h1
            simp only [Nat.add_sub_cancel_left]
            exact hT a c ha hc
          · omega
          · rw [hxx i a j c hi hj ha hc, if_pos (by omega)]
          · rw [hxx i a j c hi hj ha hc, if_neg (by omega)]
        · intro i a j c hi hj ha hc
          rw [Mat.setBlockRaw_out _ _ _ _ _ _ (by omega)]
          exact hxd i a j c hi hj ha hc
        · intro i a j c hi hj ha hc
          rw [Mat.setBlockRaw_out _ _ _ _ _ _ (by omega)]
          exact hdx i a j c hi hj ha hc
        · intro i a j c hi hj ha hc
          rw [Mat.setBlockRaw_out _ _ _ _ _ _ (by omega)]
          exact hdd i a j c hi hj ha hc
      generalize hg : P.setBlockRaw _ _ _ _ _ = P'
      obtain ⟨hP', hxx', hxd', hdx', hdd'⟩ := key _ hg.symm
      by_cases hkp : k < b.d.ph
      · simp only [hkp, if_true]
        rw [Mat.col_ok (by rw [hb.wDeltaU.2]; exact hkp)]
        simp only [ok_bind]
        have hkD : k * b.d.nu + b.d.nu ≤ b.d.nD := block_end_le hkp
        have hS : (b.d.ph + 1) * (b.d.nu + b.d.nx) = b.d.nS := rfl
        rw [hS]
        rw [Mat.setBlock_ok (by rw [hP'.1]; omega) (by rw [hP'.2]; omega)
          (by simp [hb.wDeltaU.1]) (by simp [hb.wDeltaU.1])]
        simp only [ok_bind]
        refine post_pure ⟨hw2', ⟨hP'.1, hP'.2⟩, ?_, ?_, ?_, ?_⟩
        · intro i a j c hi hj ha hc
          have h1 := block_lt (i := i) (n := b.d.ph + 1) ha (by omega)
          rw [hS] at h1
          rw [Mat.setBlockRaw_out _ _ _ _ _ _ (by omega)]
          exact hxx' i a j c hi hj ha hc
        · intro i a j c hi hj ha hc
          have h1 := block_lt (i := i) (n := b.d.ph + 1) ha (by omega)
          rw [hS] at h1
          rw [Mat.setBlockRaw_out _ _ _ _ _ _ (by omega)]
          exact hxd' i a j c hi hj ha hc
        · intro i a j c hi hj ha hc
          have h1 := block_lt (i := i) (n := b.d.ph + 1) ha (by omega)
          rw [hS] at h1
          rw [Mat.setBlockRaw_out _ _ _ _ _ _ (by omega)]
          exact hdx' i a j c hi hj ha hc
        · intro i a j c hi hj ha hc
          have e := hdd' i a j c hi hj ha hc
          simp only [Mat.setBlockRaw, block_mem_iff' _ ha, block_mem_iff' _ hc, Vec.asDiagonal_get]
          split_ifs with h1 h2 h3 h3
          · obtain ⟨rfl, rfl⟩ := h1
            congr 1; omega
          · exfalso; obtain ⟨rfl, rfl⟩ := h1; apply h3; omega
          · exfalso; obtain ⟨rfl, rfl⟩ := h1; apply h2; omega
          · rfl
          · rw [e, if_pos (by omega)]
          · rw [e, if_neg (by omega)]
      · simp only [hkp, if_false]
        refine post_pure ⟨hw2', hP', hxx', hxd', hdx', ?_⟩
        intro i a j c hi hj ha hc
        rw [hdd' i a j c hi hj ha hc]
        exact if_congr (by omega) rfl rfl
    · rintro ⟨w, P⟩ ⟨_, hP, hxx, hxd, hdx, hdd⟩
      refine ⟨hP, ?_, hxd, hdx, ?_⟩
      · intro i a j c hi hj ha hc
        rw [hxx i a j c hi hj ha hc]
        exact if_congr (by omega) rfl rfl
      · intro i a j c hi hj ha hc
        rw [hdd i a j c hi hj ha hc]
        exact if_congr (by omega) rfl rfl
  · exact post_pure h

end Builder
end Mpc
