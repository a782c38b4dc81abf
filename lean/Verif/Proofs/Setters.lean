import Verif.Proofs.BuilderGet
import Verif.Spec.LinConfig

/-
The setters of the problem builder refine the per-step register file of `Spec.LinConfig`.
-/
namespace Mpc
open Exec

section helpers
variable {α : Type}

theorem shiftedAssign_post {m M : Mat α} {n ph : Nat} (hph : 0 < ph) (hm : m.rows = n ∧ m.cols = ph + 1)
    (hM : M.rows = n ∧ M.cols = ph) :
    Post (Builder.shiftedAssign m M n ph) (fun r => (r.rows = n ∧ r.cols = ph + 1) ∧
      ∀ a k, a < n → k ≤ ph → r.get a k = M.get a (k - 1)) := by
  unfold Builder.shiftedAssign
  rw [Mat.setBlock_ok (by omega) (by omega) hM.1 hM.2]
  simp only [ok_bind]
  rw [Mat.col_ok (by omega)]
  simp only [ok_bind]
  rw [Mat.setCol_ok (by simp only [Mat.setBlockRaw_cols]; omega) (by simp only [Mat.setBlockRaw_rows]; omega)]
  refine post_ok ⟨hm, ?_⟩
  intro a k ha hk
  simp only [Mat.setColRaw_get, Mat.setBlockRaw]
  by_cases h : k = 0
  · subst h; simp
  · rw [if_neg h, if_pos (by omega)]; rfl

theorem toUnsigned_of_lt {i : Nat} (h : i < 2 ^ 32) : toUnsigned i = i := Nat.mod_eq_of_lt h

theorem indexAssign_post {m : Mat α} {v : Vec α} {index n ph : Nat} (hph : ph < 2 ^ 31)
    (hm : m.rows = n ∧ m.cols = ph + 1) (hv : v.size = n) (hi : index < ph) :
    Post (Builder.indexAssign m index n v) (fun r => (r.rows = n ∧ r.cols = ph + 1) ∧
      ∀ a k, a < n → k ≤ ph → r.get a k = if k - 1 = index then v.get a else m.get a k) := by
  unfold Builder.indexAssign
  rw [toUnsigned_of_lt (by omega), Mat.setBlock_ok (by omega) (by omega) (by exact hv) (by rfl)]
  simp only [ok_bind]
  by_cases h0 : index = 0
  · subst h0
    simp only [if_true]
    rw [Mat.setCol_ok (by simp only [Mat.setBlockRaw_cols]; omega) (by simp only [Mat.setBlockRaw_rows]; omega)]
    refine post_ok ⟨hm, ?_⟩
    intro a k ha hk
    simp only [Mat.setColRaw_get, Mat.setBlockRaw, Vec.asCol_get]
    by_cases h : k = 0
    · subst h; simp
    · rw [if_neg h]
      by_cases h1 : k = 1
      · subst h1; rw [if_pos (by omega), if_pos rfl]; simp
      · rw [if_neg (by omega), if_neg (by omega)]
  · simp only [h0, if_false]
    refine post_pure ⟨hm, ?_⟩
    intro a k ha hk
    simp only [Mat.setBlockRaw, Vec.asCol_get]
    by_cases h1 : k = index + 1
    · subst h1; rw [if_pos (by omega), if_pos (by omega)]; simp
    · rw [if_neg (by omega), if_neg (by omega)]

theorem colAssign_post {m : Mat α} {v : Vec α} {index n c : Nat} (hm : m.rows = n ∧ m.cols = c)
    (hv : v.size = n) (hi : index < c) :
    Post (m.setBlock 0 index n 1 v.asCol) (fun r => (r.rows = n ∧ r.cols = c) ∧
      ∀ a k, a < n → k < c → r.get a k = if k = index then v.get a else m.get a k) := by
  rw [Mat.setBlock_ok (by omega) (by omega) (by exact hv) (by rfl)]
  refine post_ok ⟨hm, ?_⟩
  intro a k ha hk
  simp only [Mat.setBlockRaw, Vec.asCol_get]
  by_cases h1 : k = index
  · subst h1; rw [if_pos (by omega), if_pos rfl]; simp
  · rw [if_neg (by omega), if_neg (by omega)]

theorem shiftedAssignVec_post {v M : Vec α} {ph : Nat} (hph : 0 < ph) (hv : v.size = ph + 1)
    (hM : M.size = ph) :
    Post (Builder.shiftedAssignVec v M ph) (fun r => r.size = ph + 1 ∧
      ∀ k, k ≤ ph → r.get k = M.get (k - 1)) := by
  unfold Builder.shiftedAssignVec
  rw [Vec.setSeg_ok (by omega) hM]
  simp only [ok_bind]
  rw [Vec.at_ok (by omega)]
  simp only [ok_bind]
  rw [Vec.set_ok (by simp only [Vec.setSegRaw_size]; omega)]
  refine post_ok ⟨hv, ?_⟩
  intro k hk
  simp only [Vec.setRaw_get, Vec.setSegRaw]
  by_cases h : k = 0
  · subst h; simp
  · rw [if_neg h, if_pos (by omega)]

theorem indexAssignVec_post {v : Vec α} {a : α} {index ph : Nat} (hph : ph < 2 ^ 31) (hv : v.size = ph + 1)
    (hi : index < ph) :
    Post (Builder.indexAssignVec v index a) (fun r => r.size = ph + 1 ∧
      ∀ k, k ≤ ph → r.get k = if k - 1 = index then a else v.get k) := by
  unfold Builder.indexAssignVec
  rw [toUnsigned_of_lt (by omega), Vec.set_ok (by omega)]
  simp only [ok_bind]
  by_cases h0 : index = 0
  · subst h0
    simp only [if_true]
    rw [Vec.set_ok (by simp only [Vec.setRaw_size]; omega)]
    refine post_ok ⟨hv, ?_⟩
    intro k hk
    simp only [Vec.setRaw_get]
    split_ifs <;> first | rfl | omega
  · simp only [h0, if_false]
    refine post_pure ⟨hv, ?_⟩
    intro k hk
    simp only [Vec.setRaw_get]
    split_ifs <;> first | rfl | omega

theorem replicateCols_post (rows cols : Nat) (uninit : Nat → Nat → α) (v : Vec α) (hv : v.size = rows) :
    Post (replicateCols rows cols uninit v) (fun M => (M.rows = rows ∧ M.cols = cols) ∧
      ∀ a k, a < rows → k < cols → M.get a k = v.get a) := by
  unfold replicateCols
  refine Post.mono (forRange_post _ _ _ (fun n (M : Mat α) => (M.rows = rows ∧ M.cols = cols) ∧
    ∀ a k, a < rows → k < n → M.get a k = v.get a) ⟨⟨rfl, rfl⟩, fun a k _ hk => by omega⟩ ?_) (fun M h => h)
  rintro i M hi ⟨hM, h⟩
  rw [Mat.setCol_ok (by omega) (by omega)]
  refine post_ok ⟨hM, ?_⟩
  intro a k ha hk
  rw [Mat.setColRaw_get]
  by_cases e : k = i
  · rw [if_pos e]
  · rw [if_neg e]; exact h a k ha (by omega)

theorem replicateVec_post (n : Nat) (uninit : Nat → α) (x : α) :
    Post (replicateVec n uninit x) (fun v => v.size = n ∧ ∀ k, k < n → v.get k = x) := by
  unfold replicateVec
  refine Post.mono (forRange_post _ _ _ (fun j (v : Vec α) => v.size = n ∧ ∀ k, k < j → v.get k = x)
    ⟨rfl, fun k hk => by omega⟩ ?_) (fun M h => h)
  rintro i v hi ⟨hv, h⟩
  rw [Vec.set_ok (by omega)]
  refine post_ok ⟨hv, ?_⟩
  intro k hk
  rw [Vec.setRaw_get]
  by_cases e : k = i
  · rw [if_pos e]
  · rw [if_neg e]; exact h k (by omega)

end helpers

namespace Builder
variable {K : Type} [Zero K] [One K] [Add K] [Mul K] [Neg K] [ExactOps K]

/-- The members of the builder hold the configuration `c`. -/
structure Repr (b : Builder K) (c : Spec.LinConfig K) : Prop where
  Axx : ∀ a e, a < b.d.nx → e < b.d.nx → b.ssA.get a e = c.A a e
  Axu : ∀ a e, a < b.d.nx → e < b.d.nu → b.ssA.get a (b.d.nx + e) = c.B a e
  Aux : ∀ a e, a < b.d.nu → e < b.d.nx → b.ssA.get (b.d.nx + a) e = 0
  Auu : ∀ a e, a < b.d.nu → e < b.d.nu →
    b.ssA.get (b.d.nx + a) (b.d.nx + e) = if c.modelSet = true ∧ a = e then 1 else 0
  Bx : ∀ a e, a < b.d.nx → e < b.d.nu → b.ssB.get a e = c.B a e
  Bu : ∀ a e, a < b.d.nu → e < b.d.nu → b.ssB.get (b.d.nx + a) e = if c.modelSet = true ∧ a = e then 1 else 0
  Cyx : ∀ a e, a < b.d.ny → e < b.d.nx → b.ssC.get a e = c.C a e
  Cyu : ∀ a e, a < b.d.ny → e < b.d.nu → b.ssC.get a (b.d.nx + e) = 0
  Cux : ∀ a e, a < b.d.nu → e < b.d.nx → b.ssC.get (b.d.ny + a) e = 0
  Cuu : ∀ a e, a < b.d.nu → e < b.d.nu → b.ssC.get (b.d.ny + a) (b.d.nx + e) =
    if c.modelSet = true ∧ a = e then 1 else 0
  Bvx : ∀ a e, a < b.d.nx → e < b.d.ndu → b.ssBv.get a e = c.Bd a e
  Bvu : ∀ a e, a < b.d.nu → e < b.d.ndu → b.ssBv.get (b.d.nx + a) e = 0
  Dvy : ∀ a e, a < b.d.ny → e < b.d.ndu → b.ssDv.get a e = c.Dd a e
  Dvu : ∀ a e, a < b.d.nu → e < b.d.ndu → b.ssDv.get (b.d.ny + a) e = 0
  wY : ∀ a k, a < b.d.ny → k ≤ b.d.ph → b.wOutput.get a k = c.wY (k - 1) a
  wU : ∀ a k, a < b.d.nu → k ≤ b.d.ph → b.wU.get a k = c.wU (k - 1) a
  wDu : ∀ a k, a < b.d.nu → k < b.d.ph → b.wDeltaU.get a k = c.wDu k a
  xMin : ∀ a k, a < b.d.nx → k ≤ b.d.ph → b.minX.get a k = c.xMin (k - 1) a
  xMax : ∀ a k, a < b.d.nx → k ≤ b.d.ph → b.maxX.get a k = c.xMax (k - 1) a
  uMin : ∀ a k, a < b.d.nu → k < b.d.ph → b.minU.get a k = c.uMin k a
  uMax : ∀ a k, a < b.d.nu → k < b.d.ph → b.maxU.get a k = c.uMax k a
  yMin : ∀ a k, a < b.d.ny → k ≤ b.d.ph → b.minY.get a k = c.yMin (k - 1) a
  yMax : ∀ a k, a < b.d.ny → k ≤ b.d.ph → b.maxY.get a k = c.yMax (k - 1) a
  sMin : ∀ k, k ≤ b.d.ph → b.sMin.get k = c.sMin (k - 1)
  sMax : ∀ k, k ≤ b.d.ph → b.sMax.get k = c.sMax (k - 1)
  sMul : ∀ i j a, i ≤ b.d.ph → j ≤ b.d.ph → a < b.d.nu + b.d.nx →
    b.sMultiplier.get i (j * (b.d.nu + b.d.nx) + a) =
      if i = j then (if a < b.d.nx then c.sX a else c.sU (a - b.d.nx)) else 0

/-- Everything that holds of a builder between two API calls. -/
structure Good (d : Dims) (b : Builder K) (c : Spec.LinConfig K) : Prop where
  dims : b.d = d
  shaped : b.Shaped
  derived : b.Derived
  repr : b.Repr c

/-- `Repr` only looks at the configuration members. -/
theorem Repr.of_same {b b' : Builder K} {c : Spec.LinConfig K} (h : b.Repr c) (s : SameConfig b b') :
    b'.Repr c := by
  obtain ⟨s1, s2, s3, s4, s5, s6, s7, s8, s9, s10, s11, s12, s13, s14, s15, s16, s17, s18, s19⟩ := s
  constructor
  · rw [s1, s3]; exact h.Axx
  · rw [s1, s3]; exact h.Axu
  · rw [s1, s3]; exact h.Aux
  · rw [s1, s3]; exact h.Auu
  · rw [s1, s4]; exact h.Bx
  · rw [s1, s4]; exact h.Bu
  · rw [s1, s5]; exact h.Cyx
  · rw [s1, s5]; exact h.Cyu
  · rw [s1, s5]; exact h.Cux
  · rw [s1, s5]; exact h.Cuu
  · rw [s1, s6]; exact h.Bvx
  · rw [s1, s6]; exact h.Bvu
  · rw [s1, s7]; exact h.Dvy
  · rw [s1, s7]; exact h.Dvu
  · rw [s1, s8]; exact h.wY
  · rw [s1, s9]; exact h.wU
  · rw [s1, s10]; exact h.wDu
  · rw [s1, s11]; exact h.xMin
  · rw [s1, s12]; exact h.xMax
  · rw [s1, s15]; exact h.uMin
  · rw [s1, s16]; exact h.uMax
  · rw [s1, s13]; exact h.yMin
  · rw [s1, s14]; exact h.yMax
  · rw [s1, s17]; exact h.sMin
  · rw [s1, s18]; exact h.sMax
  · rw [s1, s19]; exact h.sMul

/-- Rebuilding the cached terms of a shaped builder. -/
theorem build_good {d : Dims} {b : Builder K} {c : Spec.LinConfig K} (hd : b.d = d) (hph : 0 < d.ph)
    (hs : b.Shaped) (hr : b.Repr c) : Post b.build (fun r => r.2 = true ∧ Good d r.1 c) := by
  refine Post.mono (build_post b hs (by rw [hd]; exact hph)) ?_
  rintro ⟨r, t⟩ ⟨h1, h2, h3, h4⟩
  exact ⟨h1, by simp only; rw [h2.d, hd], h3, h4, hr.of_same h2⟩

theorem blank_shaped (d : Dims) (uninit : Nat → Nat → K) : (blank d uninit).Shaped := by
  have hS : (d.ph + 1) * (d.nu + d.nx) = d.nS := rfl
  have hY : (d.ph + 1) * d.ny = d.nY := rfl
  have hD : d.ph * d.nu = d.nD := rfl
  have hI : d.nI = d.nS + (d.nY + d.nD + (d.ph + 1)) := rfl
  have hC : d.nC = d.nS + d.nI := rfl
  constructor <;> simp only [blank, Mat.const_rows, Mat.const_cols, Vec.const_size, hS, hY, hD] <;>
    first | exact ⟨rfl, rfl⟩ | rfl | omega | exact ⟨by omega, rfl⟩ | exact ⟨trivial, trivial⟩

theorem blank_repr (d : Dims) (uninit : Nat → Nat → K) : (blank d uninit).Repr Spec.LinConfig.default := by
  constructor
  case sMul =>
    intro i j a _ _ _
    show (0 : K) = if i = j then (if a < d.nx then (0 : K) else 0) else 0
    simp
  case Cuu =>
    intro a e _ _
    show (0 : K) = if (false = true ∧ a = e) then 1 else 0
    simp
  case Auu =>
    intro a e _ _
    show (0 : K) = if (false = true ∧ a = e) then 1 else 0
    simp
  case Bu =>
    intro a e _ _
    show (0 : K) = if (false = true ∧ a = e) then 1 else 0
    simp
  all_goals (intros; rfl)

theorem onInit_post {d : Dims} (hph : 0 < d.ph) (uninit : Nat → Nat → K) :
    Post (onInit d uninit) (fun b => Good d b Spec.LinConfig.default) := by
  unfold onInit
  refine Post.bind (build_good (d := d) (by rfl) hph (blank_shaped d uninit) (blank_repr d uninit)) ?_
  rintro ⟨b, t⟩ ⟨_, h⟩
  exact post_pure h

variable {d : Dims} {b : Builder K} {c : Spec.LinConfig K}

theorem setStateModel_post (hph : 0 < d.ph) (h : Good d b c) {A B C : Mat K}
    (hA : A.rows = d.nx ∧ A.cols = d.nx) (hB : B.rows = d.nx ∧ B.cols = d.nu)
    (hC : C.rows = d.ny ∧ C.cols = d.nx) :
    Post (b.setStateModel A B C) (fun r => r.2 = true ∧
      Good d r.1 { c with modelSet := true, A := A.get, B := B.get, C := C.get }) := by
  obtain ⟨rfl, hs, hd, hr⟩ := h
  have sA := hs.ssA
  have sB := hs.ssB
  have sC := hs.ssC
  unfold setStateModel
  simp only []
  rw [Mat.setBlock_ok (by omega) (by omega) hA.1 hA.2]
  simp only [ok_bind]
  rw [Mat.setBlock_ok (by simp only [Mat.setBlockRaw_rows]; omega) (by simp only [Mat.setBlockRaw_cols]; omega)
    hB.1 hB.2]
  simp only [ok_bind]
  rw [Mat.setBlockZero_ok (by simp only [Mat.setBlockRaw_rows]; omega) (by simp only [Mat.setBlockRaw_cols]; omega)]
  simp only [ok_bind]
  rw [Mat.setBlockIdentity_ok (by simp only [Mat.setBlockRaw_rows]; omega)
    (by simp only [Mat.setBlockRaw_cols]; omega)]
  simp only [ok_bind]
  rw [Mat.setBlock_ok (by omega) (by omega) hB.1 hB.2]
  simp only [ok_bind]
  rw [Mat.setBlockIdentity_ok (by simp only [Mat.setBlockRaw_rows]; omega)
    (by simp only [Mat.setBlockRaw_cols]; omega)]
  simp only [ok_bind]
  rw [Mat.setBlock_ok (by omega) (by omega) hC.1 hC.2]
  simp only [ok_bind]
  rw [Mat.setBlockIdentity_ok (by simp only [Mat.setBlockRaw_rows]; omega)
    (by simp only [Mat.setBlockRaw_cols]; omega)]
  simp only [ok_bind]
  refine build_good (by rfl) hph ⟨hs.ssA, hs.ssB, hs.ssC, hs.ssBv, hs.ssDv, hs.wOutput, hs.wU, hs.wDeltaU, hs.minX, hs.maxX,
    hs.minY, hs.maxY, hs.minU, hs.maxU, hs.sMin, hs.sMax, hs.sMul, hs.leq, hs.ueq, hs.lineq, hs.uineq, hs.off,
    hs.P, hs.q, hs.A, hs.l, hs.u⟩ ?_
  constructor
  case Axx =>
    intro a e ha he
    dsimp only at ha he ⊢
    simp only [Mat.setBlockRaw]
    rw [if_neg (by omega), if_neg (by omega), if_neg (by omega), if_pos (by omega)]; rfl
  case Axu =>
    intro a e ha he
    dsimp only at ha he ⊢
    simp only [Mat.setBlockRaw]
    rw [if_neg (by omega), if_neg (by omega), if_pos (by omega)]
    congr 1; omega
  case Aux =>
    intro a e ha he
    dsimp only at ha he ⊢
    simp only [Mat.setBlockRaw]
    rw [if_neg (by omega), if_pos (by omega)]
  case Auu =>
    intro a e ha he
    dsimp only at ha he ⊢
    simp only [Mat.setBlockRaw]
    rw [if_pos (by omega)]
    exact if_congr ⟨fun h => ⟨trivial, by omega⟩, fun h => by have := h.2; omega⟩ rfl rfl
  case Bx =>
    intro a e ha he
    dsimp only at ha he ⊢
    simp only [Mat.setBlockRaw]
    rw [if_neg (by omega), if_pos (by omega)]; rfl
  case Bu =>
    intro a e ha he
    dsimp only at ha he ⊢
    simp only [Mat.setBlockRaw]
    rw [if_pos (by omega)]
    exact if_congr ⟨fun h => ⟨trivial, by omega⟩, fun h => by have := h.2; omega⟩ rfl rfl
  case Cyx =>
    intro a e ha he
    dsimp only at ha he ⊢
    simp only [Mat.setBlockRaw]
    rw [if_neg (by omega), if_pos (by omega)]; rfl
  case Cyu =>
    intro a e ha he
    dsimp only at ha he ⊢
    simp only [Mat.setBlockRaw]
    rw [if_neg (by omega), if_neg (by omega)]; exact hr.Cyu a e ha he
  case Cux =>
    intro a e ha he
    dsimp only at ha he ⊢
    simp only [Mat.setBlockRaw]
    rw [if_neg (by omega), if_neg (by omega)]; exact hr.Cux a e ha he
  case Cuu =>
    intro a e ha he
    dsimp only at ha he ⊢
    simp only [Mat.setBlockRaw]
    rw [if_pos (by omega)]
    exact if_congr (by simp) rfl rfl
  case Bvx => exact hr.Bvx
  case Bvu => exact hr.Bvu
  case Dvy => exact hr.Dvy
  case Dvu => exact hr.Dvu
  case wY => exact hr.wY
  case wU => exact hr.wU
  case wDu => exact hr.wDu
  case xMin => exact hr.xMin
  case xMax => exact hr.xMax
  case uMin => exact hr.uMin
  case uMax => exact hr.uMax
  case yMin => exact hr.yMin
  case yMax => exact hr.yMax
  case sMin => exact hr.sMin
  case sMax => exact hr.sMax
  case sMul => exact hr.sMul

theorem setExogenousInput_post (hph : 0 < d.ph) (h : Good d b c) {Bd Dd : Mat K}
    (hB : Bd.rows = d.nx ∧ Bd.cols = d.ndu) (hD : Dd.rows = d.ny ∧ Dd.cols = d.ndu) :
    Post (b.setExogenousInput Bd Dd) (fun r => r.2 = true ∧
      Good d r.1 { c with Bd := Bd.get, Dd := Dd.get }) := by
  obtain ⟨rfl, hs, hd, hr⟩ := h
  have sB := hs.ssBv
  have sD := hs.ssDv
  unfold setExogenousInput
  simp only []
  rw [Mat.setBlock_ok (by simp only [Mat.const_rows]; omega) (by simp only [Mat.const_cols]; omega) hB.1 hB.2]
  simp only [ok_bind]
  rw [Mat.setBlock_ok (by simp only [Mat.const_rows]; omega) (by simp only [Mat.const_cols]; omega) hD.1 hD.2]
  simp only [ok_bind]
  refine build_good (by rfl) hph ⟨hs.ssA, hs.ssB, hs.ssC, hs.ssBv, hs.ssDv, hs.wOutput, hs.wU, hs.wDeltaU, hs.minX, hs.maxX,
    hs.minY, hs.maxY, hs.minU, hs.maxU, hs.sMin, hs.sMax, hs.sMul, hs.leq, hs.ueq, hs.lineq, hs.uineq, hs.off,
    hs.P, hs.q, hs.A, hs.l, hs.u⟩ ⟨hr.Axx, hr.Axu, hr.Aux, hr.Auu, hr.Bx, hr.Bu, hr.Cyx, hr.Cyu, hr.Cux,
    hr.Cuu, ?_, ?_, ?_, ?_, hr.wY, hr.wU, hr.wDu, hr.xMin, hr.xMax, hr.uMin, hr.uMax, hr.yMin, hr.yMax,
    hr.sMin, hr.sMax, hr.sMul⟩
  · intro a e ha he
    dsimp only at ha he ⊢
    simp only [Mat.setBlockRaw]
    rw [if_pos (by omega)]; rfl
  · intro a e ha he
    dsimp only at ha he ⊢
    simp only [Mat.setBlockRaw]
    rw [if_neg (by omega)]; rfl
  · intro a e ha he
    dsimp only at ha he ⊢
    simp only [Mat.setBlockRaw]
    rw [if_pos (by omega)]; rfl
  · intro a e ha he
    dsimp only at ha he ⊢
    simp only [Mat.setBlockRaw]
    rw [if_neg (by omega)]; rfl

/-- New weights. -/
theorem weights_good (hph : 0 < d.ph) (h : Good d b c) {O U D : Mat K} {wY wU wDu : Nat → Nat → K}
    (hO : (O.rows = d.ny ∧ O.cols = d.ph + 1) ∧ ∀ a k, a < d.ny → k ≤ d.ph → O.get a k = wY (k - 1) a)
    (hU : (U.rows = d.nu ∧ U.cols = d.ph + 1) ∧ ∀ a k, a < d.nu → k ≤ d.ph → U.get a k = wU (k - 1) a)
    (hD : (D.rows = d.nu ∧ D.cols = d.ph) ∧ ∀ a k, a < d.nu → k < d.ph → D.get a k = wDu k a) :
    Post (build { b with wOutput := O, wU := U, wDeltaU := D })
      (fun r => r.2 = true ∧ Good d r.1 { c with wY := wY, wU := wU, wDu := wDu }) := by
  obtain ⟨rfl, hs, hd, hr⟩ := h
  exact build_good (by rfl) hph ⟨hs.ssA, hs.ssB, hs.ssC, hs.ssBv, hs.ssDv, hO.1, hU.1, hD.1, hs.minX, hs.maxX,
    hs.minY, hs.maxY, hs.minU, hs.maxU, hs.sMin, hs.sMax, hs.sMul, hs.leq, hs.ueq, hs.lineq, hs.uineq, hs.off,
    hs.P, hs.q, hs.A, hs.l, hs.u⟩ ⟨hr.Axx, hr.Axu, hr.Aux, hr.Auu, hr.Bx, hr.Bu, hr.Cyx, hr.Cyu, hr.Cux,
    hr.Cuu, hr.Bvx, hr.Bvu, hr.Dvy, hr.Dvu, hO.2, hU.2, hD.2, hr.xMin, hr.xMax, hr.uMin, hr.uMax, hr.yMin, hr.yMax,
    hr.sMin, hr.sMax, hr.sMul⟩

theorem xBounds_good (hph : 0 < d.ph) (h : Good d b c) {N M : Mat (Ext K)} {mn mx : Nat → Nat → Ext K}
    (hN : (N.rows = d.nx ∧ N.cols = d.ph + 1) ∧ ∀ a k, a < d.nx → k ≤ d.ph → N.get a k = mn (k - 1) a)
    (hM : (M.rows = d.nx ∧ M.cols = d.ph + 1) ∧ ∀ a k, a < d.nx → k ≤ d.ph → M.get a k = mx (k - 1) a) :
    Post (build { b with minX := N, maxX := M })
      (fun r => r.2 = true ∧ Good d r.1 { c with xMin := mn, xMax := mx }) := by
  obtain ⟨rfl, hs, hd, hr⟩ := h
  exact build_good (by rfl) hph ⟨hs.ssA, hs.ssB, hs.ssC, hs.ssBv, hs.ssDv, hs.wOutput, hs.wU, hs.wDeltaU, hN.1, hM.1,
    hs.minY, hs.maxY, hs.minU, hs.maxU, hs.sMin, hs.sMax, hs.sMul, hs.leq, hs.ueq, hs.lineq, hs.uineq, hs.off,
    hs.P, hs.q, hs.A, hs.l, hs.u⟩ ⟨hr.Axx, hr.Axu, hr.Aux, hr.Auu, hr.Bx, hr.Bu, hr.Cyx, hr.Cyu, hr.Cux,
    hr.Cuu, hr.Bvx, hr.Bvu, hr.Dvy, hr.Dvu, hr.wY, hr.wU, hr.wDu, hN.2, hM.2, hr.uMin, hr.uMax, hr.yMin, hr.yMax,
    hr.sMin, hr.sMax, hr.sMul⟩

theorem yBounds_good (hph : 0 < d.ph) (h : Good d b c) {N M : Mat (Ext K)} {mn mx : Nat → Nat → Ext K}
    (hN : (N.rows = d.ny ∧ N.cols = d.ph + 1) ∧ ∀ a k, a < d.ny → k ≤ d.ph → N.get a k = mn (k - 1) a)
    (hM : (M.rows = d.ny ∧ M.cols = d.ph + 1) ∧ ∀ a k, a < d.ny → k ≤ d.ph → M.get a k = mx (k - 1) a) :
    Post (build { b with minY := N, maxY := M })
      (fun r => r.2 = true ∧ Good d r.1 { c with yMin := mn, yMax := mx }) := by
  obtain ⟨rfl, hs, hd, hr⟩ := h
  exact build_good (by rfl) hph ⟨hs.ssA, hs.ssB, hs.ssC, hs.ssBv, hs.ssDv, hs.wOutput, hs.wU, hs.wDeltaU, hs.minX, hs.maxX,
    hN.1, hM.1, hs.minU, hs.maxU, hs.sMin, hs.sMax, hs.sMul, hs.leq, hs.ueq, hs.lineq, hs.uineq, hs.off,
    hs.P, hs.q, hs.A, hs.l, hs.u⟩ ⟨hr.Axx, hr.Axu, hr.Aux, hr.Auu, hr.Bx, hr.Bu, hr.Cyx, hr.Cyu, hr.Cux,
    hr.Cuu, hr.Bvx, hr.Bvu, hr.Dvy, hr.Dvu, hr.wY, hr.wU, hr.wDu, hr.xMin, hr.xMax, hr.uMin, hr.uMax, hN.2, hM.2,
    hr.sMin, hr.sMax, hr.sMul⟩

theorem uBounds_good (hph : 0 < d.ph) (h : Good d b c) {N M : Mat (Ext K)} {mn mx : Nat → Nat → Ext K}
    (hN : (N.rows = d.nu ∧ N.cols = d.ph) ∧ ∀ a k, a < d.nu → k < d.ph → N.get a k = mn k a)
    (hM : (M.rows = d.nu ∧ M.cols = d.ph) ∧ ∀ a k, a < d.nu → k < d.ph → M.get a k = mx k a) :
    Post (build { b with minU := N, maxU := M })
      (fun r => r.2 = true ∧ Good d r.1 { c with uMin := mn, uMax := mx }) := by
  obtain ⟨rfl, hs, hd, hr⟩ := h
  exact build_good (by rfl) hph ⟨hs.ssA, hs.ssB, hs.ssC, hs.ssBv, hs.ssDv, hs.wOutput, hs.wU, hs.wDeltaU, hs.minX, hs.maxX,
    hs.minY, hs.maxY, hN.1, hM.1, hs.sMin, hs.sMax, hs.sMul, hs.leq, hs.ueq, hs.lineq, hs.uineq, hs.off,
    hs.P, hs.q, hs.A, hs.l, hs.u⟩ ⟨hr.Axx, hr.Axu, hr.Aux, hr.Auu, hr.Bx, hr.Bu, hr.Cyx, hr.Cyu, hr.Cux,
    hr.Cuu, hr.Bvx, hr.Bvu, hr.Dvy, hr.Dvu, hr.wY, hr.wU, hr.wDu, hr.xMin, hr.xMax, hN.2, hM.2, hr.yMin, hr.yMax,
    hr.sMin, hr.sMax, hr.sMul⟩

theorem scalar_good (hph : 0 < d.ph) (h : Good d b c) {N M : Vec (Ext K)} {mn mx : Nat → Ext K}
    {S : Mat K} {X U : Nat → K}
    (hN : N.size = d.ph + 1 ∧ ∀ k, k ≤ d.ph → N.get k = mn (k - 1))
    (hM : M.size = d.ph + 1 ∧ ∀ k, k ≤ d.ph → M.get k = mx (k - 1))
    (hS : (S.rows = d.ph + 1 ∧ S.cols = (d.ph + 1) * (d.nu + d.nx)) ∧
      ∀ i j a, i ≤ d.ph → j ≤ d.ph → a < d.nu + d.nx → S.get i (j * (d.nu + d.nx) + a) =
      if i = j then (if a < d.nx then X a else U (a - d.nx)) else 0) :
    Post (build { b with sMin := N, sMax := M, sMultiplier := S })
      (fun r => r.2 = true ∧ Good d r.1 { c with sMin := mn, sMax := mx, sX := X, sU := U }) := by
  obtain ⟨rfl, hs, hd, hr⟩ := h
  exact build_good (by rfl) hph ⟨hs.ssA, hs.ssB, hs.ssC, hs.ssBv, hs.ssDv, hs.wOutput, hs.wU, hs.wDeltaU, hs.minX, hs.maxX,
    hs.minY, hs.maxY, hs.minU, hs.maxU, hN.1, hM.1, hS.1, hs.leq, hs.ueq, hs.lineq, hs.uineq, hs.off,
    hs.P, hs.q, hs.A, hs.l, hs.u⟩ ⟨hr.Axx, hr.Axu, hr.Aux, hr.Auu, hr.Bx, hr.Bu, hr.Cyx, hr.Cyu, hr.Cux,
    hr.Cuu, hr.Bvx, hr.Bvu, hr.Dvy, hr.Dvu, hr.wY, hr.wU, hr.wDu, hr.xMin, hr.xMax, hr.uMin, hr.uMax, hr.yMin, hr.yMax,
    hN.2, hM.2, hS.2⟩

end Builder
end Mpc
