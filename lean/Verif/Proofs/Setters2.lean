import Verif.Proofs.Setters

/-
Setter-by-setter refinement of the register file (`Spec.LinConfig`).
-/
namespace Mpc
open Exec

/-- A write outside the matrix is a fault. -/
theorem Mat.setBlock_oob {α : Type} {m src : Mat α} {r0 c0 h w : Nat} (hc : ¬ (c0 + w ≤ m.cols)) :
    m.setBlock r0 c0 h w src = .error .outOfBounds := by
  unfold Mat.setBlock
  rw [require_fail (by omega)]
  rfl

theorem Mat.setCol_oob {α : Type} {m : Mat α} {j : Nat} {v : Vec α} (hc : ¬ (j < m.cols)) :
    m.setCol j v = .error .outOfBounds := by
  unfold Mat.setCol
  simp [require, hc]

namespace Builder
variable {K : Type} [Zero K] [One K] [Add K] [Mul K] [Neg K] [ExactOps K] {d : Dims} {b : Builder K} {c : Spec.LinConfig K}

theorem setObjective_post (hph : 0 < d.ph) (h : Good d b c) {OW UW DW : Mat K} {wY wU wDu : Nat → Nat → K}
    (hO : (OW.rows = d.ny ∧ OW.cols = d.ph) ∧ ∀ a k, a < d.ny → k < d.ph → OW.get a k = wY k a)
    (hU : (UW.rows = d.nu ∧ UW.cols = d.ph) ∧ ∀ a k, a < d.nu → k < d.ph → UW.get a k = wU k a)
    (hD : (DW.rows = d.nu ∧ DW.cols = d.ph) ∧ ∀ a k, a < d.nu → k < d.ph → DW.get a k = wDu k a) :
    Post (b.setObjective OW UW DW) (fun r => r.2 = true ∧ Good d r.1
      { c with wY := wY, wU := wU, wDu := wDu }) := by
  unfold setObjective
  obtain rfl := h.dims
  have s1 := h.shaped.wOutput
  have s2 := h.shaped.wU
  refine Post.bind (shiftedAssign_post hph s1 hO.1) fun O hO' => ?_
  refine Post.bind (shiftedAssign_post hph s2 hU.1) fun U hU' => ?_
  refine weights_good hph h ⟨hO'.1, ?_⟩ ⟨hU'.1, ?_⟩ hD
  · intro a k ha hk; rw [hO'.2 a k ha hk, hO.2 a _ ha (by omega)]
  · intro a k ha hk; rw [hU'.2 a k ha hk, hU.2 a _ ha (by omega)]

theorem setObjectiveAt_post (hd : d.Valid) (h : Good d b c) {OW UW DW : Vec K} {i : Nat} (hi : i < d.ph)
    (hO : OW.size = d.ny) (hU : UW.size = d.nu) (hD : DW.size = d.nu) :
    Post (b.setObjectiveAt i OW UW DW) (fun r => r.2 = true ∧ Good d r.1
      { c with wY := Spec.upd (· == i) (fun _ => OW.get) c.wY
               wU := Spec.upd (· == i) (fun _ => UW.get) c.wU
               wDu := Spec.upd (· == i) (fun _ => DW.get) c.wDu }) := by
  unfold setObjectiveAt
  obtain rfl := h.dims
  have s1 := h.shaped.wOutput
  have s2 := h.shaped.wU
  have s3 := h.shaped.wDeltaU
  have r1 := h.repr.wY
  have r2 := h.repr.wU
  have r3 := h.repr.wDu
  refine Post.bind (indexAssign_post hd.ph_int s1 hO hi) fun O hO' => ?_
  refine Post.bind (indexAssign_post hd.ph_int s2 hU hi) fun U hU' => ?_
  refine Post.bind (colAssign_post s3 hD hi) fun D hD' => ?_
  refine weights_good hd.ph_pos h ⟨hO'.1, ?_⟩ ⟨hU'.1, ?_⟩ ⟨hD'.1, ?_⟩
  · intro a k ha hk
    rw [hO'.2 a k ha hk, r1 a k ha hk]
    simp only [Spec.upd, beq_iff_eq]
    split_ifs <;> rfl
  · intro a k ha hk
    rw [hU'.2 a k ha hk, r2 a k ha hk]
    simp only [Spec.upd, beq_iff_eq]
    split_ifs <;> rfl
  · intro a k ha hk
    rw [hD'.2 a k ha hk, r3 a k ha hk]
    simp only [Spec.upd, beq_iff_eq]
    split_ifs <;> rfl

theorem setStateBounds_post (hph : 0 < d.ph) (h : Good d b c) {mn mx : Mat (Ext K)} {lo hi : Nat → Nat → Ext K}
    (hN : (mn.rows = d.nx ∧ mn.cols = d.ph) ∧ ∀ a k, a < d.nx → k < d.ph → mn.get a k = lo k a)
    (hM : (mx.rows = d.nx ∧ mx.cols = d.ph) ∧ ∀ a k, a < d.nx → k < d.ph → mx.get a k = hi k a) :
    Post (b.setStateBounds mn mx) (fun r => r.2 = true ∧ Good d r.1
      { c with xMin := lo, xMax := hi }) := by
  unfold setStateBounds
  obtain rfl := h.dims
  have s1 := h.shaped.minX
  have s2 := h.shaped.maxX
  refine Post.bind (shiftedAssign_post hph s1 hN.1) fun O hO' => ?_
  refine Post.bind (shiftedAssign_post hph s2 hM.1) fun U hU' => ?_
  refine xBounds_good hph h ⟨hO'.1, ?_⟩ ⟨hU'.1, ?_⟩
  · intro a k ha hk; rw [hO'.2 a k ha hk, hN.2 a _ ha (by omega)]
  · intro a k ha hk; rw [hU'.2 a k ha hk, hM.2 a _ ha (by omega)]

theorem setOutputBounds_post (hph : 0 < d.ph) (h : Good d b c) {mn mx : Mat (Ext K)} {lo hi : Nat → Nat → Ext K}
    (hN : (mn.rows = d.ny ∧ mn.cols = d.ph) ∧ ∀ a k, a < d.ny → k < d.ph → mn.get a k = lo k a)
    (hM : (mx.rows = d.ny ∧ mx.cols = d.ph) ∧ ∀ a k, a < d.ny → k < d.ph → mx.get a k = hi k a) :
    Post (b.setOutputBounds mn mx) (fun r => r.2 = true ∧ Good d r.1
      { c with yMin := lo, yMax := hi }) := by
  unfold setOutputBounds
  obtain rfl := h.dims
  have s1 := h.shaped.minY
  have s2 := h.shaped.maxY
  refine Post.bind (shiftedAssign_post hph s1 hN.1) fun O hO' => ?_
  refine Post.bind (shiftedAssign_post hph s2 hM.1) fun U hU' => ?_
  refine yBounds_good hph h ⟨hO'.1, ?_⟩ ⟨hU'.1, ?_⟩
  · intro a k ha hk; rw [hO'.2 a k ha hk, hN.2 a _ ha (by omega)]
  · intro a k ha hk; rw [hU'.2 a k ha hk, hM.2 a _ ha (by omega)]

theorem setStateBoundsAt_post (hd : d.Valid) (h : Good d b c) {mn mx : Vec (Ext K)} {i : Nat} (hi : i < d.ph)
    (hN : mn.size = d.nx) (hM : mx.size = d.nx) :
    Post (b.setStateBoundsAt i mn mx) (fun r => r.2 = true ∧ Good d r.1
      { c with xMin := Spec.upd (· == i) (fun _ => mn.get) c.xMin
               xMax := Spec.upd (· == i) (fun _ => mx.get) c.xMax }) := by
  unfold setStateBoundsAt
  obtain rfl := h.dims
  have s1 := h.shaped.minX
  have s2 := h.shaped.maxX
  have r1 := h.repr.xMin
  have r2 := h.repr.xMax
  refine Post.bind (indexAssign_post hd.ph_int s1 hN hi) fun O hO' => ?_
  refine Post.bind (indexAssign_post hd.ph_int s2 hM hi) fun U hU' => ?_
  refine xBounds_good hd.ph_pos h ⟨hO'.1, ?_⟩ ⟨hU'.1, ?_⟩
  · intro a k ha hk
    rw [hO'.2 a k ha hk, r1 a k ha hk]
    simp only [Spec.upd, beq_iff_eq]
    split_ifs <;> rfl
  · intro a k ha hk
    rw [hU'.2 a k ha hk, r2 a k ha hk]
    simp only [Spec.upd, beq_iff_eq]
    split_ifs <;> rfl

theorem setOutputBoundsAt_post (hd : d.Valid) (h : Good d b c) {mn mx : Vec (Ext K)} {i : Nat} (hi : i < d.ph)
    (hN : mn.size = d.ny) (hM : mx.size = d.ny) :
    Post (b.setOutputBoundsAt i mn mx) (fun r => r.2 = true ∧ Good d r.1
      { c with yMin := Spec.upd (· == i) (fun _ => mn.get) c.yMin
               yMax := Spec.upd (· == i) (fun _ => mx.get) c.yMax }) := by
  unfold setOutputBoundsAt
  obtain rfl := h.dims
  have s1 := h.shaped.minY
  have s2 := h.shaped.maxY
  have r1 := h.repr.yMin
  have r2 := h.repr.yMax
  refine Post.bind (indexAssign_post hd.ph_int s1 hN hi) fun O hO' => ?_
  refine Post.bind (indexAssign_post hd.ph_int s2 hM hi) fun U hU' => ?_
  refine yBounds_good hd.ph_pos h ⟨hO'.1, ?_⟩ ⟨hU'.1, ?_⟩
  · intro a k ha hk
    rw [hO'.2 a k ha hk, r1 a k ha hk]
    simp only [Spec.upd, beq_iff_eq]
    split_ifs <;> rfl
  · intro a k ha hk
    rw [hU'.2 a k ha hk, r2 a k ha hk]
    simp only [Spec.upd, beq_iff_eq]
    split_ifs <;> rfl

theorem setInputBoundsAt_post (hd : d.Valid) (h : Good d b c) {mn mx : Vec (Ext K)} {i : Nat} (hi : i < d.ph)
    (hN : mn.size = d.nu) (hM : mx.size = d.nu) :
    Post (b.setInputBoundsAt i mn mx) (fun r => r.2 = true ∧ Good d r.1
      { c with uMin := Spec.upd (· == i) (fun _ => mn.get) c.uMin
               uMax := Spec.upd (· == i) (fun _ => mx.get) c.uMax }) := by
  unfold setInputBoundsAt
  obtain rfl := h.dims
  have s1 := h.shaped.minU
  have s2 := h.shaped.maxU
  have r1 := h.repr.uMin
  have r2 := h.repr.uMax
  refine Post.bind (colAssign_post s1 hN hi) fun O hO' => ?_
  refine Post.bind (colAssign_post s2 hM hi) fun U hU' => ?_
  refine uBounds_good hd.ph_pos h ⟨hO'.1, ?_⟩ ⟨hU'.1, ?_⟩
  · intro a k ha hk
    rw [hO'.2 a k ha hk, r1 a k ha hk]
    simp only [Spec.upd, beq_iff_eq]
    split_ifs <;> rfl
  · intro a k ha hk
    rw [hU'.2 a k ha hk, r2 a k ha hk]
    simp only [Spec.upd, beq_iff_eq]
    split_ifs <;> rfl

theorem setInputBoundsAt_oob (h : Good d b c) {mn mx : Vec (Ext K)} {i : Nat} (hi : d.ph ≤ i) :
    ∃ f, b.setInputBoundsAt i mn mx = .error f := by
  unfold setInputBoundsAt
  obtain rfl := h.dims
  have s1 := h.shaped.minU
  exact ⟨.outOfBounds, by rw [Mat.setBlock_oob (by omega)]; rfl⟩

/-- The whole-horizon input bounds work exactly when the two horizons agree. -/
theorem setInputBounds_post (hd : d.Valid) (h : Good d b c) {mn mx : Mat (Ext K)} {lo hi : Nat → Nat → Ext K}
    (hch : d.ch = d.ph)
    (hN' : (mn.rows = d.nu ∧ mn.cols = d.ch) ∧ ∀ a k, a < d.nu → k < d.ph → mn.get a k = lo k a)
    (hM' : (mx.rows = d.nu ∧ mx.cols = d.ch) ∧ ∀ a k, a < d.nu → k < d.ph → mx.get a k = hi k a) :
    Post (b.setInputBounds mn mx) (fun r => r.2 = true ∧ Good d r.1 { c with uMin := lo, uMax := hi }) := by
  have hN := hN'.1
  have hM := hM'.1
  unfold setInputBounds
  obtain rfl := h.dims
  have s1 := h.shaped.minU
  have s2 := h.shaped.maxU
  simp only []
  rw [Mat.setBlock_ok (by omega) (by omega) hN.1 hN.2]
  simp only [ok_bind]
  rw [Mat.setBlock_ok (by omega) (by omega) hM.1 hM.2]
  simp only [ok_bind]
  rw [if_neg (by omega)]
  refine uBounds_good hd.ph_pos h ⟨s1, ?_⟩ ⟨s2, ?_⟩
  · intro a k ha hk
    simp only [Mat.setBlockRaw]
    rw [if_pos (by omega)]
    exact hN'.2 a k ha hk
  · intro a k ha hk
    simp only [Mat.setBlockRaw]
    rw [if_pos (by omega)]
    exact hM'.2 a k ha hk

theorem setInputBounds_fault (h : Good d b c) {mn mx : Mat (Ext K)} (hch : d.ch ≠ d.ph)
    (hN : mn.rows = d.nu ∧ mn.cols = d.ch) (hM : mx.rows = d.nu ∧ mx.cols = d.ch) :
    b.setInputBounds mn mx = .error .outOfBounds := by
  unfold setInputBounds
  obtain rfl := h.dims
  have s1 := h.shaped.minU
  have s2 := h.shaped.maxU
  simp only []
  by_cases hlt : b.d.ch < b.d.ph
  · rw [Mat.setBlock_ok (by omega) (by omega) hN.1 hN.2]
    simp only [ok_bind]
    rw [Mat.setBlock_ok (by omega) (by omega) hM.1 hM.2]
    simp only [ok_bind]
    rw [if_pos hlt]
    simp [Mat.col, require, hN.2]
  · rw [Mat.setBlock_oob (by omega)]
    rfl

theorem fillMultiplier_post {m : Mat K} {X U : Vec K} {X0 U0 : Nat → K}
    (hm : m.rows = d.ph + 1 ∧ m.cols = (d.ph + 1) * (d.nu + d.nx))
    (h0 : ∀ i j a, i ≤ d.ph → j ≤ d.ph → a < d.nu + d.nx → m.get i (j * (d.nu + d.nx) + a) =
      if i = j then (if a < d.nx then X0 a else U0 (a - d.nx)) else 0)
    (hX : X.size = d.nx) (hU : U.size = d.nu) :
    Post (fillMultiplier d m X U) (fun S => (S.rows = d.ph + 1 ∧ S.cols = (d.ph + 1) * (d.nu + d.nx)) ∧
      ∀ i j a, i ≤ d.ph → j ≤ d.ph → a < d.nu + d.nx → S.get i (j * (d.nu + d.nx) + a) =
      if i = j then (if a < d.nx then X.get a else U.get (a - d.nx)) else 0) := by
  unfold fillMultiplier
  simp only [Nat.add_comm d.nx d.nu]
  refine Post.mono (forRange_post _ _ _ (fun n (S : Mat K) =>
    (S.rows = d.ph + 1 ∧ S.cols = (d.ph + 1) * (d.nu + d.nx)) ∧
      ∀ i j a, i ≤ d.ph → j ≤ d.ph → a < d.nu + d.nx → S.get i (j * (d.nu + d.nx) + a) =
      if i = j then (if i < n then (if a < d.nx then X.get a else U.get (a - d.nx))
        else (if a < d.nx then X0 a else U0 (a - d.nx))) else 0) ⟨hm, ?_⟩ ?_) ?_
  · intro i j a hi hj ha
    rw [h0 i j a hi hj ha]
    simp
  · rintro n S hn ⟨hS, hg⟩
    have hend : n * (d.nu + d.nx) + (d.nu + d.nx) ≤ (d.ph + 1) * (d.nu + d.nx) := block_end_le hn
    rw [Vec.comma_ok (by omega)]
    simp only [ok_bind]
    rw [Mat.setBlock_ok (by omega) (by omega) (by rfl) (by rfl)]
    refine post_ok ⟨hS, ?_⟩
    intro i j a hi hj ha
    simp only [Mat.setBlockRaw]
    by_cases hin : i = n
    · subst hin
      by_cases hij : j = i
      · subst hij
        rw [if_pos ⟨⟨by omega, by omega⟩, by omega, by omega⟩]
        simp only [if_true, Nat.lt_succ_self]
        simp only [Vec.asRow, hX]
        rw [show j * (d.nu + d.nx) + a - j * (d.nu + d.nx) = a by omega]
      · have := (block_mem_iff (s := d.nu + d.nx) (a := a) (i := j) (k := i) ha).not.mpr hij
        rw [if_neg (by omega), hg i j a hi hj ha, if_neg (Ne.symm hij), if_neg (Ne.symm hij)]
    · rw [if_neg (by omega), hg i j a hi hj ha]
      by_cases hij : i = j
      · rw [if_pos hij, if_pos hij]
        exact if_congr (by omega) rfl rfl
      · rw [if_neg hij, if_neg hij]
  · rintro S ⟨hS, hg⟩
    refine ⟨hS, ?_⟩
    intro i j a hi hj ha
    rw [hg i j a hi hj ha, if_pos (by omega : i < d.ph + 1)]

theorem setScalarConstraint_post (hph : 0 < d.ph) (h : Good d b c) {mn mx : Vec (Ext K)} {X U : Vec K}
    {lo hi : Nat → Ext K} (hN : mn.size = d.ph ∧ ∀ k, k < d.ph → mn.get k = lo k)
    (hM : mx.size = d.ph ∧ ∀ k, k < d.ph → mx.get k = hi k) (hX : X.size = d.nx) (hU : U.size = d.nu) :
    Post (b.setScalarConstraint mn mx X U) (fun r => r.2 = true ∧ Good d r.1
      { c with sMin := lo, sMax := hi, sX := X.get, sU := U.get }) := by
  unfold setScalarConstraint
  obtain rfl := h.dims
  have s1 := h.shaped.sMin
  have s2 := h.shaped.sMax
  have s3 := h.shaped.sMul
  have r3 := h.repr.sMul
  refine Post.bind (shiftedAssignVec_post hph s1 hN.1) fun O hO' => ?_
  refine Post.bind (shiftedAssignVec_post hph s2 hM.1) fun V hV' => ?_
  refine Post.bind (fillMultiplier_post s3 r3 hX hU) fun S hS => ?_
  refine scalar_good hph h ⟨hO'.1, ?_⟩ ⟨hV'.1, ?_⟩ hS
  · intro k hk; rw [hO'.2 k hk, hN.2 _ (by omega)]
  · intro k hk; rw [hV'.2 k hk, hM.2 _ (by omega)]

theorem setScalarConstraintAt_post (hd : d.Valid) (h : Good d b c) {mn mx : Ext K} {X U : Vec K} {i : Nat}
    (hi : i < d.ph) (hX : X.size = d.nx) (hU : U.size = d.nu) :
    Post (b.setScalarConstraintAt i mn mx X U) (fun r => r.2 = true ∧ Good d r.1
      { c with sMin := Spec.upd (· == i) (fun _ => mn) c.sMin
               sMax := Spec.upd (· == i) (fun _ => mx) c.sMax, sX := X.get, sU := U.get }) := by
  unfold setScalarConstraintAt
  obtain rfl := h.dims
  have s1 := h.shaped.sMin
  have s2 := h.shaped.sMax
  have s3 := h.shaped.sMul
  have r1 := h.repr.sMin
  have r2 := h.repr.sMax
  have r3 := h.repr.sMul
  refine Post.bind (indexAssignVec_post hd.ph_int s1 hi) fun O hO' => ?_
  refine Post.bind (indexAssignVec_post hd.ph_int s2 hi) fun V hV' => ?_
  refine Post.bind (fillMultiplier_post s3 r3 hX hU) fun S hS => ?_
  refine scalar_good hd.ph_pos h ⟨hO'.1, ?_⟩ ⟨hV'.1, ?_⟩ hS
  · intro k hk
    rw [hO'.2 k hk, r1 k hk]
    simp only [Spec.upd, beq_iff_eq]
  · intro k hk
    rw [hV'.2 k hk, r2 k hk]
    simp only [Spec.upd, beq_iff_eq]

end Builder

section slices
variable {α σ : Type}

/-- New value on the steps `lo ≤ k < hi`. -/
def updIn (lo hi : Nat) (v old : Nat → α) : Nat → α := Spec.upd (fun k => decide (lo ≤ k ∧ k < hi)) v old

theorem updIn_self (lo : Nat) (v old : Nat → α) : updIn lo lo v old = old := by
  funext k
  simp only [updIn, Spec.upd]
  rw [if_neg]; simp

theorem upd_updIn {lo i : Nat} (h : lo ≤ i) (v old : Nat → α) :
    Spec.upd (· == i) v (updIn lo i v old) = updIn lo (i + 1) v old := by
  funext k
  simp only [updIn, Spec.upd, beq_iff_eq, decide_eq_true_eq]
  split_ifs <;> first | rfl | omega

theorem updIn_covers {sl : HorizonSlice} (h0 : 0 ≤ sl.start) (v old : Nat → α) :
    updIn sl.start.toNat sl.stop.toNat v old = Spec.upd (Spec.covers sl) v old := by
  funext k
  simp only [updIn, Spec.upd, Spec.covers]
  congr 1
  simp only [decide_eq_true_eq, Bool.or_eq_true, Bool.and_eq_true, eq_iff_iff]
  omega

theorem upd_covers_all (v old : Nat → α) : Spec.upd (Spec.covers HorizonSlice.all) v old = v := by
  funext k
  simp [Spec.upd, Spec.covers, HorizonSlice.all]

theorem toSizeT_of_nonneg {v : Int} (h0 : 0 ≤ v) (h1 : v < 2 ^ 64) : toSizeT v = v.toNat := by
  unfold toSizeT
  rw [Int.emod_eq_of_lt h0 h1]

/-- Partial-correctness rule for the slice loops. -/
theorem sliceLoop_inv {sl : HorizonSlice} (h32 : sl.Int32) (h0 : 0 ≤ sl.start) (hlt : sl.start ≤ sl.stop)
    {s s' : σ} {r : Bool} {f : Nat → σ → Exec (σ × Bool)} (I : Nat → σ → Prop) (hI : I sl.start.toNat s)
    (hstep : ∀ i t t' q, sl.start.toNat ≤ i → i < sl.stop.toNat → I i t → f i t = .ok (t', q) →
      q = true ∧ I (i + 1) t')
    (hr : sliceLoop sl s f = .ok (s', r)) : r = true ∧ I sl.stop.toNat s' := by
  obtain ⟨⟨_, h1⟩, _, h2⟩ := h32
  unfold sliceLoop at hr
  rw [toSizeT_of_nonneg h0 (by omega), toSizeT_of_nonneg (by omega) (by omega)] at hr
  have := forFrom_inv (fun i (t : σ × Bool) => t.2 = true ∧ I i t.1) ⟨rfl, hI⟩ ?_ hr
  · rw [show sl.start.toNat + (sl.stop.toNat - sl.start.toNat) = sl.stop.toNat by omega] at this
    exact this
  · rintro i ⟨t, q⟩ ⟨t', q'⟩ hi hi' ⟨hq, hIt⟩ he
    simp only at hq hIt he ⊢
    subst hq
    simp only [if_true] at he
    exact hstep i t t' q' hi (by omega) hIt he

/-- Total-correctness rule for the slice loops. -/
theorem sliceLoop_post {sl : HorizonSlice} (h32 : sl.Int32) (h0 : 0 ≤ sl.start) (hlt : sl.start ≤ sl.stop)
    {s : σ} {f : Nat → σ → Exec (σ × Bool)} (I : Nat → σ → Prop) (hI : I sl.start.toNat s)
    (hstep : ∀ i t, sl.start.toNat ≤ i → i < sl.stop.toNat → I i t →
      Post (f i t) (fun r => r.2 = true ∧ I (i + 1) r.1)) :
    Post (sliceLoop sl s f) (fun r => r.2 = true ∧ I sl.stop.toNat r.1) := by
  obtain ⟨⟨_, h1⟩, _, h2⟩ := h32
  unfold sliceLoop
  rw [toSizeT_of_nonneg h0 (by omega), toSizeT_of_nonneg (by omega) (by omega)]
  have := forFrom_post (sl.start.toNat) (sl.stop.toNat - sl.start.toNat) (s, true)
    (fun i (s, ret) => if ret then f i s else .ok (s, false))
    (fun i (t : σ × Bool) => t.2 = true ∧ I i t.1) ⟨rfl, hI⟩ ?_
  · rw [show sl.start.toNat + (sl.stop.toNat - sl.start.toNat) = sl.stop.toNat by omega] at this
    exact this
  · rintro i ⟨t, q⟩ hi hi' ⟨hq, hIt⟩
    simp only at hq hIt ⊢
    subst hq
    simp only [if_true]
    exact hstep i t hi (by omega) hIt

end slices

/-- What the slice check accepts. -/
theorem isSliceValid_true {h : Nat} {sl : HorizonSlice} (hv : isSliceValid h sl = .ok true) :
    sl.start < sl.stop ∧ sl.start ≤ h ∧ sl.stop ≤ h ∧ sl.start + sl.stop ≤ h := by
  unfold isSliceValid at hv
  by_cases hc : sl.start ≥ sl.stop ∨ sl.start > (h : Int) ∨ sl.stop > (h : Int)
  · rw [if_pos hc] at hv; cases hv
  · rw [if_neg hc] at hv
    simp only [addInt] at hv
    by_cases hr : -2 ^ 31 ≤ sl.start + sl.stop ∧ sl.start + sl.stop < 2 ^ 31
    · simp only [require, if_pos hr, ok_bind, pure_bind'] at hv
      by_cases ht : sl.start + sl.stop > (h : Int)
      · rw [if_pos ht] at hv; cases hv
      · omega
    · simp only [require, if_neg hr, error_bind] at hv
      cases hv

/-- Slices with non-negative start never overflow the check when the horizon is below 2^30. -/
theorem isSliceValid_eq {h : Nat} {sl : HorizonSlice} (h0 : 0 ≤ sl.start) (hh : h < 2 ^ 30) :
    isSliceValid h sl = .ok (decide (sl.start < sl.stop ∧ sl.start + sl.stop ≤ h)) := by
  unfold isSliceValid
  by_cases hc : sl.start ≥ sl.stop ∨ sl.start > (h : Int) ∨ sl.stop > (h : Int)
  · rw [if_pos hc, decide_eq_false (by omega)]; rfl
  · rw [if_neg hc]
    simp only [addInt, require]
    rw [if_pos (by omega)]
    simp only [ok_bind, pure_bind']
    by_cases ht : sl.start + sl.stop > (h : Int)
    · rw [if_pos ht, decide_eq_false (by omega)]; rfl
    · rw [if_neg ht, decide_eq_true (by omega)]; rfl

theorem toUnsigned_lt {i n : Nat} (h : i < n) (hn : n ≤ 2 ^ 32) : toUnsigned i = i := toUnsigned_of_lt (by omega)

end Mpc
