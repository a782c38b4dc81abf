import Verif.Proofs.NlAnyAnswer
import Verif.Proofs.NlServe

/-
Evaluations run with any answers of the user functions.
-/
namespace Mpc
open Exec NlSpec
set_option linter.unusedSectionVars false
variable {d : Dims} {K : Type} {α β σ : Type} [Field K] [LinearOrder K] [IsStrictOrderedRing K]

namespace Objective

theorem packP_ok (o : Objective d K) (ho : o.Sized) (hJx : o.Jx.Is d.nx d.ph) (hJm : o.Jmv.Is d.nu d.ph) (mp : Mapping K)
    (hm : mp.Good) (hd : mp.dims = d) (value : K) :
    Post (packP o mp value) (fun r => r.2.Sized ∧ r.2.fuser = o.fuser ∧ r.2.x0 = o.x0 ∧ ∃ G, r.1.grad = some G ∧ G.size = d.nZ) := by
  subst hd
  obtain ⟨hx0, hXs, hUs⟩ := ho
  unfold packP
  refine Post.bind (Q := fun X' => X'.Is (mp.dims.ph + 1) mp.dims.nx) ?_ ?_
  · rw [hXs.2]
    refine forRange_post _ _ _ (fun _ (X' : Mat K) => X'.Is (mp.dims.ph + 1) mp.dims.nx) hXs ?_
    rintro i X' hi ⟨h1, h2⟩
    have := hm.stsz
    rw [Vec.at_ok (by omega), ok_bind, Mat.col_ok (by omega), ok_bind, Mat.setCol_ok (by omega) rfl]
    exact post_ok ⟨h1, h2⟩
  · intro X' hX'
    dsimp only
    refine Post.bind (by
      rw [hJx.1, hJx.2]
      exact pack_loop mp.dims.ph mp.dims.nx 0 (Vec.const mp.dims.nZ 0) o.Jx hJx.1 hJx.2
        (by simp [Vec.const, Dims.nZ]; omega)) ?_
    rintro ⟨c1, g1⟩ ⟨h1, h2, -, -⟩
    dsimp only at h1 h2 ⊢
    refine Post.bind (by
      rw [hJm.1, hJm.2]
      exact pack_loop mp.dims.ph mp.dims.nu 0 (Vec.const (mp.dims.ph * mp.dims.nu) 0) o.Jmv hJm.1 hJm.2
        (by simp [Vec.const])) ?_
    rintro ⟨c2, v⟩ ⟨-, k2, -, -⟩
    dsimp only at k2 ⊢
    rw [Mat.mulVec_ok (by simp only [Mat.transpose]; rw [hm.iz_rows, k2]; rfl), ok_bind]
    refine Post.bind (forRange_post _ (c1, g1) _ (fun q (s : Nat × Vec K) => s.1 = mp.dims.ph * mp.dims.nx + q ∧ s.2.size = mp.dims.nZ)
      ⟨by simpa using h1, h2⟩ ?_) ?_
    · rintro q ⟨c, w⟩ hq ⟨rfl, l2⟩
      dsimp only at l2 ⊢
      have hq' : q < mp.dims.nu * mp.dims.ch := by rw [Nat.mul_comm]; exact hq
      rw [Vec.at_ok (by simp only [Mat.transpose]; rw [hm.iz_cols]; exact hq'), ok_bind,
        Vec.set_ok (by rw [l2]; unfold Dims.nZ; omega), ok_bind]
      exact post_pure ⟨by dsimp only; omega, l2⟩
    · rintro ⟨c, w⟩ ⟨-, l2⟩
      dsimp only at l2 ⊢
      rw [Vec.set_ok (by rw [l2]; unfold Dims.nZ; omega), ok_bind]
      exact post_pure ⟨⟨hx0, hX', hUs⟩, rfl, rfl, _, rfl, l2⟩

end Objective

namespace Constraints

/-- sizes between the steps of the state equation -/
def StepSizes (d : Dims) (i : Nat) (s : Nat × Vec K × Mat K × Mat K) : Prop :=
  s.1 = i * d.nx ∧ s.2.1.size = d.ph * d.nx ∧ s.2.2.1.Is (d.ph * d.nx) (d.ph * d.nx) ∧ s.2.2.2.Is (d.ph * d.nx) (d.ph * d.nu)

theorem ceq_write_any (ceq s : Vec K) (i nx n : Nat) (v : Vec K) (cont : Vec K → Prog d K β) (l : List (UserCall d K)) (R : β → Prop)
    (hs : s.size = nx) (hv : v.size = nx) (hsz : ceq.size = n) (hend : i * nx + nx ≤ n)
    (hk : ∀ c' : Vec K, c'.size = n → Any (cont c') l R) :
    Any (do
      let ceq ← ceq.setSeg (i * nx) nx v
      let v ← (← ceq.seg (i * nx) nx).cwiseDiv s
      let c' ← ceq.setSeg (i * nx) nx v
      cont c') l R := by
  rw [Vec.setSeg_ok (by omega) hv, Prog.lift_ok_bind, Vec.seg_ok (by simp only [Vec.setSegRaw]; omega), Prog.lift_ok_bind]
  unfold Vec.cwiseDiv
  rw [require_ok (by dsimp only; omega), ok_bind, Prog.lift_pure_bind,
    Vec.setSeg_ok (by simp only [Vec.setSegRaw]; omega) (by rfl), Prog.lift_ok_bind]
  exact hk _ hsz

theorem setPrevBlock_sizes (i : Nat) (hi : i < d.ph) (Jx : Mat K) (hJ : Jx.Is (d.ph * d.nx) (d.ph * d.nx)) (B : Exec (Mat K))
    (hB : 0 < i → Post B (fun B => B.Is d.nx d.nx)) :
    Post (setPrevBlock d Jx i (i * d.nx) B) (fun J => J.Is (d.ph * d.nx) (d.ph * d.nx)) := by
  unfold setPrevBlock
  by_cases hpos : 0 < i
  · rw [if_pos hpos]
    refine Post.bind (hB hpos) fun B hB => ?_
    exact (block_write Jx B i (i - 1) hi (by omega) hJ hB).mono fun _ h => h.1
  · rw [if_neg hpos]
    exact post_pure hJ

theorem stepDiscreteP_any (mp : Mapping K) (hm : mp.Good) (hd : mp.dims = d) (M : NlModel d K) (hf : M.vectorField.isSome)
    (X U : Mat K) (hp : d.ph < 2 ^ 31) (hX : X.Is (d.ph + 1) d.nx) (hU : U.Is (d.ph + 1) d.nu) (g : Bool) (k : Fin d.ph)
    (s : Nat × Vec K × Mat K × Mat K) (hs : StepSizes d k s) :
    Any (stepDiscreteP mp M X U g k s)
      ([UserCall.state (X.viewF (d.ph + 1) d.nx k.castSucc) (U.viewF (d.ph + 1) d.nu k.castSucc) k] ++
      if g then NlSpec.modelProbes (X.viewF (d.ph + 1) d.nx k.castSucc) (U.viewF (d.ph + 1) d.nu k.castSucc) k else [])
      (StepSizes d (k + 1)) := by
  subst hd
  obtain ⟨ic, ceq, Jx, Jmv⟩ := s
  obtain ⟨hic, hsz, hjx, hjm⟩ := hs
  dsimp only at hic hsz hjx hjm
  subst hic
  have hst := hm.stsz
  have hsi := hm.invsz
  have hk := k.2
  have hend : (k : Nat) * mp.dims.nx + mp.dims.nx ≤ mp.dims.ph * mp.dims.nx := block_end_le hk
  have hnext : (k : Nat) * mp.dims.nx + mp.dims.nx = (k + 1) * mp.dims.nx := by rw [Nat.add_mul, Nat.one_mul]
  unfold stepDiscreteP
  dsimp only
  rw [rowV_ok (by rw [hU.1]; omega), Prog.lift_ok_bind, rowV_ok (by rw [hX.1]; omega), Prog.lift_ok_bind,
    toUnsigned_of_lt (by omega)]
  refine Any.bind (M.callStateP_any hf (rowV X k) (rowV U k) k hX.2 hU.2) fun xk1 hxk1 => ?_
  rw [rowV_ok (by rw [hX.1]; omega), Prog.lift_ok_bind, Vec.add_ok (by simp only [Vec.neg]; rw [hxk1]; exact hX.2), Prog.lift_ok_bind]
  refine ceq_write_any ceq mp.stateScaling k mp.dims.nx (mp.dims.ph * mp.dims.nx) _ _ _ _ hst hX.2 hsz hend ?_
  intro c' hc'
  cases g with
  | false => exact Any.pure ⟨hnext, hc', hjx, hjm⟩
  | true =>
    simp only [if_true]
    refine Any.bindEnd (computeStateEqJacobianP_any M hf (rowV X k) (rowV U k) k hX.2 hU.2) ?_
    rintro ⟨A, B⟩ ⟨hA, hB⟩
    dsimp only at hA hB ⊢
    refine Any.first (diag_mul1 mp.invStateScaling hsi A hA) ?_
    rintro T ⟨hT, -⟩
    refine Any.first (mul_diag mp.stateScaling hst T hT) ?_
    rintro T' ⟨hT', -⟩
    refine Any.first (diag_mul1 mp.invStateScaling hsi B hB) ?_
    rintro S ⟨hS, -⟩
    refine Any.first (block_write Jx _ k k hk hk hjx ⟨rfl, rfl⟩) ?_
    rintro Jx1 ⟨hJx1, -⟩
    refine Any.first (setPrevBlock_sizes k hk Jx1 hJx1 _ fun _ => post_pure hT') ?_
    intro Jx2 hJx2
    refine Any.first (block_write Jmv S.neg k k hk hk hjm hS) ?_
    rintro Jm1 ⟨hJm1, -⟩
    exact Any.pure ⟨hnext, hc', hJx2, hJm1⟩

theorem stepContinuousP_any (mp : Mapping K) (hm : mp.Good) (hd : mp.dims = d) (M : NlModel d K) (hf : M.vectorField.isSome)
    (X U : Mat K) (hp : d.ph < 2 ^ 31) (hX : X.Is (d.ph + 1) d.nx) (hU : U.Is (d.ph + 1) d.nu) (g : Bool) (k : Fin d.ph)
    (s : Nat × Vec K × Mat K × Mat K) (hs : StepSizes d k s) :
    Any (stepContinuousP mp M X U g k s)
      ([UserCall.state (X.viewF (d.ph + 1) d.nx k.castSucc) (U.viewF (d.ph + 1) d.nu k.castSucc) k] ++
      ([UserCall.state (X.viewF (d.ph + 1) d.nx k.succ) (U.viewF (d.ph + 1) d.nu k.castSucc) k] ++
      if g then NlSpec.modelProbes (X.viewF (d.ph + 1) d.nx k.castSucc) (U.viewF (d.ph + 1) d.nu k.castSucc) k ++
        NlSpec.modelProbes (X.viewF (d.ph + 1) d.nx k.succ) (U.viewF (d.ph + 1) d.nu k.castSucc) k else []))
      (StepSizes d (k + 1)) := by
  subst hd
  obtain ⟨ic, ceq, Jx, Jmv⟩ := s
  obtain ⟨hic, hsz, hjx, hjm⟩ := hs
  dsimp only at hic hsz hjx hjm
  subst hic
  have hst := hm.stsz
  have hsi := hm.invsz
  have hk := k.2
  have hend : (k : Nat) * mp.dims.nx + mp.dims.nx ≤ mp.dims.ph * mp.dims.nx := block_end_le hk
  have hnext : (k : Nat) * mp.dims.nx + mp.dims.nx = (k + 1) * mp.dims.nx := by rw [Nat.add_mul, Nat.one_mul]
  have hx1 : (rowV X k).size = mp.dims.nx := hX.2
  have hx2 : (rowV X (k + 1)).size = mp.dims.nx := hX.2
  unfold stepContinuousP
  dsimp only
  rw [rowV_ok (by rw [hU.1]; omega), Prog.lift_ok_bind, rowV_ok (by rw [hX.1]; omega), Prog.lift_ok_bind,
    rowV_ok (by rw [hX.1]; omega), Prog.lift_ok_bind, toUnsigned_of_lt (by omega)]
  refine Any.bind (M.callStateP_any hf (rowV X k) (rowV U k) k hX.2 hU.2) fun fk hfk => ?_
  refine Any.bind (M.callStateP_any hf (rowV X (k + 1)) (rowV U k) k hX.2 hU.2) fun fk1 hfk1 => ?_
  rw [Vec.add_ok (by rw [hfk, hfk1]), Prog.lift_ok_bind, Vec.add_ok (by simp only [Vec.smul]; rw [hfk]; exact hX.2), Prog.lift_ok_bind,
    Vec.add_ok (by simp only [Vec.neg]; rw [hx1, hx2]), Prog.lift_ok_bind]
  refine ceq_write_any ceq mp.stateScaling k mp.dims.nx (mp.dims.ph * mp.dims.nx) _ _ _ _ hst hX.2 hsz hend ?_
  intro c' hc'
  cases g with
  | false => exact Any.pure ⟨hnext, hc', hjx, hjm⟩
  | true =>
    simp only [if_true]
    refine Any.bind (computeStateEqJacobianP_any M hf (rowV X k) (rowV U k) k hX.2 hU.2) ?_
    rintro ⟨A, B⟩ ⟨hA, hB⟩
    refine Any.bindEnd (computeStateEqJacobianP_any M hf (rowV X (k + 1)) (rowV U k) k hX.2 hU.2) ?_
    rintro ⟨A1, B1⟩ ⟨hA1, hB1⟩
    dsimp only at hA hB hA1 hB1 ⊢
    refine Any.first (setPrevBlock_sizes k hk Jx hjx _ fun _ => ?_) ?_
    · refine Post.bind (diag_mul mp.invStateScaling (M.Ts / 2) hsi A hA) ?_
      rintro T ⟨hT, -⟩
      refine Post.bind (mul_diag mp.stateScaling hst T hT) ?_
      rintro T' ⟨hT', -⟩
      rw [Mat.add_ok (by simp only [Mat.identity]; rw [hT'.1]) (by simp only [Mat.identity]; rw [hT'.2])]
      exact post_ok ⟨rfl, rfl⟩
    intro Jx1 hJx1
    refine Any.first (diag_mul mp.invStateScaling (M.Ts / 2) hsi A1 hA1) ?_
    rintro T ⟨hT, -⟩
    refine Any.first (mul_diag mp.stateScaling hst T hT) ?_
    rintro T' ⟨hT', -⟩
    rw [Mat.add_ok (by simp only [Mat.identity, Mat.neg]; rw [hT'.1])
      (by simp only [Mat.identity, Mat.neg]; rw [hT'.2]), Prog.lift_ok_bind]
    refine Any.first (block_write Jx1 _ k k hk hk hJx1 ⟨rfl, rfl⟩) ?_
    rintro Jx2 ⟨hJx2, -⟩
    rw [Mat.add_ok (by rw [hB.1, hB1.1]) (by rw [hB.2, hB1.2]), Prog.lift_ok_bind]
    refine Any.first (diag_mul mp.invStateScaling (M.Ts / 2) hsi _ ⟨hB.1, hB.2⟩) ?_
    rintro S ⟨hS, -⟩
    refine Any.first (block_write Jmv S k k hk hk hjm hS) ?_
    rintro Jm1 ⟨hJm1, -⟩
    exact Any.pure ⟨hnext, hc', hJx2, hJm1⟩

theorem getStateEqConstraintsP_any (mp : Mapping K) (hm : mp.Good) (hd : mp.dims = d) (M : NlModel d K) (hf : M.vectorField.isSome)
    (junk : Nat → K) (X U : Mat K) (hp : d.ph < 2 ^ 31) (hX : X.Is (d.ph + 1) d.nx) (hU : U.Is (d.ph + 1) d.nu) (ceq : Vec K)
    (Jceq : Mat K) (hc : ceq.size = d.ph * d.nx) (hJ : Jceq.Is d.nZ (d.ph * d.nx)) (g : Bool) :
    Any (getStateEqConstraintsP mp M junk X U ceq Jceq g)
      (NlSpec.modelTrace M.continuous (X.viewF (d.ph + 1) d.nx) (U.viewF (d.ph + 1) d.nu) g)
      (fun r => r.1.size = d.ph * d.nx ∧ r.2.Is d.nZ (d.ph * d.nx)) := by
  unfold getStateEqConstraintsP NlSpec.modelTrace
  dsimp only
  refine Any.bindEnd ((forRange_any d.ph _ _ (fun i => if h : i < d.ph then
      ((UserCall.state (X.viewF (d.ph + 1) d.nx (Fin.castSucc ⟨i, h⟩)) (U.viewF (d.ph + 1) d.nu (Fin.castSucc ⟨i, h⟩)) i ::
        if M.continuous then [UserCall.state (X.viewF (d.ph + 1) d.nx (Fin.succ ⟨i, h⟩)) (U.viewF (d.ph + 1) d.nu (Fin.castSucc ⟨i, h⟩)) i]
        else []) ++ if g then NlSpec.modelProbes (X.viewF (d.ph + 1) d.nx (Fin.castSucc ⟨i, h⟩)) (U.viewF (d.ph + 1) d.nu (Fin.castSucc ⟨i, h⟩)) i ++
          if M.continuous then
            NlSpec.modelProbes (X.viewF (d.ph + 1) d.nx (Fin.succ ⟨i, h⟩)) (U.viewF (d.ph + 1) d.nu (Fin.castSucc ⟨i, h⟩)) i else []
        else []) else []) (StepSizes d) ⟨by simp, hc, ⟨rfl, rfl⟩, ⟨rfl, rfl⟩⟩ ?_).mono
        (flatMap_range_to fun k => by rw [dif_pos k.2]) fun _ h => h) ?_
  · intro i t hi ht
    rw [dif_pos hi]
    cases hc : M.continuous with
    | false =>
      simp only [Bool.false_eq_true, if_false, List.append_nil]
      exact stepDiscreteP_any mp hm hd M hf X U hp hX hU g ⟨i, hi⟩ t ht
    | true =>
      simp only [if_true]
      exact stepContinuousP_any mp hm hd M hf X U hp hX hU g ⟨i, hi⟩ t ht
  · rintro ⟨ic, c, Jx, Jm⟩ ⟨-, hsz, hjx, hjm⟩
    dsimp only at hsz hjx hjm ⊢
    cases g with
    | false => exact Any.pure ⟨hsz, hJ⟩
    | true =>
      subst hd
      simp only [if_true]
      refine Any.first (glueJacobian_post mp hm rfl junk (mp.dims.ph * mp.dims.nx)
        (Mat.const Jceq.rows Jceq.cols 0) Jx Jm _ hJ hjx hjm rfl) ?_
      intro G hG
      exact Any.pure ⟨hsz, hG.is⟩

end Constraints

namespace NlState
variable {s : NlState d K} {c : NlSpec.Cfg d K}

theorem evalObjP_any (h : s.Holds c) (hp : d.ph < 2 ^ 31) {f : ObjFn d K} (hf : c.obj = some f) (z : Vec K) (hz : z.size = d.nZ)
    (g : Bool) : Any (s.evalObjP z g) (NlSpec.objectiveTrace zeroF c.out.isSome (NlSpec.codeStates d c.stScale s.obj.x0.get z.get)
      (NlSpec.inputs d c.inScale z.get) (z.get (NlSpec.slackIx d)) g)
      (fun r => r.2.Holds c ∧ r.2.con = s.con ∧ r.2.obj.x0 = s.obj.x0 ∧ (g = true → ∃ G, r.1.grad = some G ∧ G.size = d.nZ)) := by
  have hch := h.good.ch_pos
  have hle := h.good.ch_le
  rw [h.dims] at hch hle
  unfold evalObjP
  refine Any.bindEnd (Q := fun r => r.2.Sized ∧ r.2.fuser = s.obj.fuser ∧ r.2.x0 = s.obj.x0 ∧
    (g = true → ∃ G, r.1.grad = some G ∧ G.size = d.nZ)) ?_ ?_
  · unfold Objective.evaluateP
    obtain ⟨⟨X, U, e⟩, hw, hX, hU, hXv, hUv, he⟩ := h.unwrapObj z hz
    dsimp only at hX hU hXv hUv he
    rw [hw, Prog.lift_ok_bind]
    dsimp only
    rw [h.obj, hf]
    unfold NlSpec.objectiveTrace
    rw [← hXv, ← hUv, ← h.out, ← he]
    refine Any.bind (Objective.callObjP_any f s.M X U e hp hX hU) fun v _ => ?_
    cases g with
    | false =>
      exact Any.pure ⟨(⟨h.osz.x0, hX, hU⟩ : Objective.Sized { s.obj with Xmat := X, Umat := U, e := e, fuser := some f }),
        rfl, rfl, (fun h => nomatch h)⟩
    | true =>
      simp only [if_true]
      refine Any.bindEnd (Objective.computeJacobianP_any f s.M X U v e hp (by omega) hX hU) ?_
      rintro ⟨Jx, Jm, Je⟩ ⟨hJx, hJm⟩
      dsimp only at hJx hJm ⊢
      refine Any.lift ((Objective.packP_ok { s.obj with Xmat := X, Umat := U, e := e, fuser := some f, Jx := Jx, Jmv := Jm, Je := Je }
        ⟨h.osz.x0, hX, hU⟩ hJx hJm s.mp h.good h.dims v).mono ?_)
      rintro r ⟨r1, r2, r3, r4⟩
      exact ⟨r1, r2, r3, fun _ => r4⟩
  · rintro ⟨r, o⟩ ⟨h1, h2, h3, h4⟩
    dsimp only at h1 h2 h3 h4 ⊢
    exact Any.pure ⟨{ h with osz := h1, obj := h2.trans h.obj, ox0 := fun x hx => by dsimp only; rw [h3]; exact h.ox0 x hx },
      rfl, h3, h4⟩

/-- what an evaluation of a constraint leaves unchanged -/
structure ConKept (o o' : Constraints d K) : Prop where
  sized : o'.Sized
  ieq : o'.ieqUser = o.ieqUser
  eq : o'.eqUser = o.eqUser
  x0 : o'.x0 = o.x0
  ti : o'.ieqTol = o.ieqTol
  te : o'.eqTol = o.eqTol

theorem ConKept.holds {o : Constraints d K} (h : s.Holds c) (hk : ConKept s.con o) : NlState.Holds { s with con := o } c :=
  { h with
    ineq := hk.ieq.trans h.ineq, eq := hk.eq.trans h.eq, csz := hk.sized, cx0 := fun x hx => by dsimp only; rw [hk.x0]; exact h.cx0 x hx }

/-- result of an evaluation of `n` constraints -/
def ConRes (s : NlState d K) (c : NlSpec.Cfg d K) (n : Nat) (r : ConCost K × NlState d K) : Prop :=
  r.2.Holds c ∧ r.2.obj = s.obj ∧ ConKept s.con r.2.con ∧ r.1.value.size = n ∧ r.1.grad.size = n * d.nZ

theorem conRes {o : Constraints d K} (h : s.Holds c) (hk : ConKept s.con o) {n : Nat} {v : Vec K} {G : Mat K} (hv : v.size = n)
    (hG : G.Is d.nZ n) : ConRes s c n (⟨v, G.dataVec⟩, { s with con := o }) :=
  ⟨hk.holds h, rfl, hk, hv, by simp only [Mat.dataVec]; rw [hG.1, hG.2, Nat.mul_comm]⟩

theorem evalIneqP_any (h : s.Holds c) (hp : d.ph < 2 ^ 31) (hf : c.ineq.isSome) (z : Vec K) (hz : z.size = d.nZ) (junk : Nat → K) :
    Any (s.evalIneqP z junk) (NlSpec.ineqTrace zeroF c.out.isSome (NlSpec.codeStates d c.stScale s.con.x0.get z.get)
      (NlSpec.inputs d c.inScale z.get) (z.get (NlSpec.slackIx d))) (ConRes s c d.ineq) := by
  obtain ⟨⟨X, U, e⟩, hw, hX, hU, hXv, hUv, he⟩ := h.unwrapCon z hz
  dsimp only at hX hU hXv hUv he
  have hi := h.ineq
  have hd := h.dims
  have hcs := h.csz
  obtain ⟨F, hF⟩ := Option.isSome_iff_exists.1 hf
  rw [hF] at hi
  unfold evalIneqP Constraints.evaluateIneqP
  rw [hw, Prog.lift_ok_bind]
  dsimp only
  rw [hi]
  dsimp only [Option.map]
  unfold NlSpec.ineqTrace
  rw [← hXv, ← hUv, ← h.out, ← he, List.append_assoc, List.append_assoc]
  refine Any.bindEnd (Q := fun r => ConKept s.con r.2 ∧ ConRes s c d.ineq (r.1, { s with con := r.2 }))
    (Any.bind (Constraints.callIneqP_any s.M X U e hp hX hU) fun v hv => ?_) fun r hr => Any.pure hr.2
  · rw [← List.append_assoc]
    refine Any.bindEnd (Constraints.computeIneqJacobianP_any s.M X U e hp hX hU) ?_
    rintro ⟨Jx, Jm, Jc⟩ ⟨h1, h2, h3⟩
    dsimp only at h1 h2 h3 ⊢
    refine Any.first (Constraints.glueJacobian_post s.mp h.good hd junk d.ineq s.con.JcineqUser Jx Jm Jc hcs.Ji h1 h2 h3) ?_
    intro G hG
    refine Any.first (Constraints.scaleStateRows_post s.mp h.good hd d.ineq G (by have := hG.is; rwa [hd] at this)) ?_
    intro G' hG'
    have hGs := hG'.is
    rw [hd] at hGs
    have hk : ConKept s.con { s.con with ieqUser := some fun _ => F, Xmat := X, Umat := U, e := e, cineqUser := v, JcineqUser := G' } :=
      ⟨⟨hcs.x0, hX, hU, hcs.ceq, hcs.Jceq, hv, hGs, hcs.ce, hcs.Je⟩, hi.symm, rfl, rfl, rfl, rfl⟩
    refine ⟨rfl, _, rfl, hk, conRes h hk hv hGs⟩

theorem evalEqP_any (h : s.Holds c) (hf : c.eq.isSome) (z : Vec K) (hz : z.size = d.nZ) (junk : Nat → K) :
    Any (s.evalEqP z junk) (NlSpec.eqTrace (NlSpec.codeStates d c.stScale s.con.x0.get z.get) (NlSpec.inputs d c.inScale z.get))
      (ConRes s c d.eq) := by
  have hch := h.good.ch_pos
  have hle := h.good.ch_le
  rw [h.dims] at hch hle
  obtain ⟨⟨X, U, e⟩, hw, hX, hU, hXv, hUv, -⟩ := h.unwrapCon z hz
  dsimp only at hX hU hXv hUv
  have hi := h.eq
  have hd := h.dims
  have hcs := h.csz
  obtain ⟨F, hF⟩ := Option.isSome_iff_exists.1 hf
  rw [hF] at hi
  unfold evalEqP Constraints.evaluateEqP
  rw [hw, Prog.lift_ok_bind]
  dsimp only
  rw [hi]
  dsimp only [Option.map]
  unfold NlSpec.eqTrace
  rw [← hXv, ← hUv, List.append_assoc, List.append_assoc]
  refine Any.bindEnd (Q := fun r => ConKept s.con r.2 ∧ ConRes s c d.eq (r.1, { s with con := r.2 }))
    (Any.bind (Constraints.callEqP_any X U hX hU) fun v hv => ?_) fun r hr => Any.pure hr.2
  · rw [← List.append_assoc]
    refine Any.bindEnd (Constraints.computeEqJacobianP_any X U (by omega) hX hU) ?_
    rintro ⟨Jx, Jm⟩ ⟨h1, h2⟩
    dsimp only at h1 h2 ⊢
    refine Any.first (Constraints.glueJacobian_post s.mp h.good hd junk d.eq s.con.JceqUser Jx Jm _ hcs.Je h1 h2 rfl) ?_
    intro G hG
    refine Any.first (Constraints.scaleStateRows_post s.mp h.good hd d.eq G (by have := hG.is; rwa [hd] at this)) ?_
    intro G' hG'
    have hGs := hG'.is
    rw [hd] at hGs
    have hk : ConKept s.con { s.con with eqUser := some fun _ => F, Xmat := X, Umat := U, e := e, ceqUser := v, JceqUser := G' } :=
      ⟨⟨hcs.x0, hX, hU, hcs.ceq, hcs.Jceq, hcs.ci, hcs.Ji, hv, hGs⟩, rfl, hi.symm, rfl, rfl, rfl⟩
    refine ⟨rfl, _, rfl, hk, conRes h hk hv hGs⟩

theorem evalDynP_any (h : s.Holds c) (hp : d.ph < 2 ^ 31) (hf : c.field.isSome) (z : Vec K) (hz : z.size = d.nZ) (g : Bool)
    (junk : Nat → K) : Any (s.evalDynP z g junk) (NlSpec.modelTrace c.cont (NlSpec.codeStates d c.stScale s.con.x0.get z.get)
      (NlSpec.inputs d c.inScale z.get) g) (ConRes s c (d.ph * d.nx)) := by
  obtain ⟨⟨X, U, e⟩, hw, hX, hU, hXv, hUv, -⟩ := h.unwrapCon z hz
  dsimp only at hX hU hXv hUv
  have hcs := h.csz
  have hfs : s.M.vectorField.isSome := by rw [h.field]; obtain ⟨F, hF⟩ := Option.isSome_iff_exists.1 hf; rw [hF]; rfl
  unfold evalDynP Constraints.evaluateStateModelEqP
  rw [hw, Prog.lift_ok_bind]
  dsimp only
  rw [← hXv, ← hUv, ← h.cont]
  refine Any.bindEnd (Q := fun r => ConKept s.con r.2 ∧ ConRes s c (d.ph * d.nx) (r.1, { s with con := r.2 }))
    (Any.bindEnd (Constraints.getStateEqConstraintsP_any s.mp h.good h.dims s.M hfs junk X U hp hX hU s.con.ceq s.con.Jceq
      hcs.ceq hcs.Jceq g) ?_) fun r hr => Any.pure hr.2
  rintro ⟨v, J⟩ ⟨h1, h2⟩
  dsimp only at h1 h2 ⊢
  have hk : ConKept s.con { s.con with Xmat := X, Umat := U, e := e, ceq := v, Jceq := J } :=
    ⟨⟨hcs.x0, hX, hU, h1, h2, hcs.ci, hcs.Ji, hcs.ce, hcs.Je⟩, rfl, rfl, rfl, rfl, rfl⟩
  exact Any.pure ⟨hk, conRes h hk h1 h2⟩

end NlState
end Mpc
