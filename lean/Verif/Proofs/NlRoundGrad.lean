import Verif.Proofs.NlRoundEval

/-
The difference quotients computed in rounded arithmetic.
-/
namespace Mpc
open Exec
set_option linter.unusedSectionVars false

variable {d : Dims} {K : Type} [Field K] [LinearOrder K] [IsStrictOrderedRing K] (R : Rounding K)

/-- the rounded step for a value `v` -/
abbrev stepR (t v : K) : K := NlSpec.stepOfR R.rnd t v

/-- the rounded step of the slack -/
abbrev slackR (t e : K) : K := NlSpec.slackStepR R.rnd t e

variable {R}

theorem rnd_pos8 (he : R.eps ≤ 1 / 8) {t : K} (ht : 0 < t) : 0 < R.rnd t := R.pos (by linarith) ht

theorem stepR_pos (he : R.eps ≤ 1 / 8) {t : K} (ht : 0 < t) (v : K) : 0 < stepR R t v :=
  R.pos (by linarith) (NlSpec.stepOf_pos (rnd_pos8 he ht) v)

theorem slackR_pos (he : R.eps ≤ 1 / 8) {t : K} (ht : 0 < t) (e : K) : 0 < slackR R t e :=
  R.pos (by linarith) (mul_pos (lt_of_lt_of_le (rnd_pos8 he ht) (le_max_left _ _)) (rnd_pos8 he ht))

theorem drift_nonneg (x : K) {h : K} (hh : 0 < h) : 0 ≤ NlSpec.drift R x h := by
  unfold NlSpec.drift
  have := R.eps_nonneg
  positivity

theorem driftX_nonneg {r c : Nat} (X : Traj r c K) {hx : Nat → Nat → K} (h : ∀ k a, 0 < hx k a) (k a : Nat) :
    0 ≤ NlSpec.driftX R X hx k a := by
  unfold NlSpec.driftX
  split_ifs
  · exact le_refl _
  · exact drift_nonneg _ (h _ _)

theorem driftU_nonneg {r c : Nat} (X : Traj r c K) {hx : Nat → Nat → K} (h : ∀ k a, 0 < hx k a) (k a : Nat) :
    0 ≤ NlSpec.driftU R X hx k a := drift_nonneg _ (h _ _)

theorem Mat.entry_eq (X : Mat K) {r c k l : Nat} (hk : k < r) (hl : l < c) : NlSpec.entry (X.viewF r c) k l = X.get k l := by
  unfold NlSpec.entry; rw [dif_pos ⟨hk, hl⟩]; rfl

namespace Objective

theorem computeJacobianR_post (he : R.eps ≤ 1 / 8) (f : ObjFn d K) (M : NlModel d K) (X U : Mat K) (e : K) (hp : d.ph < 2 ^ 31)
    (hp0 : 0 < d.ph) (hX : X.Is (d.ph + 1) d.nx) (hU : U.Is (d.ph + 1) d.nu) :
    Post (computeJacobianR R.rnd (some f) M X U
        (NlSpec.costOf f M.outUser (X.viewF (d.ph + 1) d.nx) (U.viewF (d.ph + 1) d.nu) e) e)
      (fun r => r.1.Is d.nx d.ph ∧ r.2.1.Is d.nu d.ph ∧
        NlSpec.ObjDiffR R d (NlSpec.costOf f M.outUser) (X.viewF (d.ph + 1) d.nx) (U.viewF (d.ph + 1) d.nu) e
          (fun a => stepR R (1 / 1000000) (NlSpec.linear (X.viewF (d.ph + 1) d.nx) a))
          (fun b => stepR R (1 / 1000000) (NlSpec.linear (U.viewF (d.ph + 1) d.nu) b)) (slackR R (1 / 1000000) e)
          (NlSpec.driftX R (X.viewF (d.ph + 1) d.nx) fun _ a => stepR R (1 / 1000000) (NlSpec.linear (X.viewF (d.ph + 1) d.nx) a))
          (NlSpec.driftU R (U.viewF (d.ph + 1) d.nu) fun _ b => stepR R (1 / 1000000) (NlSpec.linear (U.viewF (d.ph + 1) d.nu) b))
          (fun k a => r.1.get a k) (fun k b => r.2.1.get b k) r.2.2) := by
  unfold computeJacobianR
  dsimp only
  generalize hρx : (NlSpec.driftX R (X.viewF (d.ph + 1) d.nx) fun _ a => stepR R (1 / 1000000) (NlSpec.linear (X.viewF (d.ph + 1) d.nx) a)) = ρx
  generalize hρu : (NlSpec.driftU R (U.viewF (d.ph + 1) d.nu) fun _ b => stepR R (1 / 1000000) (NlSpec.linear (U.viewF (d.ph + 1) d.nu) b)) = ρu
  have nx : ∀ k l, 0 ≤ ρx k l := by rw [← hρx]; exact driftX_nonneg _ fun _ _ => stepR_pos he (by norm_num) _
  have nu : ∀ k l, 0 ≤ ρu k l := by rw [← hρu]; exact driftU_nonneg _ fun _ _ => stepR_pos he (by norm_num) _
  have sx : ∀ j, j < d.nx → R.rnd (R.rnd (1 / 1000000) * X.absMax1.dataVec.get j)
      = stepR R (1 / 1000000) (NlSpec.linear (X.viewF (d.ph + 1) d.nx) j) := fun j hj => by
    rw [Mat.step_data_eq _ hX.1 hj]; rfl
  have su : ∀ j, j < d.nu → R.rnd (R.rnd (1 / 1000000) * U.absMax1.dataVec.get j)
      = stepR R (1 / 1000000) (NlSpec.linear (U.viewF (d.ph + 1) d.nu) j) := fun j hj => by
    rw [Mat.step_data_eq _ hU.1 hj]; rfl
  have du : ∀ k j, k ≤ d.ph → j < d.nu → NlSpec.drift R (U.get k j) (R.rnd (R.rnd (1 / 1000000) * U.absMax1.dataVec.get j)) ≤ ρu k j := by
    intro k j hk hj
    rw [su j hj, ← hρu]
    unfold NlSpec.driftU
    rw [Mat.entry_eq U (by omega) hj]
  refine Post.bind (forward_loopR R he (fun Y => callObj (some f) M Y U e)
    (fun Y => NlSpec.costOf f M.outUser (Y.viewF (d.ph + 1) d.nx) (U.viewF (d.ph + 1) d.nu) e)
    d.ph d.nx 1 X X (Mat.const d.nx d.ph 0) (R.rnd (1 / 1000000)) _ (fun _ j => X.absMax1.dataVec.at? j)
    (fun _ j => X.absMax1.dataVec.get j) ρx (Mat.Near.refl nx X) (fun _ _ _ _ => rfl)
    (by rw [hX.1]) hX.2 rfl (by exact Nat.le_refl _)
    (fun i j _ hj => Mat.absMax1_data_ok hX.1 hX.2 hj)
    (fun i j _ hj => by rw [sx j hj]; exact stepR_pos he (by norm_num) _)
    (fun i j hi hj => by
      rw [sx j hj, ← hρx]
      unfold NlSpec.driftX
      rw [if_neg (by omega), Mat.entry_eq X (by omega) hj])
    (fun Y h1 h2 => callObj_ok f M Y U e hp ⟨h1.trans hX.1, h2.trans hX.2⟩ hU)) ?_
  rintro ⟨X', Jx⟩ ⟨hX', hX0, hJr, hJc, hJ, -, hXb⟩
  dsimp only at hX' hX0 hJr hJc hJ hXb ⊢
  have hXv : X'.viewF (d.ph + 1) d.nx = NlSpec.restoredF R.rnd (X.viewF (d.ph + 1) d.nx)
      (fun _ a => stepR R (1 / 1000000) (NlSpec.linear (X.viewF (d.ph + 1) d.nx) a)) := by
    funext k a
    show X'.get k a = _
    unfold NlSpec.restoredF
    by_cases hk : (k : Nat) = 0
    · rw [if_pos hk, hX0 _ _ (by omega)]; rfl
    · rw [if_neg hk]
      have := hXb (k - 1) a (by omega) a.2
      rw [Nat.sub_add_cancel (by omega), sx a a.2] at this
      exact this
  have hXs : X'.Is (d.ph + 1) d.nx := ⟨hX'.rows.trans hX.1, hX'.cols.trans hX.2⟩
  refine Post.bind (forward_loopR R he (fun Y => callObj (some f) M X' Y e)
    (fun Y => NlSpec.costOf f M.outUser (X'.viewF (d.ph + 1) d.nx) (Y.viewF (d.ph + 1) d.nu) e)
    (d.ph - 1) d.nu 0 U U (Mat.const d.nu d.ph 0) (R.rnd (1 / 1000000)) _ (fun _ j => U.absMax1.dataVec.at? j)
    (fun _ j => U.absMax1.dataVec.get j) ρu (Mat.Near.refl nu U) (fun _ _ _ _ => rfl)
    (by rw [hU.1]; omega) hU.2 rfl (by simp [Mat.const])
    (fun i j _ hj => Mat.absMax1_data_ok hU.1 hU.2 hj)
    (fun i j _ hj => by rw [su j hj]; exact stepR_pos he (by norm_num) _)
    (fun i j hi hj => du _ _ (by omega) hj)
    (fun Y h1 h2 => callObj_ok f M X' Y e hp hXs ⟨h1.trans hU.1, h2.trans hU.2⟩)) ?_
  rintro ⟨U', Jm⟩ ⟨hU', hUe, hMr, hMc, hM, -, -⟩
  dsimp only at hU' hUe hMr hMc hM ⊢
  refine Post.bind (forward_last_loopR R he (fun Y => callObj (some f) M X' Y e)
    (fun Y => NlSpec.costOf f M.outUser (X'.viewF (d.ph + 1) d.nx) (Y.viewF (d.ph + 1) d.nu) e)
    d.nu (d.ph - 1) d.ph (d.ph - 1) U U' Jm (R.rnd (1 / 1000000)) _ (fun j => U.absMax1.dataVec.at? j)
    (fun j => U.absMax1.dataVec.get j) ρu (by omega) hU' (fun k l hk => hUe k l (by omega))
    (by rw [hU.1]; omega) (by rw [hU.1]; omega) hU.2 hMr
    (by rw [hMc]; simp [Mat.const]; omega)
    (fun j hj => Mat.absMax1_data_ok hU.1 hU.2 hj)
    (fun j hj => by rw [su j hj]; exact stepR_pos he (by norm_num) _)
    (fun j hj => du _ _ (by omega) hj) (fun j hj => du _ _ (by omega) hj)
    (fun Y h1 h2 => callObj_ok f M X' Y e hp hXs ⟨h1.trans hU.1, h2.trans hU.2⟩)) ?_
  rintro ⟨U'', Jm'⟩ ⟨hU'', hNr, hNc, hN, hN2⟩
  dsimp only at hU'' hNr hNc hN hN2 ⊢
  have hUs : U''.Is (d.ph + 1) d.nu := ⟨hU''.rows.trans hU.1, hU''.cols.trans hU.2⟩
  rw [callObj_ok f M X' U'' _ hp hXs hUs, ok_bind, callObj_ok f M X' U'' _ hp hXs hUs, ok_bind]
  refine post_pure ⟨⟨hJr, by rw [hJc]; rfl⟩, ⟨hNr, by rw [hNc, hMc]; rfl⟩, ?_, ?_, ?_, ?_⟩
  · intro k a hk ha
    obtain ⟨Yp, h1, h2⟩ := hJ k a hk ha
    have h3 := h1.view (d.ph + 1) d.nx
    rw [Mat.viewF_bumpM, sx a ha] at h3
    rw [sx a ha] at h2
    exact ⟨_, h3, h2⟩
  · intro k b hk hb
    obtain ⟨Yp, h1, h2⟩ := hM k b (by omega) hb
    have h3 := h1.view (d.ph + 1) d.nu
    rw [Mat.viewF_bumpM, su b hb] at h3
    rw [su b hb] at h2
    rw [hXv] at h2
    exact ⟨_, h3, (hN2 b k (by omega)).trans h2⟩
  · intro b hb
    obtain ⟨Yp, h1, h2⟩ := hN b hb
    have h3 := h1.view (d.ph + 1) d.nu
    rw [Mat.viewF_bump2, su b hb] at h3
    rw [su b hb] at h2
    rw [hXv] at h2
    exact ⟨_, h3, h2⟩
  · rw [hXv]
    exact ⟨_, hU''.view _ _, rfl⟩

end Objective

namespace Constraints

theorem computeIneqJacobianR_post (he : R.eps ≤ 1 / 8) (f : IConFn d K)
    (F : Traj (d.ph + 1) d.nx K → Traj (d.ph + 1) d.ny K → Traj (d.ph + 1) d.nu K → K → FVec d.ineq K)
    (hF : NlSpec.FillsI f F) (M : NlModel d K) (junk : Nat → K) (X U : Mat K) (e : K) (hp : d.ph < 2 ^ 31)
    (hp0 : 0 < d.ph) (hX : X.Is (d.ph + 1) d.nx) (hU : U.Is (d.ph + 1) d.nu) :
    Post (computeIneqJacobianR R.rnd f M junk X U e)
      (fun r => r.1.Is d.ineq (d.ph * d.nx) ∧ r.2.1.Is d.ineq (d.ph * d.nu) ∧ r.2.2.size = d.ineq ∧
        NlSpec.ConDiffR R d d.ineq (NlSpec.ineqOf F M.outUser) (X.viewF (d.ph + 1) d.nx) (U.viewF (d.ph + 1) d.nu) e
          (fun _ a => stepR R dv (NlSpec.linear (X.viewF (d.ph + 1) d.nx) a))
          (fun _ b => stepR R dv (NlSpec.linear (U.viewF (d.ph + 1) d.nu) b)) (slackR R dv e) false
          (NlSpec.driftX R (X.viewF (d.ph + 1) d.nx) fun _ a => stepR R dv (NlSpec.linear (X.viewF (d.ph + 1) d.nx) a))
          (NlSpec.driftU R (U.viewF (d.ph + 1) d.nu) fun _ b => stepR R dv (NlSpec.linear (U.viewF (d.ph + 1) d.nu) b))
          (fun c k a => r.1.get c (k * d.nx + a)) (fun c k b => r.2.1.get c (k * d.nu + b)) r.2.2.get) := by
  unfold computeIneqJacobianR
  dsimp only
  generalize hρx : (NlSpec.driftX R (X.viewF (d.ph + 1) d.nx) fun _ a => stepR R dv (NlSpec.linear (X.viewF (d.ph + 1) d.nx) a)) = ρx
  generalize hρu : (NlSpec.driftU R (U.viewF (d.ph + 1) d.nu) fun _ b => stepR R dv (NlSpec.linear (U.viewF (d.ph + 1) d.nu) b)) = ρu
  have nx : ∀ k l, 0 ≤ ρx k l := by rw [← hρx]; exact driftX_nonneg _ fun _ _ => stepR_pos he dv_pos _
  have nu : ∀ k l, 0 ≤ ρu k l := by rw [← hρu]; exact driftU_nonneg _ fun _ _ => stepR_pos he dv_pos _
  have sx : ∀ j, j < d.nx → R.rnd (R.rnd dv * X.absMax1.dataVec.get j)
      = stepR R dv (NlSpec.linear (X.viewF (d.ph + 1) d.nx) j) := fun j hj => by
    rw [Mat.step_data_eq _ hX.1 hj]; rfl
  have su : ∀ j, j < d.nu → R.rnd (R.rnd dv * U.absMax1.dataVec.get j)
      = stepR R dv (NlSpec.linear (U.viewF (d.ph + 1) d.nu) j) := fun j hj => by
    rw [Mat.step_data_eq _ hU.1 hj]; rfl
  refine Post.bind (central_loopR R he (fun Y => callIneq f M (fun i => junk i) Y U e)
    (fun Y => Vec.ofF (NlSpec.ineqOf F M.outUser (Y.viewF (d.ph + 1) d.nx) (U.viewF (d.ph + 1) d.nu) e))
    d.ineq d.ph d.nx 1 X X (Mat.const d.ineq (d.ph * d.nx) 0) (fun _ j => X.absMax1.dataVec.at? j)
    (fun _ j => X.absMax1.dataVec.get j) ρx (Mat.Near.refl nx X) (fun _ _ _ _ => rfl)
    (by rw [hX.1]) hX.2 rfl (by exact Nat.le_refl _)
    (fun i j _ hj => Mat.absMax1_data_ok hX.1 hX.2 hj)
    (fun i j _ hj => by rw [sx j hj]; exact stepR_pos he dv_pos _)
    (fun i j hi hj => by
      rw [sx j hj, ← hρx]
      unfold NlSpec.driftX
      rw [if_neg (by omega), Mat.entry_eq X (by omega) hj])
    (fun Y h1 h2 => ⟨callIneq_ok f F hF M _ Y U e hp ⟨h1.trans hX.1, h2.trans hX.2⟩ hU, rfl⟩)) ?_
  rintro ⟨X', Jx⟩ ⟨hX', hX0, hJr, hJc, hJ, -, hXb⟩
  dsimp only at hX' hX0 hJr hJc hJ hXb ⊢
  have hXv : X'.viewF (d.ph + 1) d.nx = NlSpec.restoredC R.rnd (X.viewF (d.ph + 1) d.nx)
      (fun _ a => stepR R dv (NlSpec.linear (X.viewF (d.ph + 1) d.nx) a)) := by
    funext k a
    show X'.get k a = _
    unfold NlSpec.restoredC
    by_cases hk : (k : Nat) = 0
    · rw [if_pos hk, hX0 _ _ (by omega)]; rfl
    · rw [if_neg hk]
      have := hXb (k - 1) a (by omega) a.2
      rw [sx a a.2, Nat.sub_add_cancel (by omega)] at this
      exact this
  have hXs : X'.Is (d.ph + 1) d.nx := ⟨hX'.rows.trans hX.1, hX'.cols.trans hX.2⟩
  refine Post.bind (central_loopR R he (fun Y => callIneq f M (fun i => junk i) X' Y e)
    (fun Y => Vec.ofF (NlSpec.ineqOf F M.outUser (X'.viewF (d.ph + 1) d.nx) (Y.viewF (d.ph + 1) d.nu) e))
    d.ineq d.ph d.nu 0 U U (Mat.const d.ineq (d.ph * d.nu) 0) (fun _ j => U.absMax1.dataVec.at? j)
    (fun _ j => U.absMax1.dataVec.get j) ρu (Mat.Near.refl nu U) (fun _ _ _ _ => rfl)
    (by rw [hU.1]; omega) hU.2 rfl (by exact Nat.le_refl _)
    (fun i j _ hj => Mat.absMax1_data_ok hU.1 hU.2 hj)
    (fun i j _ hj => by rw [su j hj]; exact stepR_pos he dv_pos _)
    (fun i j hi hj => by
      rw [su j hj, ← hρu]
      unfold NlSpec.driftU
      rw [Mat.entry_eq U (by omega) hj])
    (fun Y h1 h2 => ⟨callIneq_ok f F hF M _ X' Y e hp hXs ⟨h1.trans hU.1, h2.trans hU.2⟩, rfl⟩)) ?_
  rintro ⟨U', Jm⟩ ⟨hU', -, hMr, hMc, hM, -, -⟩
  dsimp only at hU' hMr hMc hM ⊢
  have hUs : U'.Is (d.ph + 1) d.nu := ⟨hU'.rows.trans hU.1, hU'.cols.trans hU.2⟩
  rw [callIneq_ok f F hF M _ X' U' _ hp hXs hUs, ok_bind, callIneq_ok f F hF M _ X' U' _ hp hXs hUs, ok_bind,
    Vec.subDivR_ok (by rfl), ok_bind]
  have hin : ∀ k b : Nat, k < d.ph → b < d.nu → ∃ Up Um,
      NlSpec.Near ρu (NlSpec.bump (U.viewF (d.ph + 1) d.nu) k b (stepR R dv (NlSpec.linear (U.viewF (d.ph + 1) d.nu) b))) Up ∧
      NlSpec.Near ρu (NlSpec.bump (U.viewF (d.ph + 1) d.nu) k b (-stepR R dv (NlSpec.linear (U.viewF (d.ph + 1) d.nu) b))) Um ∧
      NlSpec.AgreeBut (fun k' b' => k' = k ∧ b' = b) Up Um ∧
      ∀ c : Fin d.ineq, Jm.get c (k * d.nu + b)
        = R.rnd (R.rnd (NlSpec.ineqOf F M.outUser (X'.viewF (d.ph + 1) d.nx) Up e c - NlSpec.ineqOf F M.outUser (X'.viewF (d.ph + 1) d.nx) Um e c)
          / R.rnd (2 * stepR R dv (NlSpec.linear (U.viewF (d.ph + 1) d.nu) b))) := by
    intro k b hk hb
    obtain ⟨Yp, Ym, h1, h2, h0, h3⟩ := hM k b hk hb
    have h4 := h1.view (d.ph + 1) d.nu
    have h5 := h2.view (d.ph + 1) d.nu
    rw [Mat.viewF_bumpM, su b hb] at h4 h5
    refine ⟨_, _, h4, h5, fun k' l' hkl => h0 k' l' hkl, fun c => ?_⟩
    have := h3 c
    rwa [su b hb, Vec.ofF_get, Vec.ofF_get] at this
  rw [hXv] at hin
  refine post_pure ⟨⟨hJr, by rw [hJc]; rfl⟩, ⟨hMr, by rw [hMc]; rfl⟩, rfl, ?_, ?_, ?_, ?_⟩
  · intro k a hk ha
    obtain ⟨Yp, Ym, h1, h2, h0, h3⟩ := hJ k a hk ha
    have h4 := h1.view (d.ph + 1) d.nx
    have h5 := h2.view (d.ph + 1) d.nx
    rw [Mat.viewF_bumpM, sx a ha] at h4 h5
    refine ⟨_, _, h4, h5, fun k' l' hkl => h0 k' l' hkl, fun c => ?_⟩
    have := h3 c
    rwa [sx a ha, Vec.ofF_get, Vec.ofF_get] at this
  · intro k b hk hb
    exact hin k b (by omega) hb
  · intro b hb
    obtain ⟨Up, Um, h2, h3, h5, h4⟩ := hin (d.ph - 1) b (by omega) hb
    exact ⟨Up, Um, by simp only [Bool.false_eq_true, if_false]; exact ⟨h2, h3, h5⟩, h4⟩
  · refine ⟨_, hU'.view _ _, fun c => ?_⟩
    dsimp only
    rw [Vec.ofF_get, Vec.ofF_get, hXv]
    rfl

theorem computeEqJacobianR_post (he : R.eps ≤ 1 / 8) (f : EConFn d K)
    (F : Traj (d.ph + 1) d.nx K → Traj (d.ph + 1) d.nu K → FVec d.eq K)
    (hF : NlSpec.FillsE f F) (junk : Nat → K) (X U : Mat K) (e : K)
    (hp0 : 0 < d.ph) (hX : X.Is (d.ph + 1) d.nx) (hU : U.Is (d.ph + 1) d.nu) :
    Post (computeEqJacobianR R.rnd f junk X U)
      (fun r => r.1.Is d.eq (d.ph * d.nx) ∧ r.2.Is d.eq (d.ph * d.nu) ∧
        NlSpec.ConDiffR R d d.eq (fun X U _ => F X U) (X.viewF (d.ph + 1) d.nx) (U.viewF (d.ph + 1) d.nu) e
          (fun k a => stepR R dv (NlSpec.entry (X.viewF (d.ph + 1) d.nx) (k + 1) a))
          (fun _ b => stepR R dv (NlSpec.entry (U.viewF (d.ph + 1) d.nu) (d.ph - 1) b)) 1 true
          (NlSpec.driftX R (X.viewF (d.ph + 1) d.nx) fun k a => stepR R dv (NlSpec.entry (X.viewF (d.ph + 1) d.nx) (k + 1) a))
          (NlSpec.driftU R (U.viewF (d.ph + 1) d.nu) fun _ b => stepR R dv (NlSpec.entry (U.viewF (d.ph + 1) d.nu) (d.ph - 1) b))
          (fun c k a => r.1.get c (k * d.nx + a)) (fun c k b => r.2.get c (k * d.nu + b)) (fun _ => 0)) := by
  unfold computeEqJacobianR
  dsimp only
  have hend : (d.ph - 1) * d.nu + d.nu ≤ d.ph * d.nu := block_end_le (by omega)
  generalize hρx : (NlSpec.driftX R (X.viewF (d.ph + 1) d.nx) fun k a => stepR R dv (NlSpec.entry (X.viewF (d.ph + 1) d.nx) (k + 1) a)) = ρx
  generalize hρu : (NlSpec.driftU R (U.viewF (d.ph + 1) d.nu) fun _ b => stepR R dv (NlSpec.entry (U.viewF (d.ph + 1) d.nu) (d.ph - 1) b)) = ρu
  have nx : ∀ k l, 0 ≤ ρx k l := by rw [← hρx]; exact driftX_nonneg _ fun _ _ => stepR_pos he dv_pos _
  have nu : ∀ k l, 0 ≤ ρu k l := by rw [← hρu]; exact driftU_nonneg _ fun _ _ => stepR_pos he dv_pos _
  have sx : ∀ i j, i < d.ph → j < d.nx → R.rnd (R.rnd dv * X.absMax1.get (i + 1) j)
      = stepR R dv (NlSpec.entry (X.viewF (d.ph + 1) d.nx) (i + 1) j) := fun i j hi hj => by
    rw [Mat.step_eq _ X (r := d.ph + 1) (c := d.nx) (by omega) hj]; rfl
  have su : ∀ j, j < d.nu → R.rnd (R.rnd dv * U.absMax1.get (d.ph - 1) j)
      = stepR R dv (NlSpec.entry (U.viewF (d.ph + 1) d.nu) (d.ph - 1) j) := fun j hj => by
    rw [Mat.step_eq _ U (r := d.ph + 1) (c := d.nu) (by omega) hj]; rfl
  have du : ∀ k j, k ≤ d.ph → j < d.nu → NlSpec.drift R (U.get k j) (R.rnd (R.rnd dv * U.absMax1.get (d.ph - 1) j)) ≤ ρu k j := by
    intro k j hk hj
    rw [su j hj, ← hρu]
    refine le_of_eq ?_
    unfold NlSpec.driftU
    congr 1
    exact (Mat.entry_eq U (by omega) hj).symm
  refine Post.bind (central_loopR R he (fun Y => callEq f (fun i => junk i) Y U)
    (fun Y => Vec.ofF (F (Y.viewF (d.ph + 1) d.nx) (U.viewF (d.ph + 1) d.nu)))
    d.eq d.ph d.nx 1 X X (Mat.const d.eq (d.ph * d.nx) 0) (fun i j => X.absMax1.at? (i + 1) j)
    (fun i j => X.absMax1.get (i + 1) j) ρx (Mat.Near.refl nx X) (fun _ _ _ _ => rfl)
    (by rw [hX.1]) hX.2 rfl (by exact Nat.le_refl _)
    (fun i j hi hj => Mat.at_ok (by simp only [Mat.absMax1]; rw [hX.1]; omega)
      (by simp only [Mat.absMax1]; rw [hX.2]; omega))
    (fun i j hi hj => by rw [sx i j hi hj]; exact stepR_pos he dv_pos _)
    (fun i j hi hj => by
      rw [sx i j hi hj, ← hρx]
      unfold NlSpec.driftX
      rw [if_neg (by omega), Nat.add_sub_cancel]
      refine le_of_eq ?_
      congr 1
      exact (Mat.entry_eq X (by omega) hj).symm)
    (fun Y h1 h2 => ⟨callEq_ok f F hF _ Y U ⟨h1.trans hX.1, h2.trans hX.2⟩ hU, rfl⟩)) ?_
  rintro ⟨X', Jx⟩ ⟨hX', hX0, hJr, hJc, hJ, -, hXb⟩
  dsimp only at hX' hX0 hJr hJc hJ hXb ⊢
  have hXv : X'.viewF (d.ph + 1) d.nx = NlSpec.restoredC R.rnd (X.viewF (d.ph + 1) d.nx)
      (fun k a => stepR R dv (NlSpec.entry (X.viewF (d.ph + 1) d.nx) (k + 1) a)) := by
    funext k a
    show X'.get k a = _
    unfold NlSpec.restoredC
    by_cases hk : (k : Nat) = 0
    · rw [if_pos hk, hX0 _ _ (by omega)]; rfl
    · rw [if_neg hk]
      dsimp only
      rw [Nat.sub_add_cancel (by omega)]
      have := hXb (k - 1) a (by omega) a.2
      rw [sx (k - 1) a (by omega) a.2, Nat.sub_add_cancel (by omega)] at this
      exact this
  have hXs : X'.Is (d.ph + 1) d.nx := ⟨hX'.rows.trans hX.1, hX'.cols.trans hX.2⟩
  have hUa : ∀ j, j < d.nu → U.absMax1.at? (d.ph - 1) j = .ok (U.absMax1.get (d.ph - 1) j) := fun j hj =>
    Mat.at_ok (by simp only [Mat.absMax1]; rw [hU.1]; omega) (by simp only [Mat.absMax1]; rw [hU.2]; omega)
  refine Post.bind (central_loopR R he (fun Y => callEq f (fun i => junk i) X' Y)
    (fun Y => Vec.ofF (F (X'.viewF (d.ph + 1) d.nx) (Y.viewF (d.ph + 1) d.nu)))
    d.eq (d.ph - 1) d.nu 0 U U (Mat.const d.eq (d.ph * d.nu) 0) (fun _ j => U.absMax1.at? (d.ph - 1) j)
    (fun _ j => U.absMax1.get (d.ph - 1) j) ρu (Mat.Near.refl nu U) (fun _ _ _ _ => rfl)
    (by rw [hU.1]; omega) hU.2 rfl (by simp only [Mat.const]; omega)
    (fun i j _ hj => hUa j hj)
    (fun i j _ hj => by rw [su j hj]; exact stepR_pos he dv_pos _)
    (fun i j hi hj => du _ _ (by omega) hj)
    (fun Y h1 h2 => ⟨callEq_ok f F hF _ X' Y hXs ⟨h1.trans hU.1, h2.trans hU.2⟩, rfl⟩)) ?_
  rintro ⟨U', Jm⟩ ⟨hU', hUe, hMr, hMc, hM, -, -⟩
  dsimp only at hU' hUe hMr hMc hM ⊢
  refine Post.bind (central_last_loopR R he (fun Y => callEq f (fun i => junk i) X' Y)
    (fun Y => Vec.ofF (F (X'.viewF (d.ph + 1) d.nx) (Y.viewF (d.ph + 1) d.nu)))
    d.eq d.nu (d.ph - 1) d.ph ((d.ph - 1) * d.nu) U U' Jm (fun j => U.absMax1.at? (d.ph - 1) j)
    (fun j => U.absMax1.get (d.ph - 1) j) ρu (by omega) hU' (fun k l hk => hUe k l (by omega))
    (by rw [hU.1]; omega) (by rw [hU.1]; omega) hU.2 hMr
    (by rw [hMc]; simp only [Mat.const]; omega) hUa
    (fun j hj => by rw [su j hj]; exact stepR_pos he dv_pos _)
    (fun j hj => du _ _ (by omega) hj) (fun j hj => du _ _ (by omega) hj)
    (fun Y h1 h2 => ⟨callEq_ok f F hF _ X' Y hXs ⟨h1.trans hU.1, h2.trans hU.2⟩, rfl⟩)) ?_
  rintro ⟨U'', Jm'⟩ ⟨hU'', hNr, hNc, hN, hN2⟩
  dsimp only at hU'' hNr hNc hN hN2 ⊢
  refine post_pure ⟨⟨hJr, by rw [hJc]; rfl⟩, ⟨hNr, by rw [hNc, hMc]; rfl⟩, ?_, ?_, ?_, ?_⟩
  · intro k a hk ha
    obtain ⟨Yp, Ym, h1, h2, h0, h3⟩ := hJ k a hk ha
    have h4 := h1.view (d.ph + 1) d.nx
    have h5 := h2.view (d.ph + 1) d.nx
    rw [Mat.viewF_bumpM, sx k a hk ha] at h4 h5
    refine ⟨_, _, h4, h5, fun k' l' hkl => h0 k' l' hkl, fun c => ?_⟩
    have := h3 c
    rwa [sx k a hk ha, Vec.ofF_get, Vec.ofF_get] at this
  · intro k b hk hb
    obtain ⟨Yp, Ym, h1, h2, h0, h3⟩ := hM k b (by omega) hb
    have h4 := h1.view (d.ph + 1) d.nu
    have h5 := h2.view (d.ph + 1) d.nu
    rw [Mat.viewF_bumpM, su b hb] at h4 h5
    rw [hXv] at h3
    refine ⟨_, _, h4, h5, fun k' l' hkl => h0 k' l' hkl, fun c => ?_⟩
    have := h3 c
    rw [su b hb, Vec.ofF_get, Vec.ofF_get] at this
    have hlt : k * d.nu + b < (d.ph - 1) * d.nu := block_lt hb (by omega)
    exact (hN2 c _ hlt).trans this
  · intro b hb
    obtain ⟨Yp, Ym, h1, h2, h0, h3⟩ := hN b hb
    have h4 := h1.view (d.ph + 1) d.nu
    have h5 := h2.view (d.ph + 1) d.nu
    rw [Mat.viewF_bump2, su b hb] at h4 h5
    rw [hXv] at h3
    refine ⟨_, _, by simp only [if_true]; exact ⟨h4, h5, fun k' l' hkl => h0 k' l' hkl⟩, fun c => ?_⟩
    have := h3 c
    rwa [su b hb, Vec.ofF_get, Vec.ofF_get] at this
  · refine ⟨_, hU''.view _ _, fun c => ?_⟩
    rw [sub_self, R.zero, zero_div, R.zero]

end Constraints
end Mpc
