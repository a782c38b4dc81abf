import Verif.Proofs.NlObjective

/-
Characterisation of the user constraints handed to the solver.
-/
namespace Mpc
open Exec
set_option linter.unusedSectionVars false

variable {d : Dims} {K : Type}

theorem Mat.setBlockRaw_get {α : Type} (m : Mat α) (r0 c0 h w : Nat) (f : Nat → Nat → α) (i j : Nat) :
    (m.setBlockRaw r0 c0 h w f).get i j
      = if (r0 ≤ i ∧ i < r0 + h) ∧ c0 ≤ j ∧ j < c0 + w then f (i - r0) (j - c0) else m.get i j := rfl

namespace Constraints

section
variable [Zero K]

theorem callIneq_ok (f : IConFn d K)
    (F : Traj (d.ph + 1) d.nx K → Traj (d.ph + 1) d.ny K → Traj (d.ph + 1) d.nu K → K → FVec d.ineq K)
    (hF : NlSpec.FillsI f F) (M : NlModel d K) (buf : FVec d.ineq K) (X U : Mat K) (e : K) (hp : d.ph < 2 ^ 31)
    (hX : X.Is (d.ph + 1) d.nx) (hU : U.Is (d.ph + 1) d.nu) :
    callIneq f M buf X U e = .ok (Vec.ofF
      (NlSpec.ineqOf F M.outUser (X.viewF (d.ph + 1) d.nx) (U.viewF (d.ph + 1) d.nu) e)) := by
  obtain ⟨Y, hY, hYs, hYv⟩ := M.getOutput_ok X U hp hX hU
  unfold callIneq
  rw [hY, ok_bind, Mat.view_ok hX.1 hX.2, ok_bind, Mat.view_ok hYs.1 hYs.2, ok_bind, Mat.view_ok hU.1 hU.2,
    ok_bind, hYv, hF]
  rfl

theorem callEq_ok (f : EConFn d K) (F : Traj (d.ph + 1) d.nx K → Traj (d.ph + 1) d.nu K → FVec d.eq K)
    (hF : NlSpec.FillsE f F) (buf : FVec d.eq K) (X U : Mat K)
    (hX : X.Is (d.ph + 1) d.nx) (hU : U.Is (d.ph + 1) d.nu) :
    callEq f buf X U = .ok (Vec.ofF (F (X.viewF (d.ph + 1) d.nx) (U.viewF (d.ph + 1) d.nu))) := by
  unfold callEq
  rw [Mat.view_ok hX.1 hX.2, ok_bind, Mat.view_ok hU.1 hU.2, ok_bind, hF]
  rfl
end

variable [Field K]

/-- what `glueJacobian` assembles -/
structure Glued (mp : Mapping K) (n : Nat) (Jstate Jman : Mat K) (Jcon : Vec K) (G : Mat K) : Prop where
  is : G.Is mp.dims.nZ n
  states : ∀ c k a, c < n → k < mp.dims.ph → a < mp.dims.nx →
    G.get (NlSpec.stateIx mp.dims k a) c = Jstate.get c (k * mp.dims.nx + a)
  inputs : ∀ c j b, c < n → j < mp.dims.ch → b < mp.dims.nu →
    G.get (NlSpec.inputIx mp.dims j b) c = mp.inputScaling.get b * ∑ k ∈ Finset.range mp.dims.ph,
      if min k (mp.dims.ch - 1) = j then Jman.get c (k * mp.dims.nu + b) else 0
  slack : ∀ c, c < n → G.get (NlSpec.slackIx mp.dims) c = Jcon.get c

theorem glueJacobian_post (mp : Mapping K) (hm : mp.Good) (hd : mp.dims = d) (junk : Nat → K) (n : Nat)
    (Jres Jstate Jman : Mat K) (Jcon : Vec K) (h1 : Jres.Is d.nZ n) (h2 : Jstate.Is n (d.ph * d.nx))
    (h3 : Jman.Is n (d.ph * d.nu)) (h4 : Jcon.size = n) :
    Post (glueJacobian d mp junk Jres Jstate Jman Jcon) (Glued mp n Jstate Jman Jcon) := by
  subst hd
  have hch := hm.ch_pos
  have hle := hm.ch_le
  unfold glueJacobian
  refine Post.bind (Q := fun G : Mat K => G.Is mp.dims.nZ n ∧ ∀ c k a, c < n → k < mp.dims.ph → a < mp.dims.nx →
    G.get (k * mp.dims.nx + a) c = Jstate.get c (k * mp.dims.nx + a)) ?_ ?_
  · refine (forRange_post _ _ _ (fun i (G : Mat K) => G.Is mp.dims.nZ n ∧
      ∀ c k a, c < n → k < i → a < mp.dims.nx →
        G.get (k * mp.dims.nx + a) c = Jstate.get c (k * mp.dims.nx + a)) ⟨h1, fun _ _ _ _ h => by omega⟩ ?_)
    rintro i G hi ⟨⟨g1, g2⟩, g3⟩
    have hend : i * mp.dims.nx + mp.dims.nx ≤ mp.dims.ph * mp.dims.nx := block_end_le hi
    rw [Mat.block_ok (by omega) (by rw [h2.2]; omega), ok_bind,
      Mat.setBlock_ok (m := G) (r0 := i * mp.dims.nx) (c0 := 0) (by rw [g1]; unfold Dims.nZ; omega) (by omega) (by rfl)
        (by simp only [Mat.transpose]; rw [h2.1, g2])]
    refine post_ok ⟨⟨g1, g2⟩, ?_⟩
    intro c k a hc hk ha
    simp only [Mat.setBlockRaw, block_mem_iff ha, Mat.transpose]
    by_cases he : k = i
    · subst he
      rw [if_pos ⟨rfl, by omega⟩]
      simp
    · rw [if_neg (fun h => he h.1)]
      exact g3 c k a hc (by omega) ha
  · rintro G ⟨⟨g1, g2⟩, g3⟩
    refine Post.bind (Q := fun Jm : Mat K => Jm.Is n (mp.dims.ph * mp.dims.nu) ∧
      ∀ c k b, c < n → k < mp.dims.ph → b < mp.dims.nu →
        Jm.get c (k * mp.dims.nu + b) = Jman.get c (k * mp.dims.nu + b)) ?_ ?_
    · refine (forRange_post _ _ _ (fun i (Jm : Mat K) => Jm.Is n (mp.dims.ph * mp.dims.nu) ∧
        ∀ c k b, c < n → k < i → b < mp.dims.nu →
          Jm.get c (k * mp.dims.nu + b) = Jman.get c (k * mp.dims.nu + b))
        ⟨⟨g2, rfl⟩, fun _ _ _ _ h => by omega⟩ ?_)
      rintro i Jm hi ⟨⟨k1, k2⟩, k3⟩
      have hend : i * mp.dims.nu + mp.dims.nu ≤ mp.dims.ph * mp.dims.nu := block_end_le hi
      rw [Mat.block_ok (by omega) (by rw [h3.2]; omega), ok_bind,
        Mat.setBlock_ok (by rw [k1, g2]; omega) (by rw [k2]; omega) (by dsimp only; rw [h3.1, g2]) (by rfl)]
      refine post_ok ⟨⟨k1, k2⟩, ?_⟩
      intro c k b hc hk hb
      simp only [Mat.setBlockRaw, block_mem_iff hb]
      by_cases he : k = i
      · subst he
        rw [if_pos ⟨by omega, rfl⟩]
        simp
      · rw [if_neg (fun h => he h.2)]
        exact k3 c k b hc (by omega) hb
    · rintro Jm ⟨⟨k1, k2⟩, k3⟩
      rw [Mat.mul_ok (by rw [k2, hm.iz_rows]), ok_bind]
      rw [Mat.setBlock_ok (by rw [g1]; unfold Dims.nZ; omega) (by omega)
        (by simp only [Mat.transpose]; exact hm.iz_cols) (by simp only [Mat.transpose]; rw [k1, g2]), ok_bind]
      have hr : (G.setBlockRaw (mp.dims.ph * mp.dims.nx) 0 (mp.dims.nu * mp.dims.ch) G.cols
          (Mat.transpose ⟨Jm.rows, mp.Iz2u.cols,
            fun i j => sumTo Jm.cols fun k => Jm.get i k * mp.Iz2u.get k j⟩).get).rows = mp.dims.nZ := g1
      rw [require_ok (by rw [hr]; unfold Dims.nZ; omega), ok_bind,
        Mat.setBlock_ok (by rw [hr]; unfold Dims.nZ; omega) (by simp [Mat.setBlockRaw])
          (by rfl) (by simp only [Vec.asRow, Mat.setBlockRaw]; rw [h4, g2])]
      rw [hr]
      have e1 : mp.dims.ch * mp.dims.nu = mp.dims.nu * mp.dims.ch := Nat.mul_comm _ _
      refine post_ok ⟨⟨g1, g2⟩, ?_, ?_, ?_⟩
      · intro c k a hc hk ha
        have hlt := block_lt ha hk
        unfold NlSpec.stateIx
        rw [Mat.setBlockRaw_get, if_neg (by unfold Dims.nZ; omega), Mat.setBlockRaw_get, if_neg (by omega)]
        exact g3 c k a hc hk ha
      · intro c j b hc hj hb
        have hlt := block_lt hb hj
        unfold NlSpec.inputIx
        rw [Mat.setBlockRaw_get, if_neg (by unfold Dims.nZ; omega), Mat.setBlockRaw_get, if_pos (by omega)]
        simp only [Mat.transpose]
        have e2 : mp.dims.ph * mp.dims.nx + (j * mp.dims.nu + b) - mp.dims.ph * mp.dims.nx = j * mp.dims.nu + b := by
          omega
        rw [e2, Nat.sub_zero, k2, ← hm.iz_rows]
        have := hm.gather (fun q => Jm.get c q) hj hb
        rw [show (fun k => Jm.get c k * mp.Iz2u.get k (j * mp.dims.nu + b))
          = fun k => mp.Iz2u.get k (j * mp.dims.nu + b) * Jm.get c k from funext fun k => mul_comm _ _, this]
        congr 1
        refine Finset.sum_congr rfl fun k hk => ?_
        rw [k3 c k b hc (Finset.mem_range.1 hk) hb]
      · intro c hc
        unfold NlSpec.slackIx
        rw [Mat.setBlockRaw_get, if_pos (by simp only [Mat.setBlockRaw]; unfold Dims.nZ; omega), Nat.sub_zero]
        rfl

/-- what the scaling loops leave -/
structure Scaled (mp : Mapping K) (n : Nat) (G G' : Mat K) : Prop where
  is : G'.Is mp.dims.nZ n
  states : ∀ c k a, c < n → k < mp.dims.ph → a < mp.dims.nx →
    G'.get (NlSpec.stateIx mp.dims k a) c = G.get (NlSpec.stateIx mp.dims k a) c * mp.stateScaling.get a
  rest : ∀ c l, c < n → mp.dims.ph * mp.dims.nx ≤ l → G'.get l c = G.get l c

theorem scaleStateRows_post (mp : Mapping K) (hm : mp.Good) (hd : mp.dims = d) (n : Nat) (G : Mat K)
    (hG : G.Is d.nZ n) : Post (scaleStateRows d mp G) (Scaled mp n G) := by
  subst hd
  unfold scaleStateRows
  rw [hG.2]
  refine (forRange_post n G _ (fun j (G' : Mat K) => G'.Is mp.dims.nZ n ∧
    (∀ c k a, c < j → k < mp.dims.ph → a < mp.dims.nx →
      G'.get (k * mp.dims.nx + a) c = G.get (k * mp.dims.nx + a) c * mp.stateScaling.get a) ∧
    (∀ c l, mp.dims.ph * mp.dims.nx ≤ l → G'.get l c = G.get l c) ∧
    (∀ c l, j ≤ c → G'.get l c = G.get l c)) ⟨hG, fun _ _ _ h => by omega, fun _ _ _ => rfl, fun _ _ _ => rfl⟩
    ?_).mono ?_
  · rintro j G1 hj ⟨⟨q1, q2⟩, q3, q4, q5⟩
    refine Post.bind (Q := fun s : Nat × Mat K => s.2.Is mp.dims.nZ n ∧
      (∀ k a, k < mp.dims.ph → a < mp.dims.nx →
        s.2.get (k * mp.dims.nx + a) j = G.get (k * mp.dims.nx + a) j * mp.stateScaling.get a) ∧
      (∀ l, mp.dims.ph * mp.dims.nx ≤ l → s.2.get l j = G.get l j) ∧
      (∀ c l, c ≠ j → s.2.get l c = G1.get l c)) ?_ ?_
    · refine (forRange_post mp.dims.ph ((0 : Nat), G1) _ (fun i (s : Nat × Mat K) => s.1 = i * mp.dims.nx ∧
        s.2.Is mp.dims.nZ n ∧
        (∀ k a, k < i → a < mp.dims.nx →
          s.2.get (k * mp.dims.nx + a) j = G.get (k * mp.dims.nx + a) j * mp.stateScaling.get a) ∧
        (∀ l, i * mp.dims.nx ≤ l → s.2.get l j = G.get l j) ∧
        (∀ c l, c ≠ j → s.2.get l c = G1.get l c)) ?_ ?_).mono ?_
      · exact ⟨by simp, ⟨q1, q2⟩, fun _ _ h => by omega, fun l _ => q5 j l (Nat.le_refl _), fun _ _ _ => rfl⟩
      · rintro i ⟨c0, G2⟩ hi ⟨rfl, ⟨r1, r2⟩, r3, r4, r5⟩
        dsimp only at r1 r2 r3 r4 r5 ⊢
        have hend : i * mp.dims.nx + mp.dims.nx ≤ mp.dims.ph * mp.dims.nx := block_end_le hi
        refine Post.bind (Q := fun G3 : Mat K => G3.Is mp.dims.nZ n ∧
          (∀ k a, k < i + 1 → a < mp.dims.nx →
            G3.get (k * mp.dims.nx + a) j = G.get (k * mp.dims.nx + a) j * mp.stateScaling.get a) ∧
          (∀ l, (i + 1) * mp.dims.nx ≤ l → G3.get l j = G.get l j) ∧
          (∀ c l, c ≠ j → G3.get l c = G1.get l c)) ?_ ?_
        · refine (forRange_post mp.dims.nx G2 _ (fun ix (G3 : Mat K) => G3.Is mp.dims.nZ n ∧
            (∀ k a, (k < i ∨ (k = i ∧ a < ix)) → a < mp.dims.nx →
              G3.get (k * mp.dims.nx + a) j = G.get (k * mp.dims.nx + a) j * mp.stateScaling.get a) ∧
            (∀ l, i * mp.dims.nx + ix ≤ l → G3.get l j = G.get l j) ∧
            (∀ c l, c ≠ j → G3.get l c = G1.get l c)) ?_ ?_).mono ?_
          · exact ⟨⟨r1, r2⟩, fun k a h ha => r3 k a (by omega) ha, fun l hl => r4 l (by omega), r5⟩
          · rintro ix G3 hix ⟨⟨s1, s2⟩, s3, s4, s5⟩
            have hst := hm.stsz
            have hb : i * mp.dims.nx + ix < G3.rows := by rw [s1]; unfold Dims.nZ; omega
            rw [Vec.at_ok (by omega), ok_bind, Mat.at_ok hb (by omega), ok_bind, Mat.set_ok hb (by omega)]
            refine post_ok ⟨⟨s1, s2⟩, ?_, ?_, ?_⟩
            · intro k a h ha
              simp only [Mat.setRaw]
              by_cases he : k = i ∧ a = ix
              · obtain ⟨rfl, rfl⟩ := he
                simp only [and_self, if_true]
                rw [s4 _ (Nat.le_refl _)]
              · rw [if_neg (by rw [block_eq_iff ha hix]; exact fun h => he h.1)]
                exact s3 k a (by omega) ha
            · intro l hl
              simp only [Mat.setRaw]
              rw [if_neg (by omega)]; exact s4 l (by omega)
            · intro c l hc
              simp only [Mat.setRaw]
              rw [if_neg (fun h => hc h.2)]; exact s5 c l hc
          · rintro G3 ⟨s1, s3, s4, s5⟩
            exact ⟨s1, fun k a h ha => s3 k a (by omega) ha, fun l hl => s4 l (by rw [Nat.add_mul] at hl; omega), s5⟩
        · rintro G3 ⟨s1, s3, s4, s5⟩
          exact post_pure ⟨by dsimp only; ring, s1, s3, s4, s5⟩
      · rintro ⟨c0, G2⟩ ⟨-, r1, r3, r4, r5⟩
        exact ⟨r1, r3, r4, r5⟩
    · rintro ⟨c0, G2⟩ ⟨r1, r3, r4, r5⟩
      dsimp only at r1 r3 r4 r5 ⊢
      refine post_pure ⟨r1, ?_, ?_, ?_⟩
      · intro c k a hc hk ha
        by_cases he : c = j
        · subst he; exact r3 k a hk ha
        · rw [r5 c _ he]; exact q3 c k a (by omega) hk ha
      · intro c l hl
        by_cases he : c = j
        · subst he; exact r4 l hl
        · rw [r5 c _ he]; exact q4 c l hl
      · intro c l hc
        rw [r5 c l (by omega)]; exact q5 c l (by omega)
  · rintro G' ⟨h1, h2, h3, -⟩
    exact ⟨h1, h2, fun c l _ hl => h3 c l hl⟩

variable [LinearOrder K] [IsStrictOrderedRing K]

/-- step of component `j` of a sequence in the Jacobian of the inequality constraints (Constraints.hpp:662, 689) -/
def stepLin {r c : Nat} (X : Traj r c K) (_k j : Nat) : K := NlSpec.stepOf dv (NlSpec.linear X j)

/-- step of the slack (Constraints.hpp:709-710) -/
def stepSlack (e : K) : K := max dv |e| * dv

/-- step of a state in the Jacobian of the equality constraints (Constraints.hpp:751) -/
def stepState {r c : Nat} (X : Traj r c K) (k j : Nat) : K := NlSpec.stepOf dv (NlSpec.entry X (k + 1) j)

/-- step of an input in the Jacobian of the equality constraints (Constraints.hpp:781, 807) -/
def stepInput {r c : Nat} (p : Nat) (U : Traj r c K) (_k j : Nat) : K := NlSpec.stepOf dv (NlSpec.entry U p j)

theorem computeIneqJacobian_post (f : IConFn d K)
    (F : Traj (d.ph + 1) d.nx K → Traj (d.ph + 1) d.ny K → Traj (d.ph + 1) d.nu K → K → FVec d.ineq K)
    (hF : NlSpec.FillsI f F) (M : NlModel d K) (junk : Nat → K) (X U : Mat K) (e : K) (hp : d.ph < 2 ^ 31)
    (hp0 : 0 < d.ph) (hX : X.Is (d.ph + 1) d.nx) (hU : U.Is (d.ph + 1) d.nu) :
    Post (computeIneqJacobian f M junk X U e)
      (fun r => r.1.Is d.ineq (d.ph * d.nx) ∧ r.2.1.Is d.ineq (d.ph * d.nu) ∧ r.2.2.size = d.ineq ∧
        NlSpec.ConDiff d d.ineq (NlSpec.ineqOf F M.outUser) (X.viewF (d.ph + 1) d.nx) (U.viewF (d.ph + 1) d.nu) e
          (stepLin (X.viewF (d.ph + 1) d.nx)) (stepLin (U.viewF (d.ph + 1) d.nu)) (stepSlack e) false
          (fun c k a => r.1.get c (k * d.nx + a)) (fun c k b => r.2.1.get c (k * d.nu + b)) r.2.2.get) := by
  unfold computeIneqJacobian
  dsimp only
  refine Post.bind (central_loop (fun Y => callIneq f M (fun i => junk i) Y U e)
    (fun Y => Vec.ofF (NlSpec.ineqOf F M.outUser (Y.viewF (d.ph + 1) d.nx) (U.viewF (d.ph + 1) d.nu) e))
    d.ineq d.ph d.nx 1 X (Mat.const d.ineq (d.ph * d.nx) 0) (fun _ j => X.absMax1.dataVec.at? j)
    (fun _ j => X.absMax1.dataVec.get j) (by rw [hX.1]) hX.2 rfl (by exact Nat.le_refl _)
    (fun i j _ hj => Mat.absMax1_data_ok hX.1 hX.2 hj)
    (fun Y h1 h2 => ⟨callIneq_ok f F hF M _ Y U e hp ⟨h1.trans hX.1, h2.trans hX.2⟩ hU, rfl⟩)) ?_
  rintro ⟨X', Jx⟩ ⟨hX', hJr, hJc, hJ, -⟩
  dsimp only at hX' hJr hJc hJ ⊢
  subst hX'
  refine Post.bind (central_loop (fun Y => callIneq f M (fun i => junk i) X' Y e)
    (fun Y => Vec.ofF (NlSpec.ineqOf F M.outUser (X'.viewF (d.ph + 1) d.nx) (Y.viewF (d.ph + 1) d.nu) e))
    d.ineq d.ph d.nu 0 U (Mat.const d.ineq (d.ph * d.nu) 0) (fun _ j => U.absMax1.dataVec.at? j)
    (fun _ j => U.absMax1.dataVec.get j) (by rw [hU.1]; omega) hU.2 rfl (by exact Nat.le_refl _)
    (fun i j _ hj => Mat.absMax1_data_ok hU.1 hU.2 hj)
    (fun Y h1 h2 => ⟨callIneq_ok f F hF M _ X' Y e hp hX ⟨h1.trans hU.1, h2.trans hU.2⟩, rfl⟩)) ?_
  rintro ⟨U', Jm⟩ ⟨hU', hMr, hMc, hM, -⟩
  dsimp only at hU' hMr hMc hM ⊢
  subst hU'
  rw [callIneq_ok f F hF M _ X' U' _ hp hX hU, ok_bind, callIneq_ok f F hF M _ X' U' _ hp hX hU, ok_bind]
  unfold Vec.subDiv
  rw [require_ok (by simp), ok_bind]
  simp only [pure_bind']
  have hde : 0 < max dv |e| * (dv : K) := mul_pos (lt_of_lt_of_le dv_pos (le_max_left _ _)) dv_pos
  refine post_pure ⟨⟨hJr, by rw [hJc]; rfl⟩, ⟨hMr, by rw [hMc]; rfl⟩, by simp,
    fun _ _ => NlSpec.stepOf_pos dv_pos _, ?_, fun _ _ => NlSpec.stepOf_pos dv_pos _, ?_, ?_, hde, ?_⟩
  · intro c k a hk ha
    dsimp only
    rw [hJ k a c hk ha, Mat.viewF_bumpM, Mat.viewF_bumpM, Vec.ofF_get, Vec.ofF_get, Mat.step_data_eq _ hX.1 ha]
    rfl
  · intro c k b hk hb
    dsimp only
    rw [hM k b c (by omega) hb, Mat.viewF_bumpM, Mat.viewF_bumpM, Vec.ofF_get, Vec.ofF_get, Mat.step_data_eq _ hU.1 hb]
    rfl
  · intro c b hb
    simp only [Bool.false_eq_true, if_false]
    rw [hM (d.ph - 1) b c (by omega) hb, Mat.viewF_bumpM, Mat.viewF_bumpM, Vec.ofF_get, Vec.ofF_get,
      Mat.step_data_eq _ hU.1 hb]
    rfl
  · intro c
    dsimp only
    rw [Vec.ofF_get, Vec.ofF_get]
    rfl

theorem computeEqJacobian_post (f : EConFn d K)
    (F : Traj (d.ph + 1) d.nx K → Traj (d.ph + 1) d.nu K → FVec d.eq K)
    (hF : NlSpec.FillsE f F) (junk : Nat → K) (X U : Mat K) (e : K)
    (hp0 : 0 < d.ph) (hX : X.Is (d.ph + 1) d.nx) (hU : U.Is (d.ph + 1) d.nu) :
    Post (computeEqJacobian f junk X U)
      (fun r => r.1.Is d.eq (d.ph * d.nx) ∧ r.2.Is d.eq (d.ph * d.nu) ∧
        NlSpec.ConDiff d d.eq (fun X U _ => F X U) (X.viewF (d.ph + 1) d.nx) (U.viewF (d.ph + 1) d.nu) e
          (stepState (X.viewF (d.ph + 1) d.nx)) (stepInput (d.ph - 1) (U.viewF (d.ph + 1) d.nu)) 1 true
          (fun c k a => r.1.get c (k * d.nx + a)) (fun c k b => r.2.get c (k * d.nu + b)) (fun _ => 0)) := by
  unfold computeEqJacobian
  dsimp only
  have hend : (d.ph - 1) * d.nu + d.nu ≤ d.ph * d.nu := block_end_le (by omega)
  refine Post.bind (central_loop (fun Y => callEq f (fun i => junk i) Y U)
    (fun Y => Vec.ofF (F (Y.viewF (d.ph + 1) d.nx) (U.viewF (d.ph + 1) d.nu)))
    d.eq d.ph d.nx 1 X (Mat.const d.eq (d.ph * d.nx) 0) (fun i j => X.absMax1.at? (i + 1) j)
    (fun i j => X.absMax1.get (i + 1) j) (by rw [hX.1]) hX.2 rfl (by exact Nat.le_refl _)
    (fun i j hi hj => Mat.at_ok (by simp only [Mat.absMax1]; rw [hX.1]; omega)
      (by simp only [Mat.absMax1]; rw [hX.2]; omega))
    (fun Y h1 h2 => ⟨callEq_ok f F hF _ Y U ⟨h1.trans hX.1, h2.trans hX.2⟩ hU, rfl⟩)) ?_
  rintro ⟨X', Jx⟩ ⟨hX', hJr, hJc, hJ, -⟩
  dsimp only at hX' hJr hJc hJ ⊢
  subst hX'
  have hUa : ∀ j, j < d.nu → U.absMax1.at? (d.ph - 1) j = .ok (U.absMax1.get (d.ph - 1) j) := fun j hj =>
    Mat.at_ok (by simp only [Mat.absMax1]; rw [hU.1]; omega) (by simp only [Mat.absMax1]; rw [hU.2]; omega)
  refine Post.bind (central_loop (fun Y => callEq f (fun i => junk i) X' Y)
    (fun Y => Vec.ofF (F (X'.viewF (d.ph + 1) d.nx) (Y.viewF (d.ph + 1) d.nu)))
    d.eq (d.ph - 1) d.nu 0 U (Mat.const d.eq (d.ph * d.nu) 0) (fun _ j => U.absMax1.at? (d.ph - 1) j)
    (fun _ j => U.absMax1.get (d.ph - 1) j) (by rw [hU.1]; omega) hU.2 rfl (by simp only [Mat.const]; omega)
    (fun i j _ hj => hUa j hj)
    (fun Y h1 h2 => ⟨callEq_ok f F hF _ X' Y hX ⟨h1.trans hU.1, h2.trans hU.2⟩, rfl⟩)) ?_
  rintro ⟨U', Jm⟩ ⟨hU', hMr, hMc, hM, -⟩
  dsimp only at hU' hMr hMc hM ⊢
  subst hU'
  refine Post.bind (central_last_loop (fun Y => callEq f (fun i => junk i) X' Y)
    (fun Y => Vec.ofF (F (X'.viewF (d.ph + 1) d.nx) (Y.viewF (d.ph + 1) d.nu)))
    d.eq d.nu (d.ph - 1) d.ph ((d.ph - 1) * d.nu) U' Jm (fun j => U'.absMax1.at? (d.ph - 1) j)
    (fun j => U'.absMax1.get (d.ph - 1) j) (by omega) (by rw [hU.1]; omega) (by rw [hU.1]; omega) hU.2 hMr
    (by rw [hMc]; simp only [Mat.const]; omega) hUa
    (fun Y h1 h2 => ⟨callEq_ok f F hF _ X' Y hX ⟨h1.trans hU.1, h2.trans hU.2⟩, rfl⟩)) ?_
  rintro ⟨U'', Jm'⟩ ⟨hU'', hNr, hNc, hN, hN2⟩
  dsimp only at hU'' hNr hNc hN hN2 ⊢
  subst hU''
  refine post_pure ⟨⟨hJr, by rw [hJc]; rfl⟩, ⟨hNr, by rw [hNc, hMc]; rfl⟩,
    fun _ _ => NlSpec.stepOf_pos dv_pos _, ?_, fun _ _ => NlSpec.stepOf_pos dv_pos _, ?_, ?_, one_pos,
    fun c => by simp⟩
  · intro c k a hk ha
    dsimp only
    rw [hJ k a c hk ha, Mat.viewF_bumpM, Mat.viewF_bumpM, Vec.ofF_get, Vec.ofF_get,
      Mat.step_eq dv X' (r := d.ph + 1) (c := d.nx) (by omega) ha]
    rfl
  · intro c k b hk hb
    have hlt : k * d.nu + b < (d.ph - 1) * d.nu := block_lt hb (by omega)
    dsimp only
    rw [hN2 c _ hlt, hM k b c (by omega) hb, Mat.viewF_bumpM, Mat.viewF_bumpM, Vec.ofF_get, Vec.ofF_get,
      Mat.step_eq dv U'' (r := d.ph + 1) (c := d.nu) (by omega) hb]
    rfl
  · intro c b hb
    simp only [if_true]
    rw [hN b c hb, Mat.viewF_bump2, Mat.viewF_bump2, Vec.ofF_get, Vec.ofF_get,
      Mat.step_eq dv U'' (r := d.ph + 1) (c := d.nu) (by omega) hb]
    rfl

/-- sizes of the members -/
structure Sized (o : Constraints d K) : Prop where
  x0 : o.x0.size = d.nx
  X : o.Xmat.Is (d.ph + 1) d.nx
  U : o.Umat.Is (d.ph + 1) d.nu
  ceq : o.ceq.size = d.ph * d.nx
  Jceq : o.Jceq.Is d.nZ (d.ph * d.nx)
  ci : o.cineqUser.size = d.ineq
  Ji : o.JcineqUser.Is d.nZ d.ineq
  ce : o.ceqUser.size = d.eq
  Je : o.JceqUser.Is d.nZ d.eq

/-- layout of the gradient of `n` constraints handed to the solver: constraint by constraint, each with all
decision variables; the state part is multiplied by the state scaling -/
structure ConGradOf (mp : Mapping K) (n : Nat) (gx gu : Nat → Nat → Nat → K) (ge : Nat → K) (g : Vec K) : Prop where
  size : g.size = mp.dims.nZ * n
  states : ∀ c k a, c < n → k < mp.dims.ph → a < mp.dims.nx →
    g.get (c * mp.dims.nZ + NlSpec.stateIx mp.dims k a) = gx c k a * mp.stateScaling.get a
  inputs : ∀ c j b, c < n → j < mp.dims.ch → b < mp.dims.nu → g.get (c * mp.dims.nZ + NlSpec.inputIx mp.dims j b)
    = mp.inputScaling.get b * ∑ k ∈ Finset.range mp.dims.ph, if min k (mp.dims.ch - 1) = j then gu c k b else 0
  slack : ∀ c, c < n → g.get (c * mp.dims.nZ + NlSpec.slackIx mp.dims) = ge c

theorem stateIx_lt (d : Dims) {k a : Nat} (hk : k < d.ph) (ha : a < d.nx) : NlSpec.stateIx d k a < d.nZ := by
  have := block_lt ha hk
  unfold NlSpec.stateIx Dims.nZ; omega

theorem inputIx_lt (d : Dims) {j b : Nat} (hj : j < d.ch) (hb : b < d.nu) : NlSpec.inputIx d j b < d.nZ := by
  have := block_lt hb hj
  have e1 : d.ch * d.nu = d.nu * d.ch := Nat.mul_comm _ _
  unfold NlSpec.inputIx Dims.nZ; omega

theorem slackIx_lt (d : Dims) : NlSpec.slackIx d < d.nZ := by
  have e1 : d.ch * d.nu = d.nu * d.ch := Nat.mul_comm _ _
  unfold NlSpec.slackIx Dims.nZ; omega

theorem dataVec_get {G : Mat K} {N n : Nat} (h : G.Is N n) {c l : Nat} (hl : l < N) :
    G.dataVec.get (c * N + l) = G.get l c := by
  simp only [Mat.dataVec]
  rw [h.1, block_mod c hl, block_div c hl]

theorem conGrad_of (mp : Mapping K) (n : Nat) (Jx Jm : Mat K) (Jc : Vec K) (G G' : Mat K)
    (hG : Glued mp n Jx Jm Jc G) (hG' : Scaled mp n G G') :
    ConGradOf mp n (fun c k a => Jx.get c (k * mp.dims.nx + a)) (fun c k b => Jm.get c (k * mp.dims.nu + b))
      Jc.get G'.dataVec := by
  refine ⟨?_, ?_, ?_, ?_⟩
  · simp only [Mat.dataVec]; rw [hG'.is.1, hG'.is.2]
  · intro c k a hc hk ha
    rw [dataVec_get hG'.is (stateIx_lt _ hk ha), hG'.states c k a hc hk ha, hG.states c k a hc hk ha]
  · intro c j b hc hj hb
    rw [dataVec_get hG'.is (inputIx_lt _ hj hb), hG'.rest c _ hc (by unfold NlSpec.inputIx; omega),
      hG.inputs c j b hc hj hb]
  · intro c hc
    rw [dataVec_get hG'.is (slackIx_lt _), hG'.rest c _ hc (by unfold NlSpec.slackIx; omega), hG.slack c hc]

theorem evaluateIneq_post (o : Constraints d K) (ho : o.Sized) (f : IConFn d K) (hf : o.ieqUser = some f)
    (F : Traj (d.ph + 1) d.nx K → Traj (d.ph + 1) d.ny K → Traj (d.ph + 1) d.nu K → K → FVec d.ineq K)
    (hF : NlSpec.FillsI f F) (mp : Mapping K) (hm : mp.Good) (hd : mp.dims = d) (M : NlModel d K)
    (junk : Nat → K) (x : Vec K) (hx : x.size = d.nZ) (hp : d.ph < 2 ^ 31) :
    Post (o.evaluateIneq mp M junk x) (fun r => r.2.Sized ∧ r.2.x0 = o.x0 ∧
      r.1.value.size = d.ineq ∧
      (∀ c : Fin d.ineq, r.1.value.get c
        = NlSpec.ineqOf F M.outUser (NlSpec.codeStates d mp.stateScaling.get o.x0.get x.get)
            (NlSpec.inputs d mp.inputScaling.get x.get) (x.get (NlSpec.slackIx d)) c) ∧
      ∃ gx gu ge,
        NlSpec.ConDiff d d.ineq (NlSpec.ineqOf F M.outUser) (NlSpec.codeStates d mp.stateScaling.get o.x0.get x.get)
          (NlSpec.inputs d mp.inputScaling.get x.get) (x.get (NlSpec.slackIx d))
          (stepLin (NlSpec.codeStates d mp.stateScaling.get o.x0.get x.get))
          (stepLin (NlSpec.inputs d mp.inputScaling.get x.get)) (stepSlack (x.get (NlSpec.slackIx d))) false gx gu ge ∧
        ConGradOf mp d.ineq gx gu ge r.1.grad) := by
  subst hd
  have hch := hm.ch_pos
  have hle := hm.ch_le
  unfold evaluateIneq
  dsimp only
  refine Post.bind (Mapping.unwrapVector_post mp hm x o.x0 o.Xmat o.Umat hx ho.x0 ho.X.1 ho.X.2 ho.U.1 ho.U.2) ?_
  rintro ⟨X, U, e⟩ hw
  have hXv := Objective.viewF_states hw
  have hUv := Objective.viewF_inputs hw
  have hXs : X.Is (mp.dims.ph + 1) mp.dims.nx := ⟨hw.xr, hw.xc⟩
  have hUs : U.Is (mp.dims.ph + 1) mp.dims.nu := ⟨hw.ur, hw.uc⟩
  have he : e = x.get (NlSpec.slackIx mp.dims) := hw.e
  dsimp only at hXv hUv ⊢
  rw [hf]
  dsimp only
  rw [callIneq_ok f F hF M _ X U e hp hXs hUs, ok_bind]
  refine Post.bind (computeIneqJacobian_post f F hF M junk X U e hp (by omega) hXs hUs) ?_
  rintro ⟨Jx, Jm, Jc⟩ ⟨h1, h2, h3, hD⟩
  dsimp only at h1 h2 h3 hD ⊢
  refine Post.bind (glueJacobian_post mp hm rfl junk mp.dims.ineq o.JcineqUser Jx Jm Jc ho.Ji h1 h2 h3) ?_
  intro G hG
  refine Post.bind (scaleStateRows_post mp hm rfl mp.dims.ineq G hG.is) ?_
  intro G' hG'
  rw [pure_bind']
  refine post_pure ⟨⟨ho.x0, hXs, hUs, ho.ceq, ho.Jceq, rfl, hG'.is, ho.ce, ho.Je⟩, rfl, rfl, ?_, _, _, _, ?_,
    conGrad_of mp mp.dims.ineq Jx Jm Jc G G' hG hG'⟩
  · intro c
    dsimp only
    rw [Vec.ofF_get, hXv, hUv, he]
  · rw [hXv, hUv, he] at hD; exact hD

theorem evaluateEq_post (o : Constraints d K) (ho : o.Sized) (f : EConFn d K) (hf : o.eqUser = some f)
    (F : Traj (d.ph + 1) d.nx K → Traj (d.ph + 1) d.nu K → FVec d.eq K)
    (hF : NlSpec.FillsE f F) (mp : Mapping K) (hm : mp.Good) (hd : mp.dims = d)
    (junk : Nat → K) (x : Vec K) (hx : x.size = d.nZ) :
    Post (o.evaluateEq mp junk x) (fun r => r.2.Sized ∧ r.2.x0 = o.x0 ∧
      r.1.value.size = d.eq ∧
      (∀ c : Fin d.eq, r.1.value.get c = F (NlSpec.codeStates d mp.stateScaling.get o.x0.get x.get)
            (NlSpec.inputs d mp.inputScaling.get x.get) c) ∧
      ∃ gx gu,
        NlSpec.ConDiff d d.eq (fun X U _ => F X U) (NlSpec.codeStates d mp.stateScaling.get o.x0.get x.get)
          (NlSpec.inputs d mp.inputScaling.get x.get) (x.get (NlSpec.slackIx d))
          (stepState (NlSpec.codeStates d mp.stateScaling.get o.x0.get x.get))
          (stepInput (d.ph - 1) (NlSpec.inputs d mp.inputScaling.get x.get)) 1 true gx gu (fun _ => 0) ∧
        ConGradOf mp d.eq gx gu (fun _ => 0) r.1.grad) := by
  subst hd
  have hch := hm.ch_pos
  have hle := hm.ch_le
  unfold evaluateEq
  dsimp only
  refine Post.bind (Mapping.unwrapVector_post mp hm x o.x0 o.Xmat o.Umat hx ho.x0 ho.X.1 ho.X.2 ho.U.1 ho.U.2) ?_
  rintro ⟨X, U, e⟩ hw
  have hXv := Objective.viewF_states hw
  have hUv := Objective.viewF_inputs hw
  have hXs : X.Is (mp.dims.ph + 1) mp.dims.nx := ⟨hw.xr, hw.xc⟩
  have hUs : U.Is (mp.dims.ph + 1) mp.dims.nu := ⟨hw.ur, hw.uc⟩
  have he : e = x.get (NlSpec.slackIx mp.dims) := hw.e
  dsimp only at hXv hUv ⊢
  rw [hf]
  dsimp only
  rw [callEq_ok f F hF _ X U hXs hUs, ok_bind]
  refine Post.bind (computeEqJacobian_post f F hF junk X U e (by omega) hXs hUs) ?_
  rintro ⟨Jx, Jm⟩ ⟨h1, h2, hD⟩
  dsimp only at h1 h2 hD ⊢
  refine Post.bind (glueJacobian_post mp hm rfl junk mp.dims.eq o.JceqUser Jx Jm (Vec.const mp.dims.eq 0) ho.Je h1 h2
    rfl) ?_
  intro G hG
  refine Post.bind (scaleStateRows_post mp hm rfl mp.dims.eq G hG.is) ?_
  intro G' hG'
  rw [pure_bind']
  refine post_pure ⟨⟨ho.x0, hXs, hUs, ho.ceq, ho.Jceq, ho.ci, ho.Ji, rfl, hG'.is⟩, rfl, rfl, ?_, _, _, ?_,
    conGrad_of mp mp.dims.eq Jx Jm (Vec.const mp.dims.eq 0) G G' hG hG'⟩
  · intro c
    dsimp only
    rw [Vec.ofF_get, hXv, hUv]
  · rw [hXv, hUv, he] at hD; exact hD

end Constraints
end Mpc
