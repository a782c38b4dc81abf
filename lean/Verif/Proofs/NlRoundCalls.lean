import Verif.Proofs.NlRoundGrad

/-
What the rounded evaluations of the objective and of the user constraints hand to the solver.
-/
namespace Mpc
open Exec
set_option linter.unusedSectionVars false

variable {d : Dims} {K : Type} [Field K] [LinearOrder K] [IsStrictOrderedRing K] {R : Rounding K}

namespace Constraints

/-- what `glueJacobian` assembles -/
structure GluedR (rnd : K → K) (mp : Mapping K) (n : Nat) (Jstate Jman : Mat K) (Jcon : Vec K) (G : Mat K) : Prop where
  is : G.Is mp.dims.nZ n
  states : ∀ c k a, c < n → k < mp.dims.ph → a < mp.dims.nx →
    G.get (NlSpec.stateIx mp.dims k a) c = Jstate.get c (k * mp.dims.nx + a)
  inputs : ∀ c j b, c < n → j < mp.dims.ch → b < mp.dims.nu →
    G.get (NlSpec.inputIx mp.dims j b) c = NlSpec.sumR rnd mp.dims.ph fun k =>
      if min k (mp.dims.ch - 1) = j then rnd (mp.inputScaling.get b * Jman.get c (k * mp.dims.nu + b)) else 0
  slack : ∀ c, c < n → G.get (NlSpec.slackIx mp.dims) c = Jcon.get c

theorem glueJacobianR_post (mp : Mapping K) (hm : mp.Good) (hd : mp.dims = d) (junk : Nat → K) (n : Nat)
    (Jres Jstate Jman : Mat K) (Jcon : Vec K) (h1 : Jres.Is d.nZ n) (h2 : Jstate.Is n (d.ph * d.nx))
    (h3 : Jman.Is n (d.ph * d.nu)) (h4 : Jcon.size = n) :
    Post (glueJacobianR R.rnd d mp junk Jres Jstate Jman Jcon) (GluedR R.rnd mp n Jstate Jman Jcon) := by
  subst hd
  have hch := hm.ch_pos
  have hle := hm.ch_le
  unfold glueJacobianR
  refine Post.bind (Q := fun G : Mat K => G.Is mp.dims.nZ n ∧ ∀ c k a, c < n → k < mp.dims.ph → a < mp.dims.nx →
    G.get (k * mp.dims.nx + a) c = Jstate.get c (k * mp.dims.nx + a)) ?_ ?_
  · refine (forRange_post _ _ _ (fun i (G : Mat K) => G.Is mp.dims.nZ n ∧
      ∀ c k a, c < n → k < i → a < mp.dims.nx →
        G.get (k * mp.dims.nx + a) c = Jstate.get c (k * mp.dims.nx + a)) ⟨h1, fun _ _ _ _ h => by omega⟩ ?_)
    rintro i G hi ⟨⟨g1, g2⟩, g3⟩
    have hend : i * mp.dims.nx + mp.dims.nx ≤ mp.dims.ph * mp.dims.nx := block_end_le hi
    rw [Mat.block_ok (by omega) (by rw [h2.2]; omega), ok_bind,
      Mat.setBlock_ok (m := G) (r0 := i * mp.dims.nx) (c0 := 0) (by rw [g1]; unfold Dims.nZ; omega) (by omega) (by rfl)
        (by simp only [Mat.transpose]; rw [h2.1, g2])]
    refine post_ok ⟨⟨g1, g2⟩, ?_⟩
    intro c k a hc hk ha
    simp only [Mat.setBlockRaw, block_mem_iff ha, Mat.transpose]
    by_cases he : k = i
    · subst he
      rw [if_pos ⟨rfl, by omega⟩]
      simp
    · rw [if_neg (fun h => he h.1)]
      exact g3 c k a hc (by omega) ha
  · rintro G ⟨⟨g1, g2⟩, g3⟩
    refine Post.bind (Q := fun Jm : Mat K => Jm.Is n (mp.dims.ph * mp.dims.nu) ∧
      ∀ c k b, c < n → k < mp.dims.ph → b < mp.dims.nu →
        Jm.get c (k * mp.dims.nu + b) = Jman.get c (k * mp.dims.nu + b)) ?_ ?_
    · refine (forRange_post _ _ _ (fun i (Jm : Mat K) => Jm.Is n (mp.dims.ph * mp.dims.nu) ∧
        ∀ c k b, c < n → k < i → b < mp.dims.nu →
          Jm.get c (k * mp.dims.nu + b) = Jman.get c (k * mp.dims.nu + b))
        ⟨⟨g2, rfl⟩, fun _ _ _ _ h => by omega⟩ ?_)
      rintro i Jm hi ⟨⟨k1, k2⟩, k3⟩
      have hend : i * mp.dims.nu + mp.dims.nu ≤ mp.dims.ph * mp.dims.nu := block_end_le hi
      rw [Mat.block_ok (by omega) (by rw [h3.2]; omega), ok_bind,
        Mat.setBlock_ok (by rw [k1, g2]; omega) (by rw [k2]; omega) (by dsimp only; rw [h3.1, g2]) (by rfl)]
      refine post_ok ⟨⟨k1, k2⟩, ?_⟩
      intro c k b hc hk hb
      simp only [Mat.setBlockRaw, block_mem_iff hb]
      by_cases he : k = i
      · subst he
        rw [if_pos ⟨by omega, rfl⟩]
        simp
      · rw [if_neg (fun h => he h.2)]
        exact k3 c k b hc (by omega) hb
    · rintro Jm ⟨⟨k1, k2⟩, k3⟩
      rw [Mat.mulR_ok (by rw [k2, hm.iz_rows]), ok_bind]
      rw [Mat.setBlock_ok (by rw [g1]; unfold Dims.nZ; omega) (by omega)
        (by simp only [Mat.transpose]; exact hm.iz_cols) (by simp only [Mat.transpose]; rw [k1, g2]), ok_bind]
      have hr : (G.setBlockRaw (mp.dims.ph * mp.dims.nx) 0 (mp.dims.nu * mp.dims.ch) G.cols
          (Mat.transpose ⟨Jm.rows, mp.Iz2u.cols,
            fun i j => sumToR R.rnd Jm.cols fun k => R.rnd (Jm.get i k * mp.Iz2u.get k j)⟩).get).rows = mp.dims.nZ := g1
      rw [require_ok (by rw [hr]; unfold Dims.nZ; omega), ok_bind,
        Mat.setBlock_ok (by rw [hr]; unfold Dims.nZ; omega) (by simp [Mat.setBlockRaw])
          (by rfl) (by simp only [Vec.asRow, Mat.setBlockRaw]; rw [h4, g2])]
      rw [hr]
      have e1 : mp.dims.ch * mp.dims.nu = mp.dims.nu * mp.dims.ch := Nat.mul_comm _ _
      refine post_ok ⟨⟨g1, g2⟩, ?_, ?_, ?_⟩
      · intro c k a hc hk ha
        have hlt := block_lt ha hk
        unfold NlSpec.stateIx
        rw [Mat.setBlockRaw_get, if_neg (by unfold Dims.nZ; omega), Mat.setBlockRaw_get, if_neg (by omega)]
        exact g3 c k a hc hk ha
      · intro c j b hc hj hb
        have hlt := block_lt hb hj
        unfold NlSpec.inputIx
        rw [Mat.setBlockRaw_get, if_neg (by unfold Dims.nZ; omega), Mat.setBlockRaw_get, if_pos (by omega)]
        simp only [Mat.transpose]
        have e2 : mp.dims.ph * mp.dims.nx + (j * mp.dims.nu + b) - mp.dims.ph * mp.dims.nx = j * mp.dims.nu + b := by
          omega
        rw [e2, Nat.sub_zero, k2, ← hm.iz_rows]
        have := hm.gatherR R (fun q => Jm.get c q) hj hb
        rw [show (fun k => R.rnd (Jm.get c k * mp.Iz2u.get k (j * mp.dims.nu + b)))
          = fun k => R.rnd (mp.Iz2u.get k (j * mp.dims.nu + b) * Jm.get c k) from funext fun k => by rw [mul_comm], this]
        rw [← sumToR_eq, ← sumToR_eq]
        refine sumToR_congr _ fun k hk => ?_
        rw [k3 c k b hc hk hb]
      · intro c hc
        unfold NlSpec.slackIx
        rw [Mat.setBlockRaw_get, if_pos (by simp only [Mat.setBlockRaw]; unfold Dims.nZ; omega), Nat.sub_zero]
        rfl

/-- what the scaling loops leave -/
structure ScaledR (rnd : K → K) (mp : Mapping K) (n : Nat) (G G' : Mat K) : Prop where
  is : G'.Is mp.dims.nZ n
  states : ∀ c k a, c < n → k < mp.dims.ph → a < mp.dims.nx →
    G'.get (NlSpec.stateIx mp.dims k a) c = rnd (G.get (NlSpec.stateIx mp.dims k a) c * mp.stateScaling.get a)
  rest : ∀ c l, c < n → mp.dims.ph * mp.dims.nx ≤ l → G'.get l c = G.get l c

theorem scaleStateRowsR_post (mp : Mapping K) (hm : mp.Good) (hd : mp.dims = d) (n : Nat) (G : Mat K)
    (hG : G.Is d.nZ n) : Post (scaleStateRowsR R.rnd d mp G) (ScaledR R.rnd mp n G) := by
  subst hd
  unfold scaleStateRowsR
  rw [hG.2]
  refine (forRange_post n G _ (fun j (G' : Mat K) => G'.Is mp.dims.nZ n ∧
    (∀ c k a, c < j → k < mp.dims.ph → a < mp.dims.nx →
      G'.get (k * mp.dims.nx + a) c = R.rnd (G.get (k * mp.dims.nx + a) c * mp.stateScaling.get a)) ∧
    (∀ c l, mp.dims.ph * mp.dims.nx ≤ l → G'.get l c = G.get l c) ∧
    (∀ c l, j ≤ c → G'.get l c = G.get l c)) ⟨hG, fun _ _ _ h => by omega, fun _ _ _ => rfl, fun _ _ _ => rfl⟩
    ?_).mono ?_
  · rintro j G1 hj ⟨⟨q1, q2⟩, q3, q4, q5⟩
    refine Post.bind (Q := fun s : Nat × Mat K => s.2.Is mp.dims.nZ n ∧
      (∀ k a, k < mp.dims.ph → a < mp.dims.nx →
        s.2.get (k * mp.dims.nx + a) j = R.rnd (G.get (k * mp.dims.nx + a) j * mp.stateScaling.get a)) ∧
      (∀ l, mp.dims.ph * mp.dims.nx ≤ l → s.2.get l j = G.get l j) ∧
      (∀ c l, c ≠ j → s.2.get l c = G1.get l c)) ?_ ?_
    · refine (forRange_post mp.dims.ph ((0 : Nat), G1) _ (fun i (s : Nat × Mat K) => s.1 = i * mp.dims.nx ∧
        s.2.Is mp.dims.nZ n ∧
        (∀ k a, k < i → a < mp.dims.nx →
          s.2.get (k * mp.dims.nx + a) j = R.rnd (G.get (k * mp.dims.nx + a) j * mp.stateScaling.get a)) ∧
        (∀ l, i * mp.dims.nx ≤ l → s.2.get l j = G.get l j) ∧
        (∀ c l, c ≠ j → s.2.get l c = G1.get l c)) ?_ ?_).mono ?_
      · exact ⟨by simp, ⟨q1, q2⟩, fun _ _ h => by omega, fun l _ => q5 j l (Nat.le_refl _), fun _ _ _ => rfl⟩
      · rintro i ⟨c0, G2⟩ hi ⟨rfl, ⟨r1, r2⟩, r3, r4, r5⟩
        dsimp only at r1 r2 r3 r4 r5 ⊢
        have hend : i * mp.dims.nx + mp.dims.nx ≤ mp.dims.ph * mp.dims.nx := block_end_le hi
        refine Post.bind (Q := fun G3 : Mat K => G3.Is mp.dims.nZ n ∧
          (∀ k a, k < i + 1 → a < mp.dims.nx →
            G3.get (k * mp.dims.nx + a) j = R.rnd (G.get (k * mp.dims.nx + a) j * mp.stateScaling.get a)) ∧
          (∀ l, (i + 1) * mp.dims.nx ≤ l → G3.get l j = G.get l j) ∧
          (∀ c l, c ≠ j → G3.get l c = G1.get l c)) ?_ ?_
        · refine (forRange_post mp.dims.nx G2 _ (fun ix (G3 : Mat K) => G3.Is mp.dims.nZ n ∧
            (∀ k a, (k < i ∨ (k = i ∧ a < ix)) → a < mp.dims.nx →
              G3.get (k * mp.dims.nx + a) j = R.rnd (G.get (k * mp.dims.nx + a) j * mp.stateScaling.get a)) ∧
            (∀ l, i * mp.dims.nx + ix ≤ l → G3.get l j = G.get l j) ∧
            (∀ c l, c ≠ j → G3.get l c = G1.get l c)) ?_ ?_).mono ?_
          · exact ⟨⟨r1, r2⟩, fun k a h ha => r3 k a (by omega) ha, fun l hl => r4 l (by omega), r5⟩
          · rintro ix G3 hix ⟨⟨s1, s2⟩, s3, s4, s5⟩
            have hst := hm.stsz
            have hb : i * mp.dims.nx + ix < G3.rows := by rw [s1]; unfold Dims.nZ; omega
            rw [Vec.at_ok (by omega), ok_bind, Mat.at_ok hb (by omega), ok_bind, Mat.set_ok hb (by omega)]
            refine post_ok ⟨⟨s1, s2⟩, ?_, ?_, ?_⟩
            · intro k a h ha
              simp only [Mat.setRaw]
              by_cases he : k = i ∧ a = ix
              · obtain ⟨rfl, rfl⟩ := he
                simp only [and_self, if_true]
                rw [s4 _ (Nat.le_refl _)]
              · rw [if_neg (by rw [block_eq_iff ha hix]; exact fun h => he h.1)]
                exact s3 k a (by omega) ha
            · intro l hl
              simp only [Mat.setRaw]
              rw [if_neg (by omega)]; exact s4 l (by omega)
            · intro c l hc
              simp only [Mat.setRaw]
              rw [if_neg (fun h => hc h.2)]; exact s5 c l hc
          · rintro G3 ⟨s1, s3, s4, s5⟩
            exact ⟨s1, fun k a h ha => s3 k a (by omega) ha, fun l hl => s4 l (by rw [Nat.add_mul] at hl; omega), s5⟩
        · rintro G3 ⟨s1, s3, s4, s5⟩
          exact post_pure ⟨by dsimp only; ring, s1, s3, s4, s5⟩
      · rintro ⟨c0, G2⟩ ⟨-, r1, r3, r4, r5⟩
        exact ⟨r1, r3, r4, r5⟩
    · rintro ⟨c0, G2⟩ ⟨r1, r3, r4, r5⟩
      dsimp only at r1 r3 r4 r5 ⊢
      refine post_pure ⟨r1, ?_, ?_, ?_⟩
      · intro c k a hc hk ha
        by_cases he : c = j
        · subst he; exact r3 k a hk ha
        · rw [r5 c _ he]; exact q3 c k a (by omega) hk ha
      · intro c l hl
        by_cases he : c = j
        · subst he; exact r4 l hl
        · rw [r5 c _ he]; exact q4 c l hl
      · intro c l hc
        rw [r5 c l (by omega)]; exact q5 c l (by omega)
  · rintro G' ⟨h1, h2, h3, -⟩
    exact ⟨h1, h2, fun c l _ hl => h3 c l hl⟩

/-- the gradient of `n` constraints handed to the solver -/
structure ConGradR (rnd : K → K) (mp : Mapping K) (n : Nat) (gx gu : Nat → Nat → Nat → K) (ge : Nat → K) (g : Vec K) : Prop where
  size : g.size = mp.dims.nZ * n
  row : ∀ c, c < n → NlSpec.RowOfR rnd mp.dims true mp.stateScaling.get mp.inputScaling.get (gx c) (gu c) (ge c)
    (fun l => g.get (c * mp.dims.nZ + l))

theorem conGradR_of (mp : Mapping K) (n : Nat) (Jx Jm : Mat K) (Jc : Vec K) (G G' : Mat K)
    (hG : GluedR R.rnd mp n Jx Jm Jc G) (hG' : ScaledR R.rnd mp n G G') :
    ConGradR R.rnd mp n (fun c k a => Jx.get c (k * mp.dims.nx + a)) (fun c k b => Jm.get c (k * mp.dims.nu + b))
      Jc.get G'.dataVec := by
  refine ⟨?_, fun c hc => ⟨?_, ?_, ?_⟩⟩
  · simp only [Mat.dataVec]; rw [hG'.is.1, hG'.is.2]
  · intro k a hk ha
    rw [dataVec_get hG'.is (stateIx_lt _ hk ha), hG'.states c k a hc hk ha, hG.states c k a hc hk ha, if_pos rfl]
  · intro j b hj hb
    rw [dataVec_get hG'.is (inputIx_lt _ hj hb), hG'.rest c _ hc (by unfold NlSpec.inputIx; omega),
      hG.inputs c j b hc hj hb]
  · rw [dataVec_get hG'.is (slackIx_lt _), hG'.rest c _ hc (by unfold NlSpec.slackIx; omega), hG.slack c hc]

theorem evaluateIneqR_post (he : R.eps ≤ 1 / 8) (o : Constraints d K) (ho : o.Sized) (f : IConFn d K) (hf : o.ieqUser = some f)
    (F : Traj (d.ph + 1) d.nx K → Traj (d.ph + 1) d.ny K → Traj (d.ph + 1) d.nu K → K → FVec d.ineq K)
    (hF : NlSpec.FillsI f F) (mp : Mapping K) (hm : mp.Good) (hd : mp.dims = d) (M : NlModel d K)
    (junk : Nat → K) (x : Vec K) (hx : x.size = d.nZ) (hp : d.ph < 2 ^ 31) :
    Post (o.evaluateIneqR R.rnd mp M junk x) (fun r => r.2.Sized ∧ r.2.x0 = o.x0 ∧ r.2.ieqUser = o.ieqUser ∧ r.2.eqUser = o.eqUser ∧
      r.1.value.size = d.ineq ∧
      (∀ c : Fin d.ineq, r.1.value.get c
        = NlSpec.ineqOf F M.outUser (NlSpec.codeStatesR R.rnd d mp.stateScaling.get o.x0.get x.get)
            (NlSpec.inputsR R.rnd d mp.inputScaling.get x.get) (x.get (NlSpec.slackIx d)) c) ∧
      ∃ gx gu ge,
        NlSpec.ConDiffR R d d.ineq (NlSpec.ineqOf F M.outUser) (NlSpec.codeStatesR R.rnd d mp.stateScaling.get o.x0.get x.get)
          (NlSpec.inputsR R.rnd d mp.inputScaling.get x.get) (x.get (NlSpec.slackIx d))
          (fun _ a => stepR R dv (NlSpec.linear (NlSpec.codeStatesR R.rnd d mp.stateScaling.get o.x0.get x.get) a))
          (fun _ b => stepR R dv (NlSpec.linear (NlSpec.inputsR R.rnd d mp.inputScaling.get x.get) b))
          (slackR R dv (x.get (NlSpec.slackIx d))) false
          (NlSpec.driftX R (NlSpec.codeStatesR R.rnd d mp.stateScaling.get o.x0.get x.get) fun _ a => stepR R dv (NlSpec.linear (NlSpec.codeStatesR R.rnd d mp.stateScaling.get o.x0.get x.get) a))
          (NlSpec.driftU R (NlSpec.inputsR R.rnd d mp.inputScaling.get x.get) fun _ b => stepR R dv (NlSpec.linear (NlSpec.inputsR R.rnd d mp.inputScaling.get x.get) b)) gx gu ge ∧
        ConGradR R.rnd mp d.ineq gx gu ge r.1.grad) := by
  subst hd
  have hch := hm.ch_pos
  have hle := hm.ch_le
  unfold evaluateIneqR
  dsimp only
  refine Post.bind (Mapping.unwrapVectorR_post R mp hm x o.x0 o.Xmat o.Umat hx ho.x0 ho.X ho.U) ?_
  rintro ⟨X, U, e⟩ hw
  have hXv := hw.xv
  have hUv := hw.uv
  have hXs : X.Is (mp.dims.ph + 1) mp.dims.nx := hw.x
  have hUs : U.Is (mp.dims.ph + 1) mp.dims.nu := hw.u
  have hee : e = x.get (NlSpec.slackIx mp.dims) := hw.e
  dsimp only at hXv hUv ⊢
  rw [hf]
  dsimp only
  rw [callIneq_ok f F hF M _ X U e hp hXs hUs, ok_bind]
  refine Post.bind (computeIneqJacobianR_post he f F hF M junk X U e hp (by omega) hXs hUs) ?_
  rintro ⟨Jx, Jm, Jc⟩ ⟨h1, h2, h3, hD⟩
  dsimp only at h1 h2 h3 hD ⊢
  refine Post.bind (glueJacobianR_post mp hm rfl junk mp.dims.ineq o.JcineqUser Jx Jm Jc ho.Ji h1 h2 h3) ?_
  intro G hG
  refine Post.bind (scaleStateRowsR_post mp hm rfl mp.dims.ineq G hG.is) ?_
  intro G' hG'
  rw [pure_bind']
  refine post_pure ⟨⟨ho.x0, hXs, hUs, ho.ceq, ho.Jceq, rfl, hG'.is, ho.ce, ho.Je⟩, rfl, rfl, rfl, rfl, ?_, _, _, _, ?_,
    conGradR_of mp mp.dims.ineq Jx Jm Jc G G' hG hG'⟩
  · intro c
    dsimp only
    rw [Vec.ofF_get, hXv, hUv, hee]
  · rw [hXv, hUv, hee] at hD; exact hD

theorem evaluateEqR_post (he : R.eps ≤ 1 / 8) (o : Constraints d K) (ho : o.Sized) (f : EConFn d K) (hf : o.eqUser = some f)
    (F : Traj (d.ph + 1) d.nx K → Traj (d.ph + 1) d.nu K → FVec d.eq K)
    (hF : NlSpec.FillsE f F) (mp : Mapping K) (hm : mp.Good) (hd : mp.dims = d)
    (junk : Nat → K) (x : Vec K) (hx : x.size = d.nZ) :
    Post (o.evaluateEqR R.rnd mp junk x) (fun r => r.2.Sized ∧ r.2.x0 = o.x0 ∧ r.2.ieqUser = o.ieqUser ∧ r.2.eqUser = o.eqUser ∧
      r.1.value.size = d.eq ∧
      (∀ c : Fin d.eq, r.1.value.get c = F (NlSpec.codeStatesR R.rnd d mp.stateScaling.get o.x0.get x.get)
            (NlSpec.inputsR R.rnd d mp.inputScaling.get x.get) c) ∧
      ∃ gx gu,
        NlSpec.ConDiffR R d d.eq (fun X U _ => F X U) (NlSpec.codeStatesR R.rnd d mp.stateScaling.get o.x0.get x.get)
          (NlSpec.inputsR R.rnd d mp.inputScaling.get x.get) (x.get (NlSpec.slackIx d))
          (fun k a => stepR R dv (NlSpec.entry (NlSpec.codeStatesR R.rnd d mp.stateScaling.get o.x0.get x.get) (k + 1) a))
          (fun _ b => stepR R dv (NlSpec.entry (NlSpec.inputsR R.rnd d mp.inputScaling.get x.get) (d.ph - 1) b)) 1 true
          (NlSpec.driftX R (NlSpec.codeStatesR R.rnd d mp.stateScaling.get o.x0.get x.get) fun k a => stepR R dv (NlSpec.entry (NlSpec.codeStatesR R.rnd d mp.stateScaling.get o.x0.get x.get) (k + 1) a))
          (NlSpec.driftU R (NlSpec.inputsR R.rnd d mp.inputScaling.get x.get) fun _ b => stepR R dv (NlSpec.entry (NlSpec.inputsR R.rnd d mp.inputScaling.get x.get) (d.ph - 1) b))
          gx gu (fun _ => 0) ∧
        ConGradR R.rnd mp d.eq gx gu (fun _ => 0) r.1.grad) := by
  subst hd
  have hch := hm.ch_pos
  have hle := hm.ch_le
  unfold evaluateEqR
  dsimp only
  refine Post.bind (Mapping.unwrapVectorR_post R mp hm x o.x0 o.Xmat o.Umat hx ho.x0 ho.X ho.U) ?_
  rintro ⟨X, U, e⟩ hw
  have hXv := hw.xv
  have hUv := hw.uv
  have hXs : X.Is (mp.dims.ph + 1) mp.dims.nx := hw.x
  have hUs : U.Is (mp.dims.ph + 1) mp.dims.nu := hw.u
  have hee : e = x.get (NlSpec.slackIx mp.dims) := hw.e
  dsimp only at hXv hUv ⊢
  rw [hf]
  dsimp only
  rw [callEq_ok f F hF _ X U hXs hUs, ok_bind]
  refine Post.bind (computeEqJacobianR_post he f F hF junk X U e (by omega) hXs hUs) ?_
  rintro ⟨Jx, Jm⟩ ⟨h1, h2, hD⟩
  dsimp only at h1 h2 hD ⊢
  refine Post.bind (glueJacobianR_post mp hm rfl junk mp.dims.eq o.JceqUser Jx Jm (Vec.const mp.dims.eq 0) ho.Je h1 h2
    rfl) ?_
  intro G hG
  refine Post.bind (scaleStateRowsR_post mp hm rfl mp.dims.eq G hG.is) ?_
  intro G' hG'
  rw [pure_bind']
  refine post_pure ⟨⟨ho.x0, hXs, hUs, ho.ceq, ho.Jceq, ho.ci, ho.Ji, rfl, hG'.is⟩, rfl, rfl, rfl, rfl, ?_, _, _, ?_,
    conGradR_of mp mp.dims.eq Jx Jm (Vec.const mp.dims.eq 0) G G' hG hG'⟩
  · intro c
    dsimp only
    rw [Vec.ofF_get, hXv, hUv]
  · rw [hXv, hUv, hee] at hD; exact hD

/-- an evaluation of the inequality constraints with no user function -/
theorem evaluateIneqR_none (o : Constraints d K) (ho : o.Sized) (hf : o.ieqUser = none) (mp : Mapping K) (hm : mp.Good)
    (hd : mp.dims = d) (M : NlModel d K) (junk : Nat → K) (x : Vec K) (hx : x.size = d.nZ) :
    Post (o.evaluateIneqR R.rnd mp M junk x) (fun r => r.2.Sized ∧ r.2.x0 = o.x0 ∧ r.2.ieqUser = o.ieqUser ∧
      r.2.eqUser = o.eqUser ∧ r.1.value.size = d.ineq ∧ (∀ i, r.1.value.get i = 0) ∧ (∀ i, r.1.grad.get i = 0)) := by
  subst hd
  unfold evaluateIneqR
  dsimp only
  refine Post.bind (Mapping.unwrapVectorR_post R mp hm x o.x0 o.Xmat o.Umat hx ho.x0 ho.X ho.U) ?_
  rintro ⟨X, U, e⟩ hw
  have hXs : X.Is (mp.dims.ph + 1) mp.dims.nx := hw.x
  have hUs : U.Is (mp.dims.ph + 1) mp.dims.nu := hw.u
  rw [hf]
  dsimp only
  exact post_pure ⟨⟨ho.x0, hXs, hUs, ho.ceq, ho.Jceq, ho.ci, ho.Ji, ho.ce, ho.Je⟩, rfl, rfl, rfl, ho.ci,
    fun _ => rfl, fun _ => rfl⟩

/-- an evaluation of the equality constraints with no user function -/
theorem evaluateEqR_none (o : Constraints d K) (ho : o.Sized) (hf : o.eqUser = none) (mp : Mapping K) (hm : mp.Good)
    (hd : mp.dims = d) (junk : Nat → K) (x : Vec K) (hx : x.size = d.nZ) :
    Post (o.evaluateEqR R.rnd mp junk x) (fun r => r.2.Sized ∧ r.2.x0 = o.x0 ∧ r.2.ieqUser = o.ieqUser ∧
      r.2.eqUser = o.eqUser ∧ r.1.value.size = d.eq ∧ (∀ i, r.1.value.get i = 0) ∧ (∀ i, r.1.grad.get i = 0)) := by
  subst hd
  unfold evaluateEqR
  dsimp only
  refine Post.bind (Mapping.unwrapVectorR_post R mp hm x o.x0 o.Xmat o.Umat hx ho.x0 ho.X ho.U) ?_
  rintro ⟨X, U, e⟩ hw
  have hXs : X.Is (mp.dims.ph + 1) mp.dims.nx := hw.x
  have hUs : U.Is (mp.dims.ph + 1) mp.dims.nu := hw.u
  rw [hf]
  dsimp only
  exact post_pure ⟨⟨ho.x0, hXs, hUs, ho.ceq, ho.Jceq, ho.ci, ho.Ji, ho.ce, ho.Je⟩, rfl, rfl, rfl, ho.ce,
    fun _ => rfl, fun _ => rfl⟩

end Constraints

namespace Objective

theorem evaluateR_post (he : R.eps ≤ 1 / 8) (o : Objective d K) (ho : o.Sized) (f : ObjFn d K) (hf : o.fuser = some f) (mp : Mapping K)
    (hm : mp.Good) (hd : mp.dims = d) (M : NlModel d K) (x : Vec K) (hx : x.size = d.nZ) (hp : d.ph < 2 ^ 31)
    (hg : Bool) :
    Post (o.evaluateR R.rnd mp M x hg) (fun r => r.2.Sized ∧ r.2.fuser = o.fuser ∧ r.2.x0 = o.x0 ∧
      r.1.value = NlSpec.costOf f M.outUser (NlSpec.codeStatesR R.rnd d mp.stateScaling.get o.x0.get x.get)
        (NlSpec.inputsR R.rnd d mp.inputScaling.get x.get) (x.get (NlSpec.slackIx d)) ∧
      (if hg then ∃ g gx gu ge, r.1.grad = some g ∧ g.size = d.nZ ∧
        NlSpec.ObjDiffR R d (NlSpec.costOf f M.outUser) (NlSpec.codeStatesR R.rnd d mp.stateScaling.get o.x0.get x.get)
          (NlSpec.inputsR R.rnd d mp.inputScaling.get x.get) (x.get (NlSpec.slackIx d))
          (fun a => stepR R (1 / 1000000) (NlSpec.linear (NlSpec.codeStatesR R.rnd d mp.stateScaling.get o.x0.get x.get) a))
          (fun b => stepR R (1 / 1000000) (NlSpec.linear (NlSpec.inputsR R.rnd d mp.inputScaling.get x.get) b))
          (slackR R (1 / 1000000) (x.get (NlSpec.slackIx d)))
          (NlSpec.driftX R (NlSpec.codeStatesR R.rnd d mp.stateScaling.get o.x0.get x.get) fun _ a => stepR R (1 / 1000000) (NlSpec.linear (NlSpec.codeStatesR R.rnd d mp.stateScaling.get o.x0.get x.get) a))
          (NlSpec.driftU R (NlSpec.inputsR R.rnd d mp.inputScaling.get x.get) fun _ b => stepR R (1 / 1000000) (NlSpec.linear (NlSpec.inputsR R.rnd d mp.inputScaling.get x.get) b)) gx gu ge ∧
        NlSpec.RowOfR R.rnd d false mp.stateScaling.get mp.inputScaling.get gx gu ge g.get
       else r.1.grad = none)) := by
  subst hd
  have hch := hm.ch_pos
  have hle := hm.ch_le
  unfold evaluateR
  dsimp only
  refine Post.bind (Mapping.unwrapVectorR_post R mp hm x o.x0 o.Xmat o.Umat hx ho.x0 ho.X ho.U) ?_
  rintro ⟨X, U, e⟩ hw
  have hXv := hw.xv
  have hUv := hw.uv
  have hXs : X.Is (mp.dims.ph + 1) mp.dims.nx := hw.x
  have hUs : U.Is (mp.dims.ph + 1) mp.dims.nu := hw.u
  have hee : e = x.get (NlSpec.slackIx mp.dims) := hw.e
  dsimp only at hXv hUv ⊢
  rw [hf, callObj_ok f M X U e hp hXs hUs, ok_bind]
  cases hg with
  | false =>
    simp only [Bool.false_eq_true, if_false]
    refine post_pure ⟨⟨ho.x0, hXs, hUs⟩, rfl, rfl, ?_, rfl⟩
    dsimp only; rw [hXv, hUv, hee]
  | true =>
    simp only [if_true]
    refine Post.bind (computeJacobianR_post he f M X U e hp (by omega) hXs hUs) ?_
    rintro ⟨Jx, Jm, Je⟩ ⟨hJx, hJm, hD⟩
    dsimp only at hJx hJm hD ⊢
    refine Post.bind (Q := fun X' => X'.Is (mp.dims.ph + 1) mp.dims.nx) ?_ ?_
    · rw [hXs.2]
      refine forRange_post _ _ _ (fun _ (X' : Mat K) => X'.Is (mp.dims.ph + 1) mp.dims.nx) hXs ?_
      rintro i X' hi ⟨h1, h2⟩
      have := hm.stsz
      rw [Vec.at_ok (by omega), ok_bind, Mat.col_ok (by omega), ok_bind, Mat.setCol_ok (by omega) rfl]
      exact post_ok ⟨h1, h2⟩
    · intro X' hX'
      refine Post.bind (by
        rw [hJx.1, hJx.2]
        exact pack_loop mp.dims.ph mp.dims.nx 0 (Vec.const mp.dims.nZ 0) Jx hJx.1 hJx.2
          (by simp [Vec.const, Dims.nZ]; omega)) ?_
      rintro ⟨c1, g1⟩ ⟨h1, h2, h3, h4⟩
      dsimp only at h1 h2 h3 h4 ⊢
      refine Post.bind (by
        rw [hJm.1, hJm.2]
        exact pack_loop mp.dims.ph mp.dims.nu 0 (Vec.const (mp.dims.ph * mp.dims.nu) 0) Jm hJm.1 hJm.2
          (by simp [Vec.const])) ?_
      rintro ⟨c2, v⟩ ⟨-, k2, k3, -⟩
      dsimp only at k2 k3 ⊢
      rw [Mat.mulVecR_ok (by simp only [Mat.transpose]; rw [hm.iz_rows, k2]; rfl), ok_bind]
      have hres : ∀ j b, j < mp.dims.ch → b < mp.dims.nu →
          sumToR R.rnd mp.Iz2u.transpose.cols (fun q => R.rnd (mp.Iz2u.transpose.get (j * mp.dims.nu + b) q * v.get q))
            = NlSpec.sumR R.rnd mp.dims.ph fun k =>
                if min k (mp.dims.ch - 1) = j then R.rnd (mp.inputScaling.get b * Jm.get b k) else 0 := by
        intro j b hj hb
        simp only [Mat.transpose]
        rw [hm.gatherR R v.get hj hb, ← sumToR_eq, ← sumToR_eq]
        refine sumToR_congr _ fun k hk => ?_
        have := k3 k b hk hb
        rw [Nat.zero_add] at this
        rw [this]
      refine Post.bind (Q := fun s : Nat × Vec K => s.2.size = mp.dims.nZ ∧
          (∀ k a, k < mp.dims.ph → a < mp.dims.nx → s.2.get (k * mp.dims.nx + a) = Jx.get a k) ∧
          (∀ q, q < mp.dims.ch * mp.dims.nu → s.2.get (mp.dims.ph * mp.dims.nx + q)
            = sumToR R.rnd mp.Iz2u.transpose.cols (fun p => R.rnd (mp.Iz2u.transpose.get q p * v.get p)))) ?_ ?_
      · refine (forRange_post _ (c1, g1) _ (fun q (s : Nat × Vec K) => s.1 = mp.dims.ph * mp.dims.nx + q ∧
          s.2.size = mp.dims.nZ ∧
          (∀ k a, k < mp.dims.ph → a < mp.dims.nx → s.2.get (k * mp.dims.nx + a) = Jx.get a k) ∧
          (∀ q', q' < q → s.2.get (mp.dims.ph * mp.dims.nx + q')
            = sumToR R.rnd mp.Iz2u.transpose.cols (fun p => R.rnd (mp.Iz2u.transpose.get q' p * v.get p)))) ?_ ?_).mono ?_
        · refine ⟨by simpa using h1, h2, ?_, fun _ h => by omega⟩
          intro k a hk ha
          have := h3 k a hk ha
          rwa [Nat.zero_add] at this
        · rintro q ⟨c, w⟩ hq ⟨rfl, l2, l3, l4⟩
          dsimp only at l2 l3 l4 ⊢
          have hq' : q < mp.dims.nu * mp.dims.ch := by rw [Nat.mul_comm]; exact hq
          rw [Vec.at_ok (by simp only [Mat.transpose]; rw [hm.iz_cols]; exact hq'), ok_bind,
            Vec.set_ok (by rw [l2]; unfold Dims.nZ; omega), ok_bind]
          refine post_pure ⟨by dsimp only; omega, l2, ?_, ?_⟩
          · intro k a hk ha
            simp only [Vec.setRaw]
            have := block_lt ha hk
            rw [if_neg (by omega)]; exact l3 k a hk ha
          · intro q' hq2
            simp only [Vec.setRaw]
            by_cases h : q' = q
            · subst h; rw [if_pos rfl]
            · rw [if_neg (by omega)]; exact l4 q' (by omega)
        · rintro ⟨c, w⟩ ⟨-, l2, l3, l4⟩
          exact ⟨l2, l3, l4⟩
      · rintro ⟨c, w⟩ ⟨l2, l3, l4⟩
        dsimp only at l2 l3 l4 ⊢
        rw [Vec.set_ok (by rw [l2]; unfold Dims.nZ; omega), ok_bind]
        refine post_pure ⟨⟨ho.x0, hX', hUs⟩, rfl, rfl, ?_, ?_⟩
        · dsimp only; rw [hXv, hUv, hee]
        · refine ⟨_, fun k a => Jx.get a k, fun k b => Jm.get b k, Je, rfl, l2, ?_, ?_, ?_, ?_⟩
          · rw [hXv, hUv, hee] at hD; exact hD
          · intro k a hk ha
            simp only [Vec.setRaw]
            have := block_lt ha hk
            rw [if_neg (by unfold NlSpec.stateIx Dims.nZ; omega)]
            exact l3 k a hk ha
          · intro j b hj hb
            simp only [Vec.setRaw]
            have := block_lt hb hj
            have e1 : mp.dims.ch * mp.dims.nu = mp.dims.nu * mp.dims.ch := Nat.mul_comm _ _
            rw [if_neg (by unfold NlSpec.inputIx Dims.nZ; omega)]
            rw [← hres j b hj hb]
            exact l4 _ this
          · simp only [Vec.setRaw]
            rw [if_pos (by unfold NlSpec.slackIx Dims.nZ; rw [Nat.mul_comm mp.dims.ch]; rfl)]

end Objective
end Mpc
