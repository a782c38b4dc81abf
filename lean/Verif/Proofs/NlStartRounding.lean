import Verif.Model.NlStartRounding
import Verif.Proofs.NlRoundEval
import Verif.Proofs.NlStartPoint

/-
The starting point of the nonlinear solver, in rounded arithmetic.
-/
namespace Mpc
open Exec
set_option linter.unusedSectionVars false

variable {K : Type} [Field K] [LinearOrder K] [IsStrictOrderedRing K] (R : Rounding K)

/-- Row `j*nu+c` of the rounded `Iu2z` times `u`, rounded. -/
theorem Mapping.Good.compressR {m : Mapping K} (hm : m.Good) (u : Nat → K) {j c : Nat} (hj : j < m.dims.ch)
    (hc : c < m.dims.nu) :
    sumToR R.rnd m.Iu2z.cols (fun q => R.rnd (R.rnd (m.Iu2z.get (j * m.dims.nu + c) q) * u q))
      = R.rnd (R.rnd (1 / m.inputScaling.get c) * u (j * m.dims.nu + c)) := by
  have h0 := hm.ch_le
  rw [hm.iu_cols, sumToR_single R _ (j * m.dims.nu + c) (block_lt hc (by omega)), hm.iu j c j c (by omega) hc hj hc,
    if_pos ⟨rfl, rfl⟩, R.idem]
  intro i hi hne
  obtain ⟨k, b, hk, hb, rfl⟩ := exists_block hi
  rw [hm.iu k b j c hk hb hj hc, if_neg, R.zero, zero_mul, R.zero]
  rintro ⟨rfl, rfl⟩
  exact hne rfl

namespace NlOpt

/-- the initial point made from decision vector `v`, rounded -/
structure ShiftR (rnd : K → K) (d : Dims) (sc : Nat → K) (slack : K) (v g : Vec K) : Prop where
  size : g.size = d.nZ
  state : ∀ k a, k < d.ph → a < d.nx →
    g.get (NlSpec.stateIx d k a) = v.get (NlSpec.stateIx d (min (k + 1) (d.ph - 1)) a)
  input : ∀ j b, j < d.ch → b < d.nu → g.get (NlSpec.inputIx d j b)
    = rnd (rnd (1 / sc b) * rnd (sc b * v.get (NlSpec.inputIx d (min (j + 1) (d.ch - 1)) b)))
  slack : g.get (NlSpec.slackIx d) = slack

theorem shiftedR_post {d : Dims} {mp : Mapping K} (hm : mp.Good) (hd : mp.dims = d) (junk : Nat → K) (slack : K)
    {v : Vec K} (hv : v.size = d.nZ) :
    Post (shiftedR R.rnd d mp junk slack v) (ShiftR R.rnd d mp.inputScaling.get slack v) := by
  subst hd
  have hch := hm.ch_pos
  have hle := hm.ch_le
  have hcomm : mp.dims.nu * mp.dims.ch = mp.dims.ch * mp.dims.nu := Nat.mul_comm _ _
  unfold shiftedR
  dsimp only
  refine Post.bind (shiftInto_post (N := mp.dims.nZ) (by rw [hv]; unfold Dims.nZ; omega) rfl
    (by unfold Dims.nZ; omega)) ?_
  rintro g ⟨hg1, hg2, -⟩
  rw [Vec.seg_ok (by rw [hv]; unfold Dims.nZ; omega), ok_bind, Mat.mulVecR_ok hm.iz_cols, ok_bind]
  refine Post.bind (shiftInto_post (n := mp.dims.ph) (s := mp.dims.nu) (N := mp.dims.ph * mp.dims.nu)
    (by dsimp only; rw [hm.iz_rows]) rfl le_rfl) ?_
  rintro umv ⟨hu1, hu2, -⟩
  rw [Mat.mulVecR_ok (by unfold Mapping.Iu2zR; dsimp only; rw [hm.iu_cols, hu1]), ok_bind]
  unfold Mapping.Iu2zR
  dsimp only
  have hres : ∀ j b, j < mp.dims.ch → b < mp.dims.nu →
      sumToR R.rnd mp.Iu2z.cols (fun k => R.rnd (R.rnd (mp.Iu2z.get (j * mp.dims.nu + b) k) * umv.get k))
      = R.rnd (R.rnd (1 / mp.inputScaling.get b) * R.rnd (mp.inputScaling.get b *
        v.get (NlSpec.inputIx mp.dims (min (j + 1) (mp.dims.ch - 1)) b))) := by
    intro j b hj hb
    rw [hm.compressR R umv.get hj hb, hu2 j b (by omega) hb]
    dsimp only
    rw [hm.expandR R (fun i => v.get (mp.dims.ph * mp.dims.nx + i)) (by omega) hb]
    unfold NlSpec.inputIx
    rw [show min (min (j + 1) (mp.dims.ph - 1)) (mp.dims.ch - 1) = min (j + 1) (mp.dims.ch - 1) by omega]
  refine Post.bind (Q := fun g' => g'.size = mp.dims.nZ ∧
    (∀ p, p < mp.dims.ph * mp.dims.nx → g'.get p = g.get p) ∧
    ∀ i, i < mp.dims.nu * mp.dims.ch → g'.get (mp.dims.ph * mp.dims.nx + i)
      = sumToR R.rnd mp.Iu2z.cols (fun k => R.rnd (R.rnd (mp.Iu2z.get i k) * umv.get k))) ?_ ?_
  · refine forRange_post _ _ _ (fun m (g' : Vec K) => g'.size = mp.dims.nZ ∧
      (∀ p, p < mp.dims.ph * mp.dims.nx → g'.get p = g.get p) ∧
      ∀ i, i < m → g'.get (mp.dims.ph * mp.dims.nx + i)
        = sumToR R.rnd mp.Iu2z.cols (fun k => R.rnd (R.rnd (mp.Iu2z.get i k) * umv.get k)))
      ⟨hg1, fun _ _ => rfl, fun i hi => by omega⟩ ?_
    rintro m g' hmm ⟨q1, q2, q3⟩
    rw [Vec.at_ok (by dsimp only; rw [hm.iu_rows]; exact hmm), ok_bind,
      Vec.set_ok (by rw [q1]; unfold Dims.nZ; omega)]
    refine post_ok ⟨q1, ?_, ?_⟩
    · intro p hp
      unfold Vec.setRaw
      dsimp only
      rw [if_neg (by omega)]
      exact q2 p hp
    · intro i hi
      unfold Vec.setRaw
      dsimp only
      by_cases h : i = m
      · subst h; rw [if_pos rfl]
      · rw [if_neg (by omega)]
        exact q3 i (by omega)
  · rintro g' ⟨q1, q2, q3⟩
    rw [Vec.set_ok (by rw [q1]; unfold Dims.nZ; omega)]
    refine post_ok ⟨q1, ?_, ?_, ?_⟩
    · intro k a hk ha
      have := block_lt (n := mp.dims.ph) ha hk
      unfold Vec.setRaw
      dsimp only
      rw [if_neg (by unfold NlSpec.stateIx; omega), q2 _ (by unfold NlSpec.stateIx; exact this)]
      exact hg2 k a hk ha
    · intro j b hj hb
      have := block_lt (n := mp.dims.ch) hb hj
      unfold Vec.setRaw
      dsimp only
      rw [if_neg (by unfold NlSpec.inputIx; omega)]
      unfold NlSpec.inputIx
      rw [q3 _ (by omega)]
      exact hres j b hj hb
    · unfold Vec.setRaw
      dsimp only
      rw [if_pos (by unfold NlSpec.slackIx; omega)]

theorem prepareR_start {d : Dims} {o : NlOpt K} {mp : Mapping K} (hm : mp.Good) (hd : mp.dims = d) (junk : Nat → K)
    {x0 u0 : Vec K} (hx : x0.size = d.nx) (hu : u0.size = d.nu) (ho : o.optVector.size = d.nZ) :
    Post (prepareR R.rnd o d mp junk x0 u0) (fun r => r.1.size = d.nZ ∧
      (∀ p, p < d.nZ → r.1.get p
        = (if o.first || !o.warm then NlCtl.cold d x0.get u0.get o.optVector.get else o.optVector.get) p) ∧
      ShiftR R.rnd d mp.inputScaling.get o.currentSlack r.1 r.2) := by
  unfold prepareR
  by_cases hc : (o.first || !o.warm) = true
  · rw [if_pos hc, if_pos hc]
    refine Post.bind (coldFill_post hx hu ho) ?_
    rintro v ⟨h1, h2, h3, h4⟩
    refine Post.bind (shiftedR_post R hm hd junk o.currentSlack h1) ?_
    intro g hg
    exact post_pure ⟨h1, fun p hp => cold_get h2 h3 h4 hp, hg⟩
  · rw [if_neg hc, if_neg hc, ok_bind]
    refine Post.bind (shiftedR_post R hm hd junk o.currentSlack ho) ?_
    intro g hg
    exact post_pure ⟨ho, fun _ _ => rfl, hg⟩

/-- without rounding, the starting point is that of `prepare` -/
theorem prepareR_id (o : NlOpt K) (d : Dims) (mp : Mapping K) (junk : Nat → K) (x0 u0 : Vec K) :
    o.prepareR id d mp junk x0 u0 = o.prepare d mp junk x0 u0 := by
  have hs : ∀ n (f : Nat → K), sumToR id n f = sumTo n f := by
    intro n f
    induction n with
    | zero => rfl
    | succ n ih => rw [sumToR, ih]; rfl
  have hm : ∀ (m : Mat K) (v : Vec K), m.mulVecR id v = m.mulVec v := by
    intro m v
    unfold Mat.mulVecR Mat.mulVec
    simp only [id, hs]
  unfold prepareR prepare shiftedR shifted
  simp only [hm]
  rfl

end NlOpt
end Mpc
