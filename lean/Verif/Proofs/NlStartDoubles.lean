import Verif.Model.NlStartDoubles
import Verif.Spec.NlStartDoubles
import Verif.Proofs.NlDoubles
import Verif.Proofs.NlGuess
import Verif.Proofs.NlRun

/-
The starting point of the nonlinear solver on `double`s.
-/
namespace Mpc
open Exec NlSpec Dbl
set_option linter.unusedSectionVars false
variable {K : Type} [Field K] [LinearOrder K] [IsStrictOrderedRing K]

namespace Dbl

theorem one_div_zero : (Flt.fin (1 : K)).divBy 0 = .num .posInf := by
  change (if (0 : K) = 0 then (if (1 : K) = 0 then Flt.nan else if (0 : K) < 1 then .num .posInf else .num .negInf) else _) = _
  rw [if_pos rfl, if_neg one_ne_zero, if_pos one_pos]

theorem inf_mul (x : Flt K) : ¬ IsNumber ((Flt.num .posInf : Flt K) * x) := by
  rintro ⟨z, h⟩
  rcases x with _ | (_ | x | _)
  · cases h
  · cases h
  · change Flt.infTimes .posInf x = _ at h
    unfold Flt.infTimes at h
    split_ifs at h <;> cases h
  · cases h

theorem from_collapse {ι κ : Type} [Nonempty ι] {xs : κ → Flt K} {val : (ι × κ → K) → K} {p : Flt K}
    (h : From (fun i : ι × κ => xs i.2) val p) : From xs (fun v => val (fun i => v i.2)) p := by
  obtain ⟨i0⟩ := ‹Nonempty ι›
  exact ⟨fun v hv => h.number _ fun i => hv i.2, fun i hn => h.spoiled (i0, i) hn, fun i hn => h.nan (i0, i) hn⟩

theorem setBlock_getF {m : Mat (Flt K)} {r0 c0 n k b j c : Nat} {src : Nat → Nat → Flt K} (hb : b < n) (hc : c < n) :
    (m.setBlockRaw (r0 * n) (c0 * n) n n src).get (k * n + b) (j * n + c)
      = if k = r0 ∧ j = c0 then src b c else m.get (k * n + b) (j * n + c) := by
  rw [Mat.setBlockRaw_get]
  simp only [block_mem_iff hb, block_mem_iff hc]
  by_cases he : k = r0 ∧ j = c0
  · obtain ⟨rfl, rfl⟩ := he
    simp
  · rw [if_neg he, if_neg he]

/-- the matrix which compresses the inputs -/
theorem computeIu2zF_post (d : Dims) (s : Vec K) (h0 : 0 < d.ch) (hle : d.ch ≤ d.ph) (hp : d.ph < 2 ^ 31) (hs : s.size = d.nu) :
    Post (Mapping.computeIu2zF d s) (fun Iu => Iu.rows = d.nu * d.ch ∧ Iu.cols = d.ph * d.nu ∧
      ∀ k b j c, k < d.ph → b < d.nu → j < d.ch → c < d.nu →
        Iu.get (j * d.nu + c) (k * d.nu + b) = if j = k ∧ b = c then (Flt.fin 1).divBy (s.get b) else 0) := by
  unfold Mapping.computeIu2zF
  refine Post.bind (Q := fun S : Mat (Flt K) => S.rows = d.nu ∧ S.cols = d.nu ∧
    ∀ b c, b < d.nu → c < d.nu → S.get b c = if b = c then (Flt.fin 1).divBy (s.get b) else 0) ?_ ?_
  · refine (forRange_post d.nu _ _ (fun i (S : Mat (Flt K)) => S.rows = d.nu ∧ S.cols = d.nu ∧
      ∀ b c, b < d.nu → c < d.nu → S.get b c = if b = c ∧ b < i then (Flt.fin 1).divBy (s.get b) else 0) ?_ ?_).mono ?_
    · refine ⟨rfl, rfl, ?_⟩
      intro b c _ _
      rw [if_neg (by omega)]; rfl
    · rintro i S hi ⟨h1, h2, h3⟩
      rw [Vec.at_ok (by omega), ok_bind, Mat.set_ok (by omega) (by omega)]
      refine post_ok ⟨h1, h2, ?_⟩
      intro b c hb hc
      simp only [Mat.setRaw]
      by_cases hbi : b = i ∧ c = i
      · obtain ⟨rfl, rfl⟩ := hbi; simp
      · rw [if_neg hbi, h3 b c hb hc]
        congr 1; apply propext; constructor
        · rintro ⟨rfl, h⟩; exact ⟨rfl, by omega⟩
        · rintro ⟨rfl, h⟩; exact ⟨rfl, by omega⟩
    · rintro S ⟨h1, h2, h3⟩
      refine ⟨h1, h2, ?_⟩
      intro b c hb hc
      rw [h3 b c hb hc]; simp [hb]
  · rintro S ⟨hs1, hs2, hs3⟩
    refine Post.bind (forRange_post d.ch _ _ (fun i r => r.1 = i * d.nu ∧
      r.2.1 = (if i = d.ch then d.ph else i) * d.nu ∧ r.2.2.rows = d.nu * d.ch ∧ r.2.2.cols = d.ph * d.nu ∧
      (∀ k b j c, k < d.ph → b < d.nu → j < d.ch → c < d.nu →
        r.2.2.get (j * d.nu + c) (k * d.nu + b) = if j = k ∧ j < i then S.get c b else 0)) ?_ ?_) ?_
    · refine ⟨by simp, ?_, rfl, rfl, ?_⟩
      · dsimp only; rw [if_neg (by omega)]; simp
      · intro k b j c _ _ _ _; rw [if_neg (by omega)]; rfl
    · rintro i ⟨ix, jx, Iu⟩ hi ⟨hix, hjx, h3, h4, h6⟩
      dsimp only at hix hjx h3 h4 h6 ⊢
      rw [if_neg (by omega)] at hjx
      subst hix hjx
      have e1 : i * d.nu + d.nu ≤ d.nu * d.ch := by rw [Nat.mul_comm d.nu]; exact block_end_le hi
      have e2 : i * d.nu + d.nu ≤ d.ph * d.nu := block_end_le (by omega)
      rw [Mat.setBlock_ok (by omega) (by omega) hs1 hs2, ok_bind, Mapping.holdCount_eq h0 hle hp]
      refine post_pure ⟨by dsimp only; ring, ?_, h3, h4, ?_⟩
      · dsimp only
        rw [← Nat.add_mul]
        congr 1
        split_ifs <;> omega
      · intro k b j c hk hb hj hc
        dsimp only
        rw [setBlock_getF hc hb, h6 k b j c hk hb hj hc]
        split_ifs <;> first | rfl | (exfalso; omega)
    · rintro ⟨ix, jx, Iu⟩ ⟨-, -, h3, h4, h6⟩
      dsimp only at h3 h4 h6 ⊢
      refine post_pure ⟨h3, h4, ?_⟩
      intro k b j c hk hb hj hc
      rw [h6 k b j c hk hb hj hc, hs3 c b hc hb]
      by_cases h : j = k ∧ b = c
      · obtain ⟨rfl, rfl⟩ := h; simp [hj]
      · rw [if_neg h]
        by_cases hj' : j = k ∧ j < d.ch
        · rw [if_pos hj', if_neg (fun e => h ⟨hj'.1, e.symm⟩)]
        · rw [if_neg hj']

/-- move blocking: every decision input enters every input of the horizon -/
theorem expand_from {mp : Mapping K} (hm : mp.Good) (w : Nat → Flt K) {k j : Nat} (hk : k < mp.dims.ph)
    (hj : j < mp.dims.ch) (hjk : j = min k (mp.dims.ch - 1)) (b : Fin mp.dims.nu) :
    From (fun i : Fin mp.dims.ch × Fin mp.dims.nu => w (i.1 * mp.dims.nu + i.2))
      (fun v => mp.inputScaling.get b * v (⟨j, hj⟩, b))
      (sumTo mp.Iz2u.cols fun q => Flt.fin (mp.Iz2u.get (k * mp.dims.nu + b) q) * w q) := by
  have hcol : mp.Iz2u.cols = mp.dims.ch * mp.dims.nu := by rw [hm.iz_cols, Nat.mul_comm]
  have hix : ∀ i : Fin mp.dims.ch × Fin mp.dims.nu, (i.1 * mp.dims.nu + i.2 : Nat) < mp.Iz2u.cols := fun i => by
    rw [hcol]; exact block_lt i.2.2 i.1.2
  refine ⟨?_, ?_, ?_⟩
  · intro v hv
    rw [Flt.sum_fin (g := fun q => mp.Iz2u.get (k * mp.dims.nu + b) q * flat v q)]
    · congr 1
      rw [hm.expand (flat v) hk b.2]
      have := flat_block v ⟨j, hj⟩ b
      dsimp only at this
      rw [← hjk, this]
    · intro q hq
      rw [hcol] at hq
      obtain ⟨k', c, hk', hc, rfl⟩ := exists_block hq
      have e := hv (⟨k', hk'⟩, ⟨c, hc⟩)
      dsimp only at e
      rw [e]
      have := flat_block v ⟨k', hk'⟩ ⟨c, hc⟩
      dsimp only at this
      rw [this]; rfl
  · intro i hi hn
    rw [number_sum] at hn
    have := hn _ (hix i)
    rw [number_fin_mul] at this
    exact hi this
  · intro i hi
    refine Flt.sum_nan (hix i) ?_
    rw [hi, Flt.mul_nan]

/-- and every input of the horizon every decision input -/
theorem compress_from {mp : Mapping K} (hm : mp.Good) {Iu : Mat (Flt K)} (hcol : Iu.cols = mp.dims.ph * mp.dims.nu)
    (hIu : ∀ k b j c, k < mp.dims.ph → b < mp.dims.nu → j < mp.dims.ch → c < mp.dims.nu →
        Iu.get (j * mp.dims.nu + c) (k * mp.dims.nu + b) = if j = k ∧ b = c then (Flt.fin 1).divBy (mp.inputScaling.get b) else 0)
    (u : Nat → Flt K) {j : Nat} (hj : j < mp.dims.ch) (hj' : j < mp.dims.ph) (b : Fin mp.dims.nu)
    (hs : mp.inputScaling.get b ≠ 0) :
    From (fun i : Fin mp.dims.ph × Fin mp.dims.nu => u (i.1 * mp.dims.nu + i.2))
      (fun v => 1 / mp.inputScaling.get b * v (⟨j, hj'⟩, b))
      (sumTo Iu.cols fun q => Iu.get (j * mp.dims.nu + b) q * u q) := by
  have hf : ∀ q, q < Iu.cols → Iu.get (j * mp.dims.nu + b) q = Flt.fin (mp.Iu2z.get (j * mp.dims.nu + b) q) := by
    intro q hq
    rw [hcol] at hq
    obtain ⟨k, c, hk, hc, rfl⟩ := exists_block hq
    rw [hIu k c j b hk hc hj b.2, hm.iu k c j b hk hc hj b.2]
    split_ifs with h
    · rw [h.2, divBy_fin hs]
    · rfl
  have hix : ∀ i : Fin mp.dims.ph × Fin mp.dims.nu, (i.1 * mp.dims.nu + i.2 : Nat) < Iu.cols := fun i => by
    rw [hcol]; exact block_lt i.2.2 i.1.2
  refine ⟨?_, ?_, ?_⟩
  · intro v hv
    rw [Flt.sum_fin (g := fun q => mp.Iu2z.get (j * mp.dims.nu + b) q * flat v q)]
    · congr 1
      rw [show Iu.cols = mp.Iu2z.cols by rw [hcol, hm.iu_cols], hm.compress (flat v) hj b.2]
      have := flat_block v ⟨j, hj'⟩ b
      dsimp only at this
      rw [this]
    · intro q hq
      rw [hf q hq]
      rw [hcol] at hq
      obtain ⟨k', c, hk', hc, rfl⟩ := exists_block hq
      have e := hv (⟨k', hk'⟩, ⟨c, hc⟩)
      dsimp only at e
      rw [e]
      have := flat_block v ⟨k', hk'⟩ ⟨c, hc⟩
      dsimp only at this
      rw [this]; rfl
  · intro i hi hn
    rw [number_sum] at hn
    have := hn _ (hix i)
    rw [hf _ (hix i), number_fin_mul] at this
    exact hi this
  · intro i hi
    refine Flt.sum_nan (hix i) ?_
    rw [hf _ (hix i), hi, Flt.mul_nan]

end Dbl

namespace NlOpt

/-- the initial point made from decision vector `v` -/
structure ShiftF (d : Dims) (sc : Nat → K) (slack : Flt K) (v g : Vec (Flt K)) : Prop where
  size : g.size = d.nZ
  state : ∀ k a, k < d.ph → a < d.nx →
    g.get (NlSpec.stateIx d k a) = v.get (NlSpec.stateIx d (min (k + 1) (d.ph - 1)) a)
  input : ∀ (j j' : Fin d.ch) (b : Fin d.nu), (j' : Nat) = min (j + 1 : Nat) (d.ch - 1) → sc b ≠ 0 →
    From (fun i : Fin d.ch × Fin d.nu => v.get (NlSpec.inputIx d i.1 i.2)) (fun w => w (j', b)) (g.get (NlSpec.inputIx d j b))
  zero : ∀ (j : Fin d.ch) (b : Fin d.nu), sc b = 0 → ¬ IsNumber (g.get (NlSpec.inputIx d j b))
  slack : g.get (NlSpec.slackIx d) = slack

theorem shiftedF_post {d : Dims} {mp : Mapping K} (hm : mp.Good) (hd : mp.dims = d) (hp : d.ph < 2 ^ 31) (junk : Nat → Flt K)
    (slack : Flt K) {v : Vec (Flt K)} (hv : v.size = d.nZ) :
    Post (shiftedF d mp junk slack v) (ShiftF d mp.inputScaling.get slack v) := by
  subst hd
  have hch := hm.ch_pos
  have hle := hm.ch_le
  have hcomm : mp.dims.nu * mp.dims.ch = mp.dims.ch * mp.dims.nu := Nat.mul_comm _ _
  unfold shiftedF
  refine Post.bind (Dbl.computeIu2zF_post mp.dims mp.inputScaling hch hle hp hm.insz) ?_
  rintro Iu ⟨hI1, hI2, hI3⟩
  dsimp only
  refine Post.bind (shiftInto_post (N := mp.dims.nZ) (by rw [hv]; unfold Dims.nZ; omega) rfl
    (by unfold Dims.nZ; omega)) ?_
  rintro g ⟨hg1, hg2, -⟩
  rw [Vec.seg_ok (by rw [hv]; unfold Dims.nZ; omega), ok_bind, Mat.mulVec_ok (by exact hm.iz_cols), ok_bind]
  refine Post.bind (shiftInto_post (n := mp.dims.ph) (s := mp.dims.nu) (N := mp.dims.ph * mp.dims.nu)
    (by simp only [Mat.map]; rw [hm.iz_rows]) rfl le_rfl) ?_
  rintro umv ⟨hu1, hu2, -⟩
  rw [Mat.mulVec_ok (by rw [hI2, hu1]), ok_bind]
  dsimp only at hu2
  have humv : ∀ (i : Fin mp.dims.ph × Fin mp.dims.nu), From
      (fun l : Fin mp.dims.ch × Fin mp.dims.nu => v.get (NlSpec.inputIx mp.dims l.1 l.2))
      (fun w => mp.inputScaling.get i.2 * w (⟨min (i.1 + 1 : Nat) (mp.dims.ch - 1), by omega⟩, i.2))
      (umv.get (i.1 * mp.dims.nu + i.2)) := by
    rintro ⟨k, b⟩
    dsimp only
    rw [hu2 k b k.2 b.2]
    have hk := k.2
    refine From.congr (Dbl.expand_from hm (fun q => v.get (mp.dims.ph * mp.dims.nx + q)) (k := min (k + 1 : Nat) (mp.dims.ph - 1))
      (j := min (k + 1 : Nat) (mp.dims.ch - 1)) (by omega) (by omega) (by omega) b) ?_ ?_
    · intro i; rfl
    · intro w; rfl
  refine Post.bind (Q := fun g' : Vec (Flt K) => g'.size = mp.dims.nZ ∧
    (∀ p, p < mp.dims.ph * mp.dims.nx → g'.get p = g.get p) ∧
    ∀ i, i < mp.dims.nu * mp.dims.ch → g'.get (mp.dims.ph * mp.dims.nx + i)
      = sumTo Iu.cols (fun k => Iu.get i k * umv.get k)) ?_ ?_
  · refine forRange_post _ _ _ (fun m (g' : Vec (Flt K)) => g'.size = mp.dims.nZ ∧
      (∀ p, p < mp.dims.ph * mp.dims.nx → g'.get p = g.get p) ∧
      ∀ i, i < m → g'.get (mp.dims.ph * mp.dims.nx + i)
        = sumTo Iu.cols (fun k => Iu.get i k * umv.get k))
      ⟨hg1, fun _ _ => rfl, fun i hi => by omega⟩ ?_
    rintro m g' hmm ⟨q1, q2, q3⟩
    rw [Vec.at_ok (by dsimp only; rw [hI1]; exact hmm), ok_bind,
      Vec.set_ok (by rw [q1]; unfold Dims.nZ; omega)]
    refine post_ok ⟨q1, ?_, ?_⟩
    · intro p hp
      unfold Vec.setRaw
      dsimp only
      rw [if_neg (by omega)]
      exact q2 p hp
    · intro i hi
      unfold Vec.setRaw
      dsimp only
      by_cases h : i = m
      · subst h; rw [if_pos rfl]
      · rw [if_neg (by omega)]
        exact q3 i (by omega)
  · rintro g' ⟨q1, q2, q3⟩
    rw [Vec.set_ok (by rw [q1]; unfold Dims.nZ; omega)]
    have hin : ∀ (j : Fin mp.dims.ch) (b : Fin mp.dims.nu),
        (g'.setRaw (mp.dims.ph * mp.dims.nx + mp.dims.nu * mp.dims.ch + 1 - 1) slack).get (NlSpec.inputIx mp.dims j b)
          = sumTo Iu.cols (fun k => Iu.get (j * mp.dims.nu + b) k * umv.get k) := by
      intro j b
      have := block_lt (n := mp.dims.ch) b.2 j.2
      unfold Vec.setRaw
      dsimp only
      rw [if_neg (by unfold NlSpec.inputIx; omega)]
      unfold NlSpec.inputIx
      rw [q3 _ (by omega)]
    refine post_ok ⟨q1, ?_, ?_, ?_, ?_⟩
    · intro k a hk ha
      have := block_lt (n := mp.dims.ph) ha hk
      unfold Vec.setRaw
      dsimp only
      rw [if_neg (by unfold NlSpec.stateIx; omega), q2 _ (by unfold NlSpec.stateIx; exact this)]
      exact hg2 k a hk ha
    · intro j j' b hj' hs
      rw [hin j b]
      have h1 := Dbl.compress_from hm hI2 hI3 umv.get j.2 (show (j : Nat) < mp.dims.ph by have := j.2; omega) b hs
      have h2 := NlSpec.From.trans humv h1
      haveI : Nonempty (Fin mp.dims.ph × Fin mp.dims.nu) := ⟨(⟨0, by omega⟩, b)⟩
      refine From.congr (Dbl.from_collapse h2) (fun _ => rfl) ?_
      intro w
      dsimp only
      rw [← mul_assoc, one_div_mul_cancel hs, one_mul]
      congr 1
      exact Prod.ext (Fin.ext hj') rfl
    · intro j b hs
      rw [hin j b, Dbl.number_sum]
      intro hh
      have hq : (j * mp.dims.nu + b : Nat) < Iu.cols := by rw [hI2]; exact block_lt b.2 (by have := j.2; omega)
      have := hh _ hq
      rw [hI3 j b j b (by have := j.2; omega) b.2 j.2 b.2, if_pos ⟨rfl, rfl⟩, hs, Dbl.one_div_zero] at this
      exact Dbl.inf_mul _ this
    · unfold Vec.setRaw
      dsimp only
      rw [if_pos (by unfold NlSpec.slackIx; omega)]

end NlOpt

theorem NlMpc.startF_post {d : Dims} {m : NlMpc d K} (hm : m.s.mp.Good) (hd : m.s.mp.dims = d) (hp : d.ph < 2 ^ 31)
    {last x0 u0 : Vec (Flt K)} {slack : Flt K} (junk : Nat → Flt K) (hl : last.size = d.nZ) (hx : x0.size = d.nx)
    (hu : u0.size = d.nu) :
    Post (m.startF last slack x0 u0 junk)
      (StartF d m.s.mp.inputScaling.get (m.o.first || !m.o.warm) x0.get u0.get last.get slack) := by
  unfold NlMpc.startF
  by_cases hc : (m.o.first || !m.o.warm) = true
  · rw [if_pos hc, hc]
    refine Post.bind (NlOpt.coldFill_post hx hu hl) ?_
    rintro v ⟨h1, h2, h3, -⟩
    refine (NlOpt.shiftedF_post hm hd hp junk slack h1).mono ?_
    intro g hg
    have hch := hm.ch_pos
    have hle := hm.ch_le
    rw [hd] at hch hle
    refine ⟨hg.size, ?_, ?_, hg.zero, hg.slack⟩
    · intro k a hk ha
      rw [hg.state k a hk ha, h2 _ a (by omega) ha, if_pos rfl]
    · intro j j' b hj hs
      refine From.congr (hg.input j j' b hj hs) ?_ (fun _ => rfl)
      rintro ⟨i, c⟩
      rw [if_pos rfl]
      exact (h3 i c i.2 c.2).symm
  · rw [if_neg hc, ok_bind, Bool.not_eq_true _ |>.mp hc]
    refine (NlOpt.shiftedF_post hm hd hp junk slack hl).mono ?_
    intro g hg
    exact ⟨hg.size, fun k a hk ha => by rw [hg.state k a hk ha]; rfl, hg.input, hg.zero, hg.slack⟩

end Mpc
