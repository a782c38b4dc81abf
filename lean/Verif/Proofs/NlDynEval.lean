import Verif.Proofs.NlEval

/-
The state-equation constraints in terms of the configuration, and for affine models.
-/
namespace Mpc
open Exec
set_option linter.unusedSectionVars false

variable {d : Dims} {K : Type} [Field K] [LinearOrder K] [IsStrictOrderedRing K]

theorem Vec.ofF_get' {n : Nat} (f : FVec n K) {i : Nat} (h : i < n) : (Vec.ofF f).get i = f ⟨i, h⟩ := by
  simp [Vec.ofF, h]

namespace Constraints

/-- residual in terms of sequences -/
theorem resid_eq (F : FVec d.nx K → FVec d.nu K → Nat → FVec d.nx K) (cont : Bool) (Ts : K) (X U : Mat K)
    {TX : Traj (d.ph + 1) d.nx K} {TU : Traj (d.ph + 1) d.nu K} (hX : X.viewF (d.ph + 1) d.nx = TX)
    (hU : U.viewF (d.ph + 1) d.nu = TU) (k : Fin d.ph) (a : Fin d.nx) :
    resid F cont Ts X U k a = if cont then
        TX k.castSucc a + Ts / 2 * (F (TX k.castSucc) (TU k.castSucc) k a + F (TX k.succ) (TU k.castSucc) k a)
          - TX k.succ a
      else TX k.succ a - F (TX k.castSucc) (TU k.castSucc) k a := by
  subst hX hU
  unfold resid
  rw [Vec.ofF_get, Vec.ofF_get]
  rfl

end Constraints

namespace NlState

theorem evalDyn_post {s : NlState d K} {c : NlSpec.Cfg d K} (h : s.Holds c) (hp : d.ph < 2 ^ 31)
    {F : FVec d.nx K → FVec d.nu K → Nat → FVec d.nx K} (hf : c.field = some F) (z : Vec K) (hz : z.size = d.nZ)
    (g : Bool) (junk : Nat → K) :
    Post (s.evalDyn z g junk) (fun r => r.1.value.size = d.ph * d.nx ∧ r.1.grad.size = d.nZ * (d.ph * d.nx) ∧
      ∃ X U : Mat K, X.Is (d.ph + 1) d.nx ∧ U.Is (d.ph + 1) d.nu ∧
        X.viewF (d.ph + 1) d.nx = NlSpec.codeStates d c.stScale s.con.x0.get z.get ∧
        U.viewF (d.ph + 1) d.nu = NlSpec.inputs d c.inScale z.get ∧
      (∀ k a, k < d.ph → a < d.nx → r.1.value.get (k * d.nx + a)
        = Constraints.resid F c.cont c.Ts X U k a / c.stScale a) ∧
      (g = true →
        (∀ k r' k' a, k < d.ph → r' < d.nx → k' < d.ph → a < d.nx →
          r.1.grad.get ((k * d.nx + r') * d.nZ + NlSpec.stateIx d k' a)
            = if k' = k then Constraints.blkQ F c.cont c.Ts c.stScale s.mp.invStateScaling.get X U k r' a
              else if k' + 1 = k then Constraints.blkP F c.cont c.Ts c.stScale s.mp.invStateScaling.get X U k r' a
              else 0) ∧
        (∀ k r' j b, k < d.ph → r' < d.nx → j < d.ch → b < d.nu →
          r.1.grad.get ((k * d.nx + r') * d.nZ + NlSpec.inputIx d j b)
            = c.inScale b * if min k (d.ch - 1) = j
                then Constraints.blkR F c.cont c.Ts s.mp.invStateScaling.get X U k r' b else 0) ∧
        (∀ k r', k < d.ph → r' < d.nx →
          r.1.grad.get ((k * d.nx + r') * d.nZ + NlSpec.slackIx d) = 0))) := by
  unfold evalDyn
  have hf' : s.M.vectorField = some fun _ => F := by rw [h.field, hf]; rfl
  refine Post.bind (Constraints.evaluateStateModelEq_post s.con h.csz s.mp h.good h.dims s.M _ hf' F
    (fun _ _ _ _ => rfl) junk z hz hp g) ?_
  rintro ⟨r, o⟩ ⟨-, -, h1⟩
  rw [h.stS, h.inS, h.cont, h.Ts] at h1
  exact post_pure h1

end NlState

namespace NlSpec

theorem sum_bumpV {n : Nat} (A : Nat → K) (x : FVec n K) {j : Nat} (hj : j < n) (t : K) :
    ∑ a : Fin n, A a * bumpV x j t a = ∑ a : Fin n, A a * x a + A j * t := by
  have : ∀ a : Fin n, A a * bumpV x j t a = A a * x a + A a * (if (a : Nat) = j then t else 0) := by
    intro a; unfold bumpV; split_ifs <;> ring
  rw [Finset.sum_congr rfl fun a _ => this a, Finset.sum_add_distrib]
  congr 1
  rw [Finset.sum_eq_single (⟨j, hj⟩ : Fin n)]
  · simp
  · intro a _ ha; rw [if_neg (fun h => ha (Fin.ext h)), mul_zero]
  · intro h; exact absurd (Finset.mem_univ _) h

variable {F : FVec d.nx K → FVec d.nu K → Nat → FVec d.nx K} {c : Nat → Nat → K} {A B : Nat → Nat → Nat → K}

theorem AffineModel.dqX (h : AffineModel F c A B) (x u : Vec K) (p : Nat) {r a : Nat} (hr : r < d.nx)
    (ha : a < d.nx) : Constraints.dqX F x u p r a = A p r a := by
  unfold Constraints.dqX
  have hs : 0 < Constraints.dv * x.absMax1.get a := mul_pos Constraints.dv_pos (Vec.absMax1_pos x a)
  rw [Vec.ofF_get' _ hr, Vec.ofF_get' _ hr, h, h, sum_bumpV (fun i => A p r i) _ ha, sum_bumpV (fun i => A p r i) _ ha,
    div_eq_iff (by have := hs.ne'; simpa using this)]
  dsimp only
  ring

theorem AffineModel.dqU (h : AffineModel F c A B) (x u : Vec K) (p : Nat) {r b : Nat} (hr : r < d.nx)
    (hb : b < d.nu) : Constraints.dqU F x u p r b = B p r b := by
  unfold Constraints.dqU
  have hs : 0 < Constraints.dv * u.absMax1.get b := mul_pos Constraints.dv_pos (Vec.absMax1_pos u b)
  rw [Vec.ofF_get' _ hr, Vec.ofF_get' _ hr, h, h, sum_bumpV (fun i => B p r i) _ hb, sum_bumpV (fun i => B p r i) _ hb,
    div_eq_iff (by have := hs.ne'; simpa using this)]
  dsimp only
  ring

theorem AffineModel.sub (h : AffineModel F c A B) (x x' : FVec d.nx K) (u u' : FVec d.nu K) (k : Nat) (r : Fin d.nx) :
    F x' u' k r - F x u k r = ∑ a : Fin d.nx, A k r a * (x' a - x a) + ∑ b : Fin d.nu, B k r b * (u' b - u b) := by
  rw [h, h]
  simp only [mul_sub, Finset.sum_sub_distrib]
  ring

/-- change of a row of the state sequence -/
theorem codeStates_sub_succ (d : Dims) (s x0 z z' : Nat → K) (k : Fin d.ph) (a : Fin d.nx) :
    codeStates d s x0 z' k.succ a - codeStates d s x0 z k.succ a
      = s a * (z' (stateIx d k a) - z (stateIx d k a)) := by
  simp only [codeStates, Fin.val_succ, Nat.succ_ne_zero, if_false, Nat.add_sub_cancel]
  ring

theorem codeStates_sub_cast (d : Dims) (s x0 z z' : Nat → K) (k : Fin d.ph) (a : Fin d.nx) :
    codeStates d s x0 z' k.castSucc a - codeStates d s x0 z k.castSucc a
      = if (k : Nat) = 0 then 0 else s a * (z' (stateIx d (k - 1) a) - z (stateIx d (k - 1) a)) := by
  simp only [codeStates, Fin.val_castSucc]
  split_ifs <;> ring

theorem inputs_sub (d : Dims) (s z z' : Nat → K) (k : Fin (d.ph + 1)) (b : Fin d.nu) :
    inputs d s z' k b - inputs d s z k b
      = s b * (z' (inputIx d (min k (d.ch - 1)) b) - z (inputIx d (min k (d.ch - 1)) b)) := by
  simp only [inputs, inputAt]; ring

end NlSpec
end Mpc
