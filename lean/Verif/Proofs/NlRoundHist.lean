import Verif.Proofs.NlRoundCalls
import Verif.Proofs.NlRoundDyn
import Verif.Proofs.NlDetermined

/-
Rounded evaluations in terms of the configuration: their results, and the fact that they leave the configuration alone.
-/
namespace Mpc
open Exec
set_option linter.unusedSectionVars false

variable {d : Dims} {K : Type} [Field K] [LinearOrder K] [IsStrictOrderedRing K] (R : Rounding K)

namespace Constraints

theorem dqXR_eq (F : FVec d.nx K → FVec d.nu K → Nat → FVec d.nx K) (x u : Vec K) {tx : FVec d.nx K} {tu : FVec d.nu K}
    (hx : x.viewF d.nx = tx) (hu : u.viewF d.nu = tu) (k : Nat) (r a : Fin d.nx) :
    dqXR R F x u k r a = NlSpec.quotXR R.rnd dv F tx tu k r a := by
  subst hx hu
  unfold dqXR NlSpec.quotXR
  rw [Vec.ofF_get, Vec.ofF_get]
  rfl

theorem dqUR_eq (F : FVec d.nx K → FVec d.nu K → Nat → FVec d.nx K) (x u : Vec K) {tx : FVec d.nx K} {tu : FVec d.nu K}
    (hx : x.viewF d.nx = tx) (hu : u.viewF d.nu = tu) (k : Nat) (r : Fin d.nx) (b : Fin d.nu) :
    dqUR R F x u k r b = NlSpec.quotUR R.rnd dv F tx tu k r b := by
  subst hx hu
  unfold dqUR NlSpec.quotUR
  rw [Vec.ofF_get, Vec.ofF_get]
  rfl

theorem residR_eq (F : FVec d.nx K → FVec d.nu K → Nat → FVec d.nx K) (cont : Bool) (Ts : K) (X U : Mat K)
    {TX : Traj (d.ph + 1) d.nx K} {TU : Traj (d.ph + 1) d.nu K} (hX : X.viewF (d.ph + 1) d.nx = TX)
    (hU : U.viewF (d.ph + 1) d.nu = TU) (s : Nat → K) (k : Fin d.ph) (a : Fin d.nx) :
    R.rnd (residR R F cont Ts X U k a / s a) = NlSpec.residualR R.rnd cont Ts s F TX TU k a := by
  subst hX hU
  unfold residR NlSpec.residualR
  rw [Vec.ofF_get, Vec.ofF_get]
  rfl

theorem evaluateStateModelEqR_needs_model (o : Constraints d K) (mp : Mapping K) (M : NlModel d K)
    (hM : M.vectorField = none) (junk : Nat → K)
    (x : Vec K) (g : Bool) {r : ConCost K × Constraints d K} (h : o.evaluateStateModelEqR R.rnd mp M junk x g = .ok r) :
    d.ph = 0 := by
  have hcall : ∀ (buf : FVec d.nx K) x u p, M.callState buf x u p = .error .cppThrow := by
    intro buf x u p
    unfold NlModel.callState
    rw [hM]
  unfold evaluateStateModelEqR at h
  dsimp only at h
  obtain ⟨w, -, h⟩ := bind_eq_ok.1 h
  obtain ⟨v, hv, -⟩ := bind_eq_ok.1 h
  unfold getStateEqConstraintsR at hv
  dsimp only at hv
  obtain ⟨t, ht, -⟩ := bind_eq_ok.1 hv
  have := forFrom_inv (fun i _ => i = 0) rfl ?_ ht
  · simpa using this
  · intro i t t' _ _ _ hs
    exfalso
    split_ifs at hs
    · unfold stepContinuousR at hs
      dsimp only at hs
      obtain ⟨_, _, hs⟩ := bind_eq_ok.1 hs
      obtain ⟨_, _, hs⟩ := bind_eq_ok.1 hs
      obtain ⟨_, _, hs⟩ := bind_eq_ok.1 hs
      rw [hcall] at hs
      cases hs
    · unfold stepDiscreteR at hs
      dsimp only at hs
      obtain ⟨_, _, hs⟩ := bind_eq_ok.1 hs
      obtain ⟨_, _, hs⟩ := bind_eq_ok.1 hs
      rw [hcall] at hs
      cases hs

end Constraints

namespace NlState
variable {R}

theorem evalObjR_post (he : R.eps ≤ 1 / 8) {s : NlState d K} {c : NlSpec.Cfg d K} (h : s.Holds c) (hp : d.ph < 2 ^ 31) {f : ObjFn d K}
    (hf : c.obj = some f) (z : Vec K) (hz : z.size = d.nZ) (g : Bool)
    {X : Traj (d.ph + 1) d.nx K} {U : Traj (d.ph + 1) d.nu K} (hX : X = NlSpec.codeStatesR R.rnd d c.stScale s.obj.x0.get z.get)
    (hU : U = NlSpec.inputsR R.rnd d c.inScale z.get) :
    Post (s.evalObjR R.rnd z g) (fun r => r.2.Holds c ∧
      r.1.value = NlSpec.costOf f c.out X U (z.get (NlSpec.slackIx d)) ∧
      (if g then ∃ G gx gu ge, r.1.grad = some G ∧ G.size = d.nZ ∧
        NlSpec.ObjDiffR R d (NlSpec.costOf f c.out) X U (z.get (NlSpec.slackIx d))
          (fun a => stepR R (1 / 1000000) (NlSpec.linear X a)) (fun b => stepR R (1 / 1000000) (NlSpec.linear U b))
          (slackR R (1 / 1000000) (z.get (NlSpec.slackIx d)))
          (NlSpec.driftX R X fun _ a => stepR R (1 / 1000000) (NlSpec.linear X a))
          (NlSpec.driftU R U fun _ b => stepR R (1 / 1000000) (NlSpec.linear U b)) gx gu ge ∧
        NlSpec.RowOfR R.rnd d false c.stScale c.inScale gx gu ge G.get
       else r.1.grad = none)) := by
  subst hX hU
  unfold evalObjR
  refine Post.bind (Objective.evaluateR_post he s.obj h.osz f (h.obj.trans hf) s.mp h.good h.dims s.M z hz hp g) ?_
  rintro ⟨r, o⟩ ⟨k1, k2, k3, h1, h2⟩
  dsimp only at k1 k2 k3 h1 h2 ⊢
  rw [h.out, h.stS, h.inS] at h1 h2
  refine post_pure ⟨⟨h.good, h.dims, h.inS, h.stS, h.cont, h.Ts, h.field, h.out, k2.trans h.obj, h.ineq, h.eq, k1, h.csz,
      fun x hx => by dsimp only; rw [k3]; exact h.ox0 x hx, h.cx0⟩, h1, h2⟩

theorem evalIneqR_post (he : R.eps ≤ 1 / 8) {s : NlState d K} {c : NlSpec.Cfg d K} (h : s.Holds c) (hp : d.ph < 2 ^ 31)
    {F : Traj (d.ph + 1) d.nx K → Traj (d.ph + 1) d.ny K → Traj (d.ph + 1) d.nu K → K → FVec d.ineq K}
    (hf : c.ineq = some F) (z : Vec K) (hz : z.size = d.nZ) (junk : Nat → K)
    {X : Traj (d.ph + 1) d.nx K} {U : Traj (d.ph + 1) d.nu K} (hX : X = NlSpec.codeStatesR R.rnd d c.stScale s.con.x0.get z.get)
    (hU : U = NlSpec.inputsR R.rnd d c.inScale z.get) :
    Post (s.evalIneqR R.rnd z junk) (fun r => r.2.Holds c ∧ r.1.value.size = d.ineq ∧ r.1.grad.size = d.nZ * d.ineq ∧
      (∀ i : Fin d.ineq, r.1.value.get i = NlSpec.ineqOf F c.out X U (z.get (NlSpec.slackIx d)) i) ∧
      ∃ gx gu ge, NlSpec.ConDiffR R d d.ineq (NlSpec.ineqOf F c.out) X U (z.get (NlSpec.slackIx d))
          (fun _ a => stepR R Constraints.dv (NlSpec.linear X a)) (fun _ b => stepR R Constraints.dv (NlSpec.linear U b))
          (slackR R Constraints.dv (z.get (NlSpec.slackIx d))) false
          (NlSpec.driftX R X fun _ a => stepR R Constraints.dv (NlSpec.linear X a))
          (NlSpec.driftU R U fun _ b => stepR R Constraints.dv (NlSpec.linear U b)) gx gu ge ∧
        ∀ i, i < d.ineq → NlSpec.RowOfR R.rnd d true c.stScale c.inScale (gx i) (gu i) (ge i)
          (fun v => r.1.grad.get (i * d.nZ + v))) := by
  subst hX hU
  unfold evalIneqR
  have hf' : s.con.ieqUser = some fun _ => F := by rw [h.ineq, hf]; rfl
  refine Post.bind (Constraints.evaluateIneqR_post he s.con h.csz _ hf' F (fun _ _ _ _ _ => rfl) s.mp h.good h.dims s.M
    junk z hz hp) ?_
  rintro ⟨r, o⟩ ⟨k1, k2, k3, k4, h0, h1, gx, gu, ge, h2, h3⟩
  dsimp only at k1 k2 k3 k4 h0 h1 h2 h3 ⊢
  rw [h.out, h.stS, h.inS] at h1 h2
  obtain ⟨q0, q1⟩ := h3
  rw [h.dims] at q0 q1
  rw [h.stS, h.inS] at q1
  exact post_pure ⟨⟨h.good, h.dims, h.inS, h.stS, h.cont, h.Ts, h.field, h.out, h.obj, k3.trans h.ineq, k4.trans h.eq, h.osz,
    k1, h.ox0, fun x hx => by dsimp only; rw [k2]; exact h.cx0 x hx⟩, h0, q0, h1, gx, gu, ge, h2, q1⟩

theorem evalEqR_post (he : R.eps ≤ 1 / 8) {s : NlState d K} {c : NlSpec.Cfg d K} (h : s.Holds c)
    {F : Traj (d.ph + 1) d.nx K → Traj (d.ph + 1) d.nu K → FVec d.eq K}
    (hf : c.eq = some F) (z : Vec K) (hz : z.size = d.nZ) (junk : Nat → K)
    {X : Traj (d.ph + 1) d.nx K} {U : Traj (d.ph + 1) d.nu K} (hX : X = NlSpec.codeStatesR R.rnd d c.stScale s.con.x0.get z.get)
    (hU : U = NlSpec.inputsR R.rnd d c.inScale z.get) :
    Post (s.evalEqR R.rnd z junk) (fun r => r.2.Holds c ∧ r.1.value.size = d.eq ∧ r.1.grad.size = d.nZ * d.eq ∧
      (∀ i : Fin d.eq, r.1.value.get i = F X U i) ∧
      ∃ gx gu, NlSpec.ConDiffR R d d.eq (fun X U _ => F X U) X U (z.get (NlSpec.slackIx d))
          (fun k a => stepR R Constraints.dv (NlSpec.entry X (k + 1) a))
          (fun _ b => stepR R Constraints.dv (NlSpec.entry U (d.ph - 1) b)) 1 true
          (NlSpec.driftX R X fun k a => stepR R Constraints.dv (NlSpec.entry X (k + 1) a))
          (NlSpec.driftU R U fun _ b => stepR R Constraints.dv (NlSpec.entry U (d.ph - 1) b)) gx gu (fun _ => 0) ∧
        ∀ i, i < d.eq → NlSpec.RowOfR R.rnd d true c.stScale c.inScale (gx i) (gu i) 0
          (fun v => r.1.grad.get (i * d.nZ + v))) := by
  subst hX hU
  unfold evalEqR
  have hf' : s.con.eqUser = some fun _ => F := by rw [h.eq, hf]; rfl
  refine Post.bind (Constraints.evaluateEqR_post he s.con h.csz _ hf' F (fun _ _ _ => rfl) s.mp h.good h.dims junk z hz) ?_
  rintro ⟨r, o⟩ ⟨k1, k2, k3, k4, h0, h1, gx, gu, h2, h3⟩
  dsimp only at k1 k2 k3 k4 h0 h1 h2 h3 ⊢
  rw [h.stS, h.inS] at h1 h2
  obtain ⟨q0, q1⟩ := h3
  rw [h.dims] at q0 q1
  rw [h.stS, h.inS] at q1
  exact post_pure ⟨⟨h.good, h.dims, h.inS, h.stS, h.cont, h.Ts, h.field, h.out, h.obj, k3.trans h.ineq, k4.trans h.eq, h.osz,
    k1, h.ox0, fun x hx => by dsimp only; rw [k2]; exact h.cx0 x hx⟩, h0, q0, h1, gx, gu, h2, q1⟩

theorem evalDynR_post {s : NlState d K} {c : NlSpec.Cfg d K} (h : s.Holds c) (hp : d.ph < 2 ^ 31)
    {F : FVec d.nx K → FVec d.nu K → Nat → FVec d.nx K} (hf : c.field = some F) (z : Vec K) (hz : z.size = d.nZ)
    (g : Bool) (junk : Nat → K)
    {X : Traj (d.ph + 1) d.nx K} {U : Traj (d.ph + 1) d.nu K} (hX : X = NlSpec.codeStatesR R.rnd d c.stScale s.con.x0.get z.get)
    (hU : U = NlSpec.inputsR R.rnd d c.inScale z.get) :
    Post (s.evalDynR R.rnd z g junk) (fun q => q.2.Holds c ∧ q.1.value.size = d.ph * d.nx ∧ q.1.grad.size = d.nZ * (d.ph * d.nx) ∧
      ∀ (k : Fin d.ph) (r : Fin d.nx), q.1.value.get (k * d.nx + r) = NlSpec.residualR R.rnd c.cont c.Ts c.stScale F X U k r ∧
        (g = true → NlSpec.DynRowR R.rnd d Constraints.dv c.cont c.Ts c.stScale c.inScale F X U k r
          (fun v => q.1.grad.get ((k * d.nx + r) * d.nZ + v)))) := by
  unfold evalDynR
  have hf' : s.M.vectorField = some fun _ => F := by rw [h.field, hf]; rfl
  refine Post.bind (Constraints.evaluateStateModelEqR_post R s.con h.csz s.mp h.good h.dims s.M _ hf' F
    (fun _ _ _ _ => rfl) junk z hz hp g) ?_
  rintro ⟨q, o⟩ ⟨k1, k2, k3, k4, h1⟩
  dsimp only at k1 k2 k3 k4
  rw [h.stS, h.inS, h.cont, h.Ts, ← hX, ← hU] at h1
  obtain ⟨h1, h2, X', U', -, -, hX', hU', hv, hg⟩ := h1
  dsimp only at h1 h2 hv hg
  refine post_pure ⟨⟨h.good, h.dims, h.inS, h.stS, h.cont, h.Ts, h.field, h.out, h.obj, k3.trans h.ineq, k4.trans h.eq, h.osz,
    k1, h.ox0, fun x hx => by dsimp only; rw [k2]; exact h.cx0 x hx⟩, h1, h2, fun k r => ⟨?_, ?_⟩⟩
  · rw [hv k r k.2 r.2, Constraints.residR_eq R F c.cont c.Ts X' U' hX' hU']
  · intro hgt
    obtain ⟨g1, g2, g3⟩ := hg hgt
    have hinv : (s.mp.invStateScalingR R.rnd).get r = R.rnd (1 / c.stScale r) := by
      show R.rnd (s.mp.invStateScaling.get r) = _
      rw [h.good.inv r (by rw [h.dims]; exact r.2), h.stS]
    have hx0 := Constraints.rowV_view hX' k.castSucc
    have hx1 := Constraints.rowV_view hX' k.succ
    have hu0 := Constraints.rowV_view hU' k.castSucc
    simp only [Fin.val_castSucc, Fin.val_succ] at hx0 hx1 hu0
    refine ⟨?_, ?_, g3 k r k.2 r.2⟩
    · intro k' a hk'
      rw [g1 k r k' a k.2 r.2 hk' a.2]
      unfold Constraints.blkQR Constraints.blkPR NlSpec.residualNextR NlSpec.residualPrevR
      rw [Constraints.dqXR_eq R F _ _ hx1 hu0, Constraints.dqXR_eq R F _ _ hx0 hu0, hinv]
      simp only [Fin.ext_iff]
    · intro j b hj
      rw [g2 k r j b k.2 r.2 hj b.2]
      unfold Constraints.blkRR NlSpec.residualInputR
      rw [Constraints.dqUR_eq R F _ _ hx1 hu0, Constraints.dqUR_eq R F _ _ hx0 hu0, hinv]

theorem evalObjR_holds (he : R.eps ≤ 1 / 8) {s : NlState d K} {c : NlSpec.Cfg d K} (h : s.Holds c) (hp : d.ph < 2 ^ 31) {z : Vec K}
    (hz : z.size = d.nZ) {g : Bool} {r : ObjCost K × NlState d K} (hr : s.evalObjR R.rnd z g = .ok r) : r.2.Holds c := by
  cases hf : c.obj with
  | none =>
    exfalso
    rw [← h.obj] at hf
    unfold evalObjR at hr
    obtain ⟨q, hq, -⟩ := bind_eq_ok.1 hr
    unfold Objective.evaluateR at hq
    dsimp only at hq
    obtain ⟨w, -, hq⟩ := bind_eq_ok.1 hq
    rw [hf] at hq
    obtain ⟨v, hv, -⟩ := bind_eq_ok.1 hq
    unfold Objective.callObj at hv
    obtain ⟨Y, -, hv⟩ := bind_eq_ok.1 hv
    cases hv
  | some f => exact ((evalObjR_post he h hp hf z hz g rfl rfl).of_eq hr).1

theorem evalIneqR_holds (he : R.eps ≤ 1 / 8) {s : NlState d K} {c : NlSpec.Cfg d K} (h : s.Holds c) (hp : d.ph < 2 ^ 31) {z : Vec K}
    (hz : z.size = d.nZ) {junk : Nat → K} {r : ConCost K × NlState d K} (hr : s.evalIneqR R.rnd z junk = .ok r) :
    r.2.Holds c := by
  cases hf : c.ineq with
  | none =>
    have hf' : s.con.ieqUser = none := by rw [h.ineq, hf]; rfl
    unfold evalIneqR at hr
    obtain ⟨q, hq, hr⟩ := bind_eq_ok.1 hr
    cases hr
    obtain ⟨h1, h2, h3, h4, -⟩ :=
      (Constraints.evaluateIneqR_none s.con h.csz hf' s.mp h.good h.dims s.M junk z hz).of_eq hq
    exact ⟨h.good, h.dims, h.inS, h.stS, h.cont, h.Ts, h.field, h.out, h.obj, h3.trans h.ineq, h4.trans h.eq, h.osz,
      h1, h.ox0, fun x hx => by dsimp only; rw [h2]; exact h.cx0 x hx⟩
  | some F => exact ((evalIneqR_post he h hp hf z hz junk rfl rfl).of_eq hr).1

theorem evalEqR_holds (he : R.eps ≤ 1 / 8) {s : NlState d K} {c : NlSpec.Cfg d K} (h : s.Holds c) {z : Vec K}
    (hz : z.size = d.nZ) {junk : Nat → K} {r : ConCost K × NlState d K} (hr : s.evalEqR R.rnd z junk = .ok r) :
    r.2.Holds c := by
  cases hf : c.eq with
  | none =>
    have hf' : s.con.eqUser = none := by rw [h.eq, hf]; rfl
    unfold evalEqR at hr
    obtain ⟨q, hq, hr⟩ := bind_eq_ok.1 hr
    cases hr
    obtain ⟨h1, h2, h3, h4, -⟩ :=
      (Constraints.evaluateEqR_none s.con h.csz hf' s.mp h.good h.dims junk z hz).of_eq hq
    exact ⟨h.good, h.dims, h.inS, h.stS, h.cont, h.Ts, h.field, h.out, h.obj, h3.trans h.ineq, h4.trans h.eq, h.osz,
      h1, h.ox0, fun x hx => by dsimp only; rw [h2]; exact h.cx0 x hx⟩
  | some F => exact ((evalEqR_post he h hf z hz junk rfl rfl).of_eq hr).1

theorem evalDynR_holds {s : NlState d K} {c : NlSpec.Cfg d K} (h : s.Holds c) (hp : d.ph < 2 ^ 31) {z : Vec K}
    (hz : z.size = d.nZ) {g : Bool} {junk : Nat → K} {r : ConCost K × NlState d K}
    (hr : s.evalDynR R.rnd z g junk = .ok r) : r.2.Holds c := by
  cases hf : c.field with
  | none =>
    exfalso
    have hpos := h.good.ch_pos
    have hle := h.good.ch_le
    rw [h.dims] at hpos hle
    have hf' : s.M.vectorField = none := by rw [h.field, hf]; rfl
    unfold evalDynR at hr
    obtain ⟨q, hq, -⟩ := bind_eq_ok.1 hr
    have := Constraints.evaluateStateModelEqR_needs_model R s.con s.mp s.M hf' junk z g hq
    omega
  | some F => exact ((evalDynR_post h hp hf z hz g junk rfl rfl).of_eq hr).1

end NlState
end Mpc
