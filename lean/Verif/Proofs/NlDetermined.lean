import Verif.Proofs.NlDynEval

/-
The results of evaluations are determined by configuration, measured state and decision vector.
-/
namespace Mpc
open Exec
set_option linter.unusedSectionVars false

variable {d : Dims} {K : Type} [Field K] [LinearOrder K] [IsStrictOrderedRing K]

namespace Constraints

theorem dqX_eq (F : FVec d.nx K → FVec d.nu K → Nat → FVec d.nx K) (x u : Vec K) {tx : FVec d.nx K} {tu : FVec d.nu K}
    (hx : x.viewF d.nx = tx) (hu : u.viewF d.nu = tu) (k : Nat) (r a : Fin d.nx) :
    dqX F x u k r a = NlSpec.quotX dv F tx tu k r a := by
  subst hx hu
  unfold dqX NlSpec.quotX
  rw [Vec.ofF_get, Vec.ofF_get]
  rfl

theorem dqU_eq (F : FVec d.nx K → FVec d.nu K → Nat → FVec d.nx K) (x u : Vec K) {tx : FVec d.nx K} {tu : FVec d.nu K}
    (hx : x.viewF d.nx = tx) (hu : u.viewF d.nu = tu) (k : Nat) (r : Fin d.nx) (b : Fin d.nu) :
    dqU F x u k r b = NlSpec.quotU dv F tx tu k r b := by
  subst hx hu
  unfold dqU NlSpec.quotU
  rw [Vec.ofF_get, Vec.ofF_get]
  rfl

theorem rowV_view {r c : Nat} {X : Mat K} {TX : Traj r c K} (h : X.viewF r c = TX) (k : Fin r) :
    (rowV X k).viewF c = TX k := by
  subst h; rfl

end Constraints

theorem NlState.evalDyn_traj {s : NlState d K} {c : NlSpec.Cfg d K} (h : s.Holds c) (hp : d.ph < 2 ^ 31)
    {F : FVec d.nx K → FVec d.nu K → Nat → FVec d.nx K} (hf : c.field = some F) (z : Vec K) (hz : z.size = d.nZ)
    (g : Bool) (junk : Nat → K) :
    Post (s.evalDyn z g junk) (fun q => q.1.value.size = d.ph * d.nx ∧ q.1.grad.size = d.nZ * (d.ph * d.nx) ∧
      ∀ (k : Fin d.ph) (r : Fin d.nx), q.1.value.get (k * d.nx + r)
          = NlSpec.residual c.cont c.Ts c.stScale F (NlSpec.codeStates d c.stScale s.con.x0.get z.get)
            (NlSpec.inputs d c.inScale z.get) k r ∧
        (g = true → NlSpec.DynRow d Constraints.dv c.cont c.Ts c.stScale c.inScale F
          (NlSpec.codeStates d c.stScale s.con.x0.get z.get) (NlSpec.inputs d c.inScale z.get) k r
          (fun v => q.1.grad.get ((k * d.nx + r) * d.nZ + v)))) := by
  refine (evalDyn_post h hp hf z hz g junk).mono ?_
  rintro ⟨q, s'⟩ ⟨h1, h2, X, U, -, -, hX, hU, hv, hg⟩
  dsimp only at h1 h2 hv hg ⊢
  refine ⟨h1, h2, fun k r => ⟨?_, ?_⟩⟩
  · rw [hv k r k.2 r.2, Constraints.resid_eq F c.cont c.Ts X U hX hU]
    rfl
  · intro hgt
    obtain ⟨g1, g2, g3⟩ := hg hgt
    have hinv : s.mp.invStateScaling.get r = 1 / c.stScale r := by
      rw [h.good.inv r (by rw [h.dims]; exact r.2), h.stS]
    have hx0 := Constraints.rowV_view hX k.castSucc
    have hx1 := Constraints.rowV_view hX k.succ
    have hu0 := Constraints.rowV_view hU k.castSucc
    simp only [Fin.val_castSucc, Fin.val_succ] at hx0 hx1 hu0
    refine ⟨?_, ?_, g3 k r k.2 r.2⟩
    · intro k' a hk'
      rw [g1 k r k' a k.2 r.2 hk' a.2]
      unfold Constraints.blkQ Constraints.blkP NlSpec.residualNext NlSpec.residualPrev
      rw [Constraints.dqX_eq F _ _ hx1 hu0, Constraints.dqX_eq F _ _ hx0 hu0, hinv]
      simp only [Fin.ext_iff]
    · intro j b hj
      rw [g2 k r j b k.2 r.2 hj b.2]
      unfold Constraints.blkR NlSpec.residualInput
      rw [Constraints.dqU_eq F _ _ hx1 hu0, Constraints.dqU_eq F _ _ hx0 hu0, hinv]

namespace NlSpec

/-- the positions of decision variables -/
theorem nZ_cases (d : Dims) {v : Nat} (hv : v < d.nZ) :
    (∃ k a, k < d.ph ∧ a < d.nx ∧ v = stateIx d k a) ∨ (∃ j b, j < d.ch ∧ b < d.nu ∧ v = inputIx d j b) ∨
      v = slackIx d := by
  unfold Dims.nZ at hv
  rw [Nat.mul_comm d.nu d.ch] at hv
  by_cases h1 : v < d.ph * d.nx
  · obtain ⟨k, a, hk, ha, rfl⟩ := exists_block h1
    exact Or.inl ⟨k, a, hk, ha, rfl⟩
  · right
    by_cases h2 : v < d.ph * d.nx + d.ch * d.nu
    · obtain ⟨j, b, hj, hb, e⟩ := exists_block (k := v - d.ph * d.nx) (n := d.ch) (s := d.nu) (by omega)
      exact Or.inl ⟨j, b, hj, hb, by unfold inputIx; omega⟩
    · right; unfold slackIx; omega

theorem RowOf.unique {sx su : Nat → K} {gx gu gx' gu' : Nat → Nat → K} {ge ge' : K} {g g' : Nat → K}
    (h : RowOf d sx su gx gu ge g) (h' : RowOf d sx su gx' gu' ge' g')
    (ex : ∀ k a, k < d.ph → a < d.nx → gx k a = gx' k a) (eu : ∀ k b, k < d.ph → b < d.nu → gu k b = gu' k b)
    (ee : ge = ge') : Agree d.nZ g g' := by
  intro v hv
  rcases nZ_cases d hv with ⟨k, a, hk, ha, rfl⟩ | ⟨j, b, hj, hb, rfl⟩ | rfl
  · rw [h.states k a hk ha, h'.states k a hk ha, ex k a hk ha]
  · rw [h.inputs j b hj hb, h'.inputs j b hj hb]
    congr 1
    refine Finset.sum_congr rfl fun k hk => ?_
    rw [eu k b (Finset.mem_range.1 hk) hb]
  · rw [h.slack, h'.slack, ee]

theorem ObjDiff.unique {φ : Traj (d.ph + 1) d.nx K → Traj (d.ph + 1) d.nu K → K → K}
    {X : Traj (d.ph + 1) d.nx K} {U : Traj (d.ph + 1) d.nu K} {e : K} {hx hu : Nat → K} {he : K}
    {gx gu gx' gu' : Nat → Nat → K} {ge ge' : K}
    (h : ObjDiff d φ X U e hx hu he gx gu ge) (h' : ObjDiff d φ X U e hx hu he gx' gu' ge') :
    (∀ k a, k < d.ph → a < d.nx → gx k a = gx' k a) ∧ (∀ k b, k < d.ph → b < d.nu → gu k b = gu' k b) ∧ ge = ge' := by
  refine ⟨fun k a hk ha => by rw [h.states k a hk ha, h'.states k a hk ha], fun k b hk hb => ?_,
    by rw [h.slack, h'.slack]⟩
  by_cases hl : k + 1 < d.ph
  · rw [h.inputs k b hl hb, h'.inputs k b hl hb]
  · obtain rfl : k = d.ph - 1 := by omega
    rw [h.last b hb, h'.last b hb]

theorem ConDiff.unique {n : Nat} {φ : Traj (d.ph + 1) d.nx K → Traj (d.ph + 1) d.nu K → K → FVec n K}
    {X : Traj (d.ph + 1) d.nx K} {U : Traj (d.ph + 1) d.nu K} {e : K} {hx hu : Nat → Nat → K} {he : K} {last : Bool}
    {gx gu gx' gu' : Nat → Nat → Nat → K} {ge ge' : Nat → K}
    (h : ConDiff d n φ X U e hx hu he last gx gu ge) (h' : ConDiff d n φ X U e hx hu he last gx' gu' ge')
    (c : Fin n) :
    (∀ k a, k < d.ph → a < d.nx → gx c k a = gx' c k a) ∧ (∀ k b, k < d.ph → b < d.nu → gu c k b = gu' c k b) ∧
      ge c = ge' c := by
  refine ⟨fun k a hk ha => by rw [h.states c k a hk ha, h'.states c k a hk ha], fun k b hk hb => ?_,
    by rw [h.slack, h'.slack]⟩
  by_cases hl : k + 1 < d.ph
  · rw [h.inputs c k b hl hb, h'.inputs c k b hl hb]
  · obtain rfl : k = d.ph - 1 := by omega
    rw [h.lastInput c b hb, h'.lastInput c b hb]

theorem DynRow.unique {t : K} {cont : Bool} {Ts : K} {s su : Nat → K}
    {F : FVec d.nx K → FVec d.nu K → Nat → FVec d.nx K} {X : Traj (d.ph + 1) d.nx K} {U : Traj (d.ph + 1) d.nu K}
    {k : Fin d.ph} {r : Fin d.nx} {g g' : Nat → K} (h : DynRow d t cont Ts s su F X U k r g)
    (h' : DynRow d t cont Ts s su F X U k r g') : Agree d.nZ g g' := by
  intro v hv
  rcases nZ_cases d hv with ⟨k', a, hk, ha, rfl⟩ | ⟨j, b, hj, hb, rfl⟩ | rfl
  · have := h.states k' ⟨a, ha⟩ hk
    have h2 := h'.states k' ⟨a, ha⟩ hk
    dsimp only at this h2
    rw [this, h2]
  · have := h.inputs j ⟨b, hb⟩ hj
    have h2 := h'.inputs j ⟨b, hb⟩ hj
    dsimp only at this h2
    rw [this, h2]
  · rw [h.slack, h'.slack]

end NlSpec
end Mpc
