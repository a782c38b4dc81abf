import Verif.Proofs.SizedWrong
import Verif.Proofs.NlTotal

/-
The feasibility check with an inequality function which returns any number of entries.
-/
namespace Mpc
open Exec
set_option linter.unusedSectionVars false

namespace Sized
variable {d : Dims} {K : Type} [Field K] [LinearOrder K] [IsStrictOrderedRing K]

theorem anyGreater_ofList (l : List K) (tol : K) :
    (!anyGreater ⟨(Vec.ofList l).size, fun i => Flt.fin ((Vec.ofList l).get i)⟩ tol) = true ↔ ∀ a ∈ l, a ≤ tol := by
  unfold anyGreater Vec.ofList
  simp only [Bool.not_eq_true', List.any_eq_false, List.mem_range, Flt.gt, Flt.fin]
  constructor
  · intro h a ha
    obtain ⟨i, hi, rfl⟩ := List.getElem_of_mem ha
    have := h i hi
    simp [hi] at this
    by_contra hn
    exact absurd (this) (by simpa using hn)
  · intro h i hi
    have := h _ (List.getElem_mem hi)
    simp [hi]
    exact this

/-- `optimize` when the solver returns a vector without asking for anything: the flag looks at the entries which the inequality
function returns for the reported trajectories, however many they are -/
theorem optimize_unseen {m : NlMpc d K} {c : NlCtl d K} (h : m.Agrees c) (hp : d.ph < 2 ^ 31) {F : SizedFns d K}
    (ho : F.output = none)
    {f : Traj (d.ph + 1) d.nx K → Traj (d.ph + 1) d.ny K → Traj (d.ph + 1) d.nu K → K → List K} (hf : F.ineq = some f)
    {x0 u0 z : Vec K} (hx : x0.size = d.nx) (hu : u0.size = d.nu) (hz : z.size = d.nZ) (v : Ext K) (code : Int)
    (junk : Nat → K) :
    Post (optimize F m x0 u0 [] (.answered z v code false) junk) (fun r => ∃ res call, r.2 = .result res call ∧
      (res.is_feasible = true ↔ ∀ a ∈ f (r.1.o.seqState.viewF _ _) (r.1.o.seqOutput.viewF _ _) (r.1.o.seqInput.viewF _ _)
        r.1.o.currentSlack, a ≤ m.s.con.ieqTol)) := by
  unfold optimize
  have hold := h.holds
  have hd := hold.dims
  unfold NlMpc.onState
  simp only [NlState.exec, ok_bind, pure_bind']
  obtain ⟨p, hpr⟩ := (NlOpt.prepare_start hold.good hold.dims junk hx hu (o := m.o) h.zs).exists_ok
  rw [hpr, ok_bind]
  have hcb : ∀ s : NlState d K, callbacks F m.o s [] = .ok s := fun s => rfl
  rw [hcb, ok_bind]
  unfold finish
  dsimp only
  rw [if_neg (by simp)]
  have csz := hold.csz
  have e : m.s.mp.unwrapVector z x0 m.s.con.Xmat m.s.con.Umat =
      m.s.mp.unwrapVector z x0 ⟨d.ph + 1, d.nx, fun i _ => junk i⟩ ⟨d.ph + 1, d.nu, fun i _ => junk i⟩ :=
    Mapping.unwrapVector_buf _ _ _ csz.X.1 csz.X.2 csz.U.1 csz.U.2
  obtain ⟨w, hw', hw⟩ := Mapping.unwrapVector_post m.s.mp hold.good z x0 ⟨d.ph + 1, d.nx, fun i _ => junk i⟩
    ⟨d.ph + 1, d.nu, fun i _ => junk i⟩ (by rw [hd]; exact hz) (by rw [hd]; exact hx)
    (by dsimp only; rw [hd]) (by dsimp only; rw [hd]) (by dsimp only; rw [hd]) (by dsimp only; rw [hd])
  have hwX := hw.xr; have hwXc := hw.xc; have hwU := hw.ur; have hwUc := hw.uc
  rw [hd] at hwX hwXc hwU hwUc
  have hY : ∀ X U, getOutput F X U = .ok (Mat.const (d.ph + 1) d.ny (0 : K)) := by
    intro X U
    unfold getOutput
    rw [ho]
    rfl
  have hfe : ∃ con', isFeasible F { m.s.con with x0 := x0 } m.s.mp z = .ok
      (!anyGreater ⟨(Vec.ofList (f (w.1.viewF _ _) ((Mat.const (d.ph + 1) d.ny (0 : K)).viewF _ _) (w.2.1.viewF _ _) w.2.2)).size,
        fun i => Flt.fin ((Vec.ofList (f (w.1.viewF _ _) ((Mat.const (d.ph + 1) d.ny (0 : K)).viewF _ _) (w.2.1.viewF _ _)
          w.2.2)).get i)⟩ m.s.con.ieqTol, con') := by
    unfold isFeasible
    dsimp only
    rw [e, hw', ok_bind, hf]
    dsimp only
    unfold callIneq
    rw [hY, ok_bind, Mat.view_ok hwX hwXc, ok_bind, Mat.view_ok (m := Mat.const (d.ph + 1) d.ny (0 : K)) (r := d.ph + 1) (c := d.ny) rfl rfl, ok_bind,
      Mat.view_ok hwU hwUc, ok_bind]
    exact ⟨_, rfl⟩
  obtain ⟨con', hfe⟩ := hfe
  rw [hfe, ok_bind]
  unfold accept
  dsimp only
  rw [hw', ok_bind, Mat.row_ok (by omega), ok_bind, Mat.block_ok (by omega) (by omega), ok_bind,
    Mat.block_ok (by omega) (by omega), ok_bind, hY, ok_bind,
    Mat.block_ok (by simp [Mat.const]) (by simp [Mat.const]), ok_bind]
  refine post_pure ⟨_, _, rfl, ?_⟩
  rw [anyGreater_ofList]
  simp only [Nat.zero_add]
  exact Iff.rfl

end Sized
end Mpc
