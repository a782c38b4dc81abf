import Verif.Spec.NlOptimizeCalls
import Verif.Proofs.NlOptimizeCalls
import Verif.Proofs.NlTraceEval
import Verif.Proofs.NlFeas
import Verif.Proofs.NlServe

/-
Traces of the feasibility check and of the reported outputs.
-/
namespace Mpc
open Exec
set_option linter.unusedSectionVars false
variable {d : Dims} {K : Type} [Field K] [LinearOrder K] [IsStrictOrderedRing K] {F : ∀ c : UserCall d K, c.Ans}

namespace Constraints

theorem callIneqP_value (M : NlModel d K) (X U : Mat K) (e : K) (hp : d.ph < 2 ^ 31) (hX : X.Is (d.ph + 1) d.nx)
    (hU : U.Is (d.ph + 1) d.nu) :
    Trc F (callIneqP M X U e) (NlSpec.ineqCalls F M.outUser.isSome (X.viewF (d.ph + 1) d.nx) (U.viewF (d.ph + 1) d.nu) e)
      (fun v => v = Vec.ofF (n := d.ineq) (F (.ineq (X.viewF (d.ph + 1) d.nx)
        (NlSpec.outputsBy F M.outUser.isSome (X.viewF (d.ph + 1) d.nx) (U.viewF (d.ph + 1) d.nu)) (U.viewF (d.ph + 1) d.nu) e))) := by
  unfold callIneqP NlSpec.ineqCalls
  refine Trc.bind (M.getOutputP_trc X U hp hX hU) ?_
  rintro Y ⟨hY, hYv⟩
  rw [Mat.view_ok hX.1 hX.2, Prog.lift_ok_bind, Mat.view_ok hY.1 hY.2, Prog.lift_ok_bind, Mat.view_ok hU.1 hU.2, Prog.lift_ok_bind, hYv]
  exact Trc.callThen (Trc.pure rfl)

/-- no entry exceeds the tolerance -/
theorem anyGreater_fin {n : Nat} (f : FVec n K) (tol : K) :
    anyGreater ⟨(Vec.ofF f).size, fun i => Flt.fin ((Vec.ofF f).get i)⟩ tol = false ↔ ∀ i, f i ≤ tol := by
  rw [anyGreater_eq_false]
  constructor
  · intro h i
    have := h i i.2
    dsimp only at this
    rw [Vec.ofF_get, show Flt.fin (f i) = Flt.num (Ext.fin (f i)) from rfl, Flt.gt_num_eq_false, Ext.fin_le_fin] at this
    exact this
  · intro h i hi
    dsimp only at hi ⊢
    rw [show i = ((⟨i, hi⟩ : Fin n) : Nat) from rfl, Vec.ofF_get, show Flt.fin (f ⟨i, hi⟩) = Flt.num (Ext.fin (f ⟨i, hi⟩)) from rfl,
      Flt.gt_num_eq_false, Ext.fin_le_fin]
    exact h _

theorem feasIneqP_some (o : Constraints d K) (M : NlModel d K) (hf : o.ieqUser.isSome) (X U : Mat K) (e : K) (hp : d.ph < 2 ^ 31)
    (hX : X.Is (d.ph + 1) d.nx) (hU : U.Is (d.ph + 1) d.nu) :
    Trc F (feasIneqP o M X U e) (NlSpec.ineqCalls F M.outUser.isSome (X.viewF (d.ph + 1) d.nx) (U.viewF (d.ph + 1) d.nu) e)
      (fun r => r.1 = true ↔ NlSpec.IneqHolds F M.outUser.isSome o.ieqTol (X.viewF (d.ph + 1) d.nx) (U.viewF (d.ph + 1) d.nu) e) := by
  unfold feasIneqP
  cases h : o.ieqUser with
  | none => rw [h] at hf; cases hf
  | some f =>
    dsimp only
    refine Trc.bindEnd (callIneqP_value M X U e hp hX hU) ?_
    rintro v rfl
    refine Trc.pure ?_
    dsimp only
    rw [Bool.not_eq_true']
    exact anyGreater_fin (n := d.ineq) (F (.ineq (X.viewF (d.ph + 1) d.nx)
      (NlSpec.outputsBy F M.outUser.isSome (X.viewF (d.ph + 1) d.nx) (U.viewF (d.ph + 1) d.nu)) (U.viewF (d.ph + 1) d.nu) e)) o.ieqTol

theorem feasEqP_tri (o : Constraints d K) (X U : Mat K) (hX : X.Is (d.ph + 1) d.nx) (hU : U.Is (d.ph + 1) d.nu) :
    Tri F (feasEqP o X U) (if o.eqUser.isSome then [.eq (X.viewF (d.ph + 1) d.nx) (U.viewF (d.ph + 1) d.nu)] else []) (fun _ => True) := by
  unfold feasEqP
  cases h : o.eqUser with
  | none => exact Tri.pure trivial
  | some f =>
    dsimp only
    rw [if_pos (by rfl)]
    exact Tri.bindEnd (callEqP_trc X U hX hU).tri fun _ _ => Tri.skip fun _ => Tri.pure trivial

end Constraints

namespace NlState
variable {s : NlState d K} {c : NlSpec.Cfg d K}

theorem isFeasibleP_tri (h : s.Holds c) (hp : d.ph < 2 ^ 31) (z : Vec K) (hz : z.size = d.nZ) :
    Tri F (s.con.isFeasibleP s.mp s.M z)
      (NlSpec.checkTrace F c.out.isSome (c.ineq.map fun _ => s.con.ieqTol) c.eq.isSome
        (NlSpec.codeStates d c.stScale s.con.x0.get z.get) (NlSpec.inputs d c.inScale z.get) (z.get (NlSpec.slackIx d)))
      (fun _ => True) := by
  unfold Constraints.isFeasibleP
  obtain ⟨⟨X, U, e⟩, hw, hX, hU, hXv, hUv, he⟩ := h.unwrapCon z hz
  dsimp only at hX hU hXv hUv he
  rw [hw, Prog.lift_ok_bind]
  dsimp only
  rw [← hXv, ← hUv, ← he]
  have ho : s.M.outUser.isSome = c.out.isSome := by rw [h.out]
  have hi := h.ineq
  have hq := h.eq
  have hq' : s.con.eqUser.isSome = c.eq.isSome := by rw [hq]; cases c.eq <;> rfl
  unfold NlSpec.checkTrace
  cases hc : c.ineq with
  | none =>
    rw [hc] at hi
    dsimp only [Option.map]
    refine Tri.bind (l := []) (Q := fun r => r.1 = true) ?_ ?_
    · unfold Constraints.feasIneqP
      rw [hi]
      exact Tri.pure rfl
    · intro r hr
      rw [if_pos hr, ← hq']
      exact Tri.bindEnd (Constraints.feasEqP_tri s.con X U hX hU) fun _ _ => Tri.pure trivial
  | some G =>
    rw [hc] at hi
    dsimp only [Option.map]
    have hi' : s.con.ieqUser.isSome := by rw [hi]; rfl
    rw [← ho]
    refine Tri.bind (Constraints.feasIneqP_some s.con s.M hi' X U e hp hX hU).tri ?_
    intro r hr
    by_cases hr1 : r.1 = true
    · rw [if_pos hr1]
      have := hr.1 hr1
      refine (Tri.bindEnd (Constraints.feasEqP_tri s.con X U hX hU) fun _ _ => Tri.pure trivial).mono ?_ (fun _ h => h)
      rw [hq']
      simp only [this, true_and]
    · rw [if_neg hr1]
      have : ¬ NlSpec.IneqHolds F s.M.outUser.isSome s.con.ieqTol (X.viewF (d.ph + 1) d.nx) (U.viewF (d.ph + 1) d.nu) e := fun h => hr1 (hr.2 h)
      rw [if_neg fun h => this h.1]
      exact Tri.pure trivial

end NlState

namespace NlMpc

theorem acceptP_tri {m : NlMpc d K} {s : NlState d K} {c : NlSpec.Cfg d K} (h : s.Holds c) (e1 : m.s.mp = s.mp)
    (e2 : m.s.M = s.M) (hp : d.ph < 2 ^ 31) (hz : m.o.optVector.size = d.nZ)
    {x0 : Vec K} (hx : x0.size = d.nx) (value : Ext K) (code : Int) (feas : Bool) (junk : Nat → K) :
    Tri F (m.acceptP x0 value code feas junk) (NlSpec.outCalls c.out.isSome (NlSpec.codeStates d c.stScale x0.get m.o.optVector.get)
      (NlSpec.inputs d c.inScale m.o.optVector.get)) (fun _ => True) := by
  unfold acceptP
  rw [e1, e2]
  have hd := h.dims
  obtain ⟨⟨X, U, e⟩, hw, hk⟩ := Mapping.unwrapVector_post s.mp h.good m.o.optVector x0 (⟨d.ph + 1, d.nx, fun i _ => junk i⟩ : Mat K)
    (⟨d.ph + 1, d.nu, fun i _ => junk i⟩ : Mat K) (by rw [hd]; exact hz) (by rw [hd]; exact hx) (by rw [hd]) (by rw [hd]) (by rw [hd]) (by rw [hd])
  have hXv := Objective.viewF_states hk
  have hUv := Objective.viewF_inputs hk
  have h1 := hk.xr; have h2 := hk.xc; have h3 := hk.ur; have h4 := hk.uc
  rw [hd] at h1 h2 h3 h4 hXv hUv
  rw [h.stS] at hXv
  rw [h.inS] at hUv
  rw [hw, Prog.lift_ok_bind]
  dsimp only
  refine Tri.skip fun _ => Tri.skip fun _ => Tri.skip fun _ => ?_
  refine (Tri.bindEnd (s.M.getOutputP_trc X U hp ⟨h1, h2⟩ ⟨h3, h4⟩).tri fun _ _ => Tri.skip fun _ => Tri.pure trivial).mono ?_ (fun _ h => h)
  rw [hXv, hUv, h.out]

end NlMpc
end Mpc
