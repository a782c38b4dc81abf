import Mathlib.Algebra.Order.Ring.Abs
import Verif.Model.Feasible
import Verif.Proofs.NlConstraints
import Verif.Spec.NlFeas

/-
`Constraints::isFeasible`.
-/
namespace Mpc
open Exec
set_option linter.unusedSectionVars false

variable {K : Type} [Field K] [LinearOrder K] [IsStrictOrderedRing K]

theorem Ext.max_le_iff {a b t : Ext K} : a.max b ≤ t ↔ a ≤ t ∧ b ≤ t := by
  unfold Ext.max
  cases a <;> cases b <;> cases t <;> simp
  case fin.fin.fin x y z =>
    split_ifs with h
    · simp only [Ext.fin_le_fin]
      exact ⟨fun h' => ⟨h.trans h', h'⟩, fun h' => h'.2⟩
    · simp only [Ext.fin_le_fin]
      exact ⟨fun h' => ⟨h', (not_le.1 h).le.trans h'⟩, fun h' => h'.1⟩
  all_goals first | exact fun h => h | (split_ifs <;> simp <;> assumption)

theorem Flt.gt_num_eq_false {x : Ext K} {t : K} : (Flt.num x).gt (Flt.fin t) = false ↔ x ≤ Ext.fin t := by
  unfold Flt.fin Flt.gt
  simp

theorem anyGreater_eq_false {c : Vec (Flt K)} {tol : K} :
    anyGreater c tol = false ↔ ∀ i, i < c.size → (c.get i).gt (Flt.fin tol) = false := by
  unfold anyGreater
  rw [List.any_eq_false]
  simp only [List.mem_range, Bool.not_eq_true]

theorem maxUpTo_num {c : Nat → Flt K} {x : Nat → Ext K} {n : Nat} (h : ∀ i, i < n → c i = .num (x i)) (m : Ext K) :
    ∃ M, maxUpTo c n (.num m) = some M ∧ ∀ t, M ≤ t ↔ (∀ i, i < n → x i ≤ t) ∧ m ≤ t := by
  induction n with
  | zero => exact ⟨m, rfl, fun t => ⟨fun h => ⟨fun i hi => by omega, h⟩, fun h => h.2⟩⟩
  | succ n ih =>
    obtain ⟨M, hM, hMt⟩ := ih (fun i hi => h i (by omega))
    refine ⟨M.max (x n), ?_, ?_⟩
    · unfold maxUpTo
      rw [hM, h n (by omega)]
    · intro t
      rw [Ext.max_le_iff, hMt]
      constructor
      · rintro ⟨⟨h1, h2⟩, h3⟩
        refine ⟨fun i hi => ?_, h2⟩
        rcases Nat.lt_succ_iff_lt_or_eq.1 hi with h | rfl
        · exact h1 i h
        · exact h3
      · rintro ⟨h1, h2⟩
        exact ⟨⟨fun i hi => h1 i (by omega), h2⟩, h1 n (by omega)⟩

/-- absolute value of a bound -/
def Ext.absE : Ext K → Ext K
  | .negInf => .posInf
  | .posInf => .posInf
  | .fin x => .fin |x|

theorem Flt.abs_num (x : Ext K) : (Flt.num x).abs = .num x.absE := by cases x <;> rfl

theorem Ext.absE_le_iff {x : Ext K} {t : K} : x.absE ≤ Ext.fin t ↔ Ext.fin (-t) ≤ x ∧ x ≤ Ext.fin t := by
  cases x <;> simp [Ext.absE, abs_le]

theorem maxAbsGreater_num (b : Bool) {c : Vec (Flt K)} {x : Nat → Ext K} (h : ∀ i, i < c.size → c.get i = .num (x i))
    (hs : 0 < c.size) (tol : K) :
    Post (maxAbsGreater b c tol)
      (fun r => r = false ↔ ∀ i, i < c.size → Ext.fin (-tol) ≤ x i ∧ x i ≤ Ext.fin tol) := by
  unfold maxAbsGreater maxCoeff
  dsimp only
  rw [require_ok hs, ok_bind, pure_bind', h _ (by omega), Flt.abs_num]
  obtain ⟨M, hM, hMt⟩ := maxUpTo_num (c := fun i => (c.get i).abs) (x := fun i => (x i).absE) (n := c.size - 1)
    (fun i hi => by rw [h i (by omega), Flt.abs_num]) (x (c.size - 1)).absE
  rw [hM]
  refine post_pure ?_
  simp only [Bool.not_eq_false', decide_eq_true_eq]
  rw [hMt]
  simp only [Ext.absE_le_iff]
  constructor
  · rintro ⟨h1, h2⟩ i hi
    rcases Nat.lt_or_ge i (c.size - 1) with h' | h'
    · exact h1 i h'
    · obtain rfl : i = c.size - 1 := by omega
      exact h2
  · intro h1
    exact ⟨fun i hi => h1 i (by omega), h1 _ (by omega)⟩

namespace Constraints
variable {d : Dims} {V : Type} [Zero V]

theorem feasIneq_post (toF : V → Flt K) (tol : K) (M : NlModel d K) (f : Option (FVec d.ineq V → Traj (d.ph + 1) d.nx K →
      Traj (d.ph + 1) d.ny K → Traj (d.ph + 1) d.nu K → K → FVec d.ineq V))
    (F : Option (Traj (d.ph + 1) d.nx K → Traj (d.ph + 1) d.ny K → Traj (d.ph + 1) d.nu K → K → FVec d.ineq V))
    (hF : f = F.map fun F _ => F) (buf : Vec V) (hb : buf.size = d.ineq) (X U : Mat K) (hX : X.Is (d.ph + 1) d.nx)
    (hU : U.Is (d.ph + 1) d.nu) (hp : d.ph < 2 ^ 31) (e : K) :
    Post (feasIneq toF tol M f buf X U e) (fun r => r.2.size = d.ineq ∧
      ((∀ G, F = some G → ∀ i, toF (G (X.viewF _ _) (NlSpec.outputs M.outUser (X.viewF _ _) (U.viewF _ _)) (U.viewF _ _) e i)
          ≠ .nan) →
        (r.1 = true ↔ NlSpec.Sat (NlSpec.WithinIneq tol) (F.map fun G i =>
          toF (G (X.viewF _ _) (NlSpec.outputs M.outUser (X.viewF _ _) (U.viewF _ _)) (U.viewF _ _) e i))))) := by
  subst hF
  unfold feasIneq
  cases F with
  | none => exact post_pure ⟨hb, fun _ => by simp [NlSpec.Sat]⟩
  | some G =>
    dsimp only [Option.map_some]
    obtain ⟨Y, hY, hYs, hYv⟩ := M.getOutput_ok X U hp hX hU
    rw [hY, ok_bind, Mat.view_ok hX.1 hX.2, ok_bind, Mat.view_ok hYs.1 hYs.2, ok_bind, Mat.view_ok hU.1 hU.2, ok_bind, hYv]
    refine post_pure ⟨rfl, ?_⟩
    intro hn
    dsimp only
    rw [Bool.not_eq_true', anyGreater_eq_false]
    unfold NlSpec.Sat NlSpec.WithinIneq
    dsimp only [Vec.ofF_size]
    constructor
    · intro h i
      have h1 := h i i.2
      rw [Vec.ofF_get] at h1
      cases hc : toF (G (X.viewF _ _) (NlSpec.outputs M.outUser (X.viewF _ _) (U.viewF _ _)) (U.viewF _ _) e i) with
      | nan => exact absurd hc (hn G rfl i)
      | num x =>
        rw [hc, Flt.gt_num_eq_false] at h1
        exact ⟨x, rfl, h1⟩
    · intro h i hi
      obtain ⟨x, h1, h2⟩ := h ⟨i, hi⟩
      rw [show i = ((⟨i, hi⟩ : Fin d.ineq) : Nat) from rfl, Vec.ofF_get, h1, Flt.gt_num_eq_false]
      exact h2

theorem feasEq_post (toF : V → Flt K) (tol : K) (nanCmp : Bool) (f : Option (FVec d.eq V → Traj (d.ph + 1) d.nx K →
      Traj (d.ph + 1) d.nu K → FVec d.eq V))
    (F : Option (Traj (d.ph + 1) d.nx K → Traj (d.ph + 1) d.nu K → FVec d.eq V))
    (hF : f = F.map fun F _ => F) (hpos : F.isSome = true → 0 < d.eq) (buf : Vec V) (hb : buf.size = d.eq) (X U : Mat K)
    (hX : X.Is (d.ph + 1) d.nx) (hU : U.Is (d.ph + 1) d.nu)
    (hn : ∀ G, F = some G → ∀ i, toF (G (X.viewF _ _) (U.viewF _ _) i) ≠ .nan) :
    Post (feasEq toF tol nanCmp f buf X U) (fun r => r.2.size = d.eq ∧
        (r.1 = true ↔ NlSpec.Sat (NlSpec.WithinEq tol) (F.map fun G i => toF (G (X.viewF _ _) (U.viewF _ _) i)))) := by
  subst hF
  unfold feasEq
  cases F with
  | none => exact post_pure ⟨hb, by simp [NlSpec.Sat]⟩
  | some G =>
    dsimp only [Option.map_some]
    rw [Mat.view_ok hX.1 hX.2, ok_bind, Mat.view_ok hU.1 hU.2, ok_bind]
    have hx : ∀ i : Fin d.eq, ∃ x, toF (G (X.viewF _ _) (U.viewF _ _) i) = .num x := by
      intro i
      cases hc : toF (G (X.viewF _ _) (U.viewF _ _) i) with
      | nan => exact absurd hc (hn G rfl i)
      | num x => exact ⟨x, rfl⟩
    choose x hx using hx
    refine Post.bind (maxAbsGreater_num nanCmp (x := fun i => if h : i < d.eq then x ⟨i, h⟩ else .negInf) ?_
      (hpos rfl) tol) ?_
    · intro i hi
      dsimp only [Vec.ofF_size] at hi ⊢
      rw [dif_pos hi, ← hx]
      exact congrArg toF (Vec.ofF_get _ (⟨i, hi⟩ : Fin d.eq))
    · intro g hg
      refine post_pure ⟨rfl, ?_⟩
      dsimp only
      rw [Bool.not_eq_true', hg]
      unfold NlSpec.Sat NlSpec.WithinEq
      dsimp only [Vec.ofF_size]
      constructor
      · intro h i
        have := h i i.2
        rw [dif_pos i.2] at this
        exact ⟨x i, hx i, this⟩
      · intro h i hi
        rw [dif_pos hi]
        obtain ⟨y, h1, h2⟩ := h ⟨i, hi⟩
        rw [hx] at h1
        cases h1
        exact h2

/-- `isFeasible`: the answer when all values are numbers; sizes are kept -/
theorem feasible_post (toF : V → Flt K) (mp : Mapping K) (hm : mp.Good) (hd : mp.dims = d) (M : NlModel d K) (x0 : Vec K)
    (hx0 : x0.size = d.nx) (Xb Ub : Mat K) (hXb : Xb.Is (d.ph + 1) d.nx) (hUb : Ub.Is (d.ph + 1) d.nu)
    (hp : d.ph < 2 ^ 31)
    (Fi : Option (Traj (d.ph + 1) d.nx K → Traj (d.ph + 1) d.ny K → Traj (d.ph + 1) d.nu K → K → FVec d.ineq V)) (ti : K)
    (Fe : Option (Traj (d.ph + 1) d.nx K → Traj (d.ph + 1) d.nu K → FVec d.eq V)) (te : K)
    (hpos : Fe.isSome = true → 0 < d.eq)
    (bi be : Vec V) (hbi : bi.size = d.ineq) (hbe : be.size = d.eq) (nanCmp : Bool) (z : Vec K) (hz : z.size = d.nZ)
    {X : Traj (d.ph + 1) d.nx K} {U : Traj (d.ph + 1) d.nu K} {e : K}
    (hX : X = NlSpec.codeStates d mp.stateScaling.get x0.get z.get) (hU : U = NlSpec.inputs d mp.inputScaling.get z.get)
    (he : e = z.get (NlSpec.slackIx d))
    (hni : ∀ G, Fi = some G → ∀ i, toF (G X (NlSpec.outputs M.outUser X U) U e i) ≠ .nan)
    (hne : ∀ G, Fe = some G → ∀ i, toF (G X U i) ≠ .nan) :
    Post (feasible toF mp M x0 Xb Ub (Fi.map fun F _ => F) ti (Fe.map fun F _ => F) te bi be nanCmp z) (fun r =>
      r.X.Is (d.ph + 1) d.nx ∧ r.U.Is (d.ph + 1) d.nu ∧ r.ci.size = d.ineq ∧ r.ce.size = d.eq ∧
      (r.flag = true ↔
        NlSpec.Sat (NlSpec.WithinIneq ti) (Fi.map fun G i => toF (G X (NlSpec.outputs M.outUser X U) U e i)) ∧
        NlSpec.Sat (NlSpec.WithinEq te) (Fe.map fun G i => toF (G X U i)))) := by
  subst hd
  unfold feasible
  refine Post.bind (Mapping.unwrapVector_post mp hm z x0 Xb Ub hz hx0 hXb.1 hXb.2 hUb.1 hUb.2) ?_
  rintro ⟨Xm, Um, em⟩ hw
  have hXs : Xm.Is (mp.dims.ph + 1) mp.dims.nx := ⟨hw.xr, hw.xc⟩
  have hUs : Um.Is (mp.dims.ph + 1) mp.dims.nu := ⟨hw.ur, hw.uc⟩
  have eX : Xm.viewF (mp.dims.ph + 1) mp.dims.nx = X := by rw [hX]; exact Objective.viewF_states hw
  have eU : Um.viewF (mp.dims.ph + 1) mp.dims.nu = U := by rw [hU]; exact Objective.viewF_inputs hw
  have ee : em = e := by rw [he]; exact hw.e
  dsimp only
  refine Post.bind (feasIneq_post toF ti M _ Fi rfl bi hbi Xm Um hXs hUs hp em) ?_
  rintro ⟨i, ci⟩ ⟨h1, h2⟩
  rw [eX, eU, ee] at h2
  have h2 := h2 hni
  dsimp only at h1 h2 ⊢
  split_ifs with hi
  · refine Post.bind (feasEq_post toF te nanCmp _ Fe rfl hpos be hbe Xm Um hXs hUs (by rw [eX, eU]; exact hne)) ?_
    rintro ⟨b, ce⟩ ⟨h3, h4⟩
    rw [eX, eU] at h4
    dsimp only at h3 h4 ⊢
    refine post_pure ⟨hXs, hUs, h1, h3, ?_⟩
    dsimp only
    rw [h4]
    exact ⟨fun h => ⟨h2.1 hi, h⟩, fun h => h.2⟩
  · refine post_pure ⟨hXs, hUs, h1, hbe, ?_⟩
    dsimp only
    exact ⟨(fun h => by cases h), fun h => absurd (h2.2 h.1) hi⟩

end Constraints
end Mpc

namespace Mpc
open Exec
set_option linter.unusedSectionVars false
variable {K : Type} [Field K] [LinearOrder K] [IsStrictOrderedRing K]

namespace Constraints
variable {d : Dims} {V : Type} [Zero V]

theorem feasEq_pos {toF : V → Flt K} {tol : K} {nanCmp : Bool}
    {F : Option (FVec d.eq V → Traj (d.ph + 1) d.nx K → Traj (d.ph + 1) d.nu K → FVec d.eq V)} {buf : Vec V}
    {X U : Mat K} {r : Bool × Vec V} (h : feasEq toF tol nanCmp F buf X U = .ok r) (hf : F.isSome = true) : 0 < d.eq := by
  unfold feasEq at h
  cases F with
  | none => cases hf
  | some G =>
    dsimp only at h
    obtain ⟨x, -, h⟩ := bind_eq_ok.1 h
    obtain ⟨u, -, h⟩ := bind_eq_ok.1 h
    obtain ⟨g, hg, -⟩ := bind_eq_ok.1 h
    unfold maxAbsGreater at hg
    obtain ⟨m, hm, -⟩ := bind_eq_ok.1 hg
    unfold maxCoeff at hm
    obtain ⟨_, hq, -⟩ := bind_eq_ok.1 hm
    have := require_eq_ok.1 hq
    simpa using this

theorem feasEq_size {toF : V → Flt K} {tol : K} {nanCmp : Bool}
    {F : Option (FVec d.eq V → Traj (d.ph + 1) d.nx K → Traj (d.ph + 1) d.nu K → FVec d.eq V)} {buf : Vec V}
    {X U : Mat K} {r : Bool × Vec V} (h : feasEq toF tol nanCmp F buf X U = .ok r) (hb : buf.size = d.eq) :
    r.2.size = d.eq := by
  unfold feasEq at h
  cases F with
  | none => cases h; exact hb
  | some G =>
    dsimp only at h
    obtain ⟨x, -, h⟩ := bind_eq_ok.1 h
    obtain ⟨u, -, h⟩ := bind_eq_ok.1 h
    obtain ⟨g, hg, h⟩ := bind_eq_ok.1 h
    cases h
    rfl

/-- whenever `isFeasible` returns: sizes are kept, and the answer is as specified if all values are numbers -/
theorem feasible_ok {toF : V → Flt K} {mp : Mapping K} (hm : mp.Good) (hd : mp.dims = d) {M : NlModel d K} {x0 : Vec K}
    (hx0 : x0.size = d.nx) {Xb Ub : Mat K} (hXb : Xb.Is (d.ph + 1) d.nx) (hUb : Ub.Is (d.ph + 1) d.nu)
    (hp : d.ph < 2 ^ 31)
    {Fi : Option (Traj (d.ph + 1) d.nx K → Traj (d.ph + 1) d.ny K → Traj (d.ph + 1) d.nu K → K → FVec d.ineq V)} {ti : K}
    {Fe : Option (Traj (d.ph + 1) d.nx K → Traj (d.ph + 1) d.nu K → FVec d.eq V)} {te : K}
    {bi be : Vec V} (hbi : bi.size = d.ineq) (hbe : be.size = d.eq) {nanCmp : Bool} {z : Vec K} (hz : z.size = d.nZ)
    {r : Feas K V}
    (hr : feasible toF mp M x0 Xb Ub (Fi.map fun F _ => F) ti (Fe.map fun F _ => F) te bi be nanCmp z = .ok r) :
    r.X.Is (d.ph + 1) d.nx ∧ r.U.Is (d.ph + 1) d.nu ∧ r.ci.size = d.ineq ∧ r.ce.size = d.eq ∧
    ∀ (X : Traj (d.ph + 1) d.nx K) (U : Traj (d.ph + 1) d.nu K) (e : K),
      X = NlSpec.codeStates d mp.stateScaling.get x0.get z.get → U = NlSpec.inputs d mp.inputScaling.get z.get →
      e = z.get (NlSpec.slackIx d) →
      (∀ G, Fi = some G → ∀ i, toF (G X (NlSpec.outputs M.outUser X U) U e i) ≠ .nan) →
      (∀ G, Fe = some G → ∀ i, toF (G X U i) ≠ .nan) →
      (r.flag = true ↔
        NlSpec.Sat (NlSpec.WithinIneq ti) (Fi.map fun G i => toF (G X (NlSpec.outputs M.outUser X U) U e i)) ∧
        NlSpec.Sat (NlSpec.WithinEq te) (Fe.map fun G i => toF (G X U i))) := by
  subst hd
  unfold feasible at hr
  obtain ⟨w, hw, hr⟩ := bind_eq_ok.1 hr
  have hw := (Mapping.unwrapVector_post mp hm z x0 Xb Ub hz hx0 hXb.1 hXb.2 hUb.1 hUb.2).of_eq hw
  have hXs : w.1.Is (mp.dims.ph + 1) mp.dims.nx := ⟨hw.xr, hw.xc⟩
  have hUs : w.2.1.Is (mp.dims.ph + 1) mp.dims.nu := ⟨hw.ur, hw.uc⟩
  obtain ⟨i, hi, hr⟩ := bind_eq_ok.1 hr
  obtain ⟨h1, h2⟩ := (feasIneq_post toF ti M _ Fi rfl bi hbi w.1 w.2.1 hXs hUs hp w.2.2).of_eq hi
  split_ifs at hr with hb
  · obtain ⟨q, hq, hr⟩ := bind_eq_ok.1 hr
    have hpos : Fe.isSome = true → 0 < mp.dims.eq := fun h => feasEq_pos hq (by simpa using h)
    have h5 := feasEq_size hq hbe
    cases hr
    refine ⟨hXs, hUs, h1, h5, ?_⟩
    rintro X U e rfl rfl rfl hni hne
    rw [Objective.viewF_states hw, Objective.viewF_inputs hw, hw.e] at h2
    obtain ⟨-, h4⟩ := (feasEq_post toF te nanCmp _ Fe rfl hpos be hbe w.1 w.2.1 hXs hUs
      (by rw [Objective.viewF_states hw, Objective.viewF_inputs hw]; exact hne)).of_eq hq
    rw [Objective.viewF_states hw, Objective.viewF_inputs hw] at h4
    dsimp only
    rw [h4]
    exact ⟨fun h => ⟨(h2 hni).1 hb, h⟩, fun h => h.2⟩
  · cases hr
    refine ⟨hXs, hUs, h1, hbe, ?_⟩
    rintro X U e rfl rfl rfl hni hne
    rw [Objective.viewF_states hw, Objective.viewF_inputs hw, hw.e] at h2
    exact ⟨(fun h => by cases h), fun h => absurd ((h2 hni).2 h.1) hb⟩

end Constraints
end Mpc
