import Verif.Props.NlAsked

/-
C43: the feasibility flag of the nonlinear controller.
-/
namespace Mpc.Props
open Mpc Exec
set_option linter.unusedSectionVars false

section
variable {K : Type} [Field K] [LinearOrder K] [IsStrictOrderedRing K]

/-- One feasibility check: scaling calls `cs` were made, `mp` is the mapping they leave, the sizes of the buffers fit, and the
check of decision vector `z` with user constraints `Fi`, `Fe` (values may be NaN or infinite) returns `r`. -/
structure Checked (d : Dims) (cs : List (ScalingCall K)) (M : NlModel d K) (x0 : Vec K)
    (Fi : Option (Traj (d.ph + 1) d.nx K → Traj (d.ph + 1) d.ny K → Traj (d.ph + 1) d.nu K → K → FVec d.ineq (Flt K))) (ti : K)
    (Fe : Option (Traj (d.ph + 1) d.nx K → Traj (d.ph + 1) d.nu K → FVec d.eq (Flt K))) (te : K) (z : Vec K)
    (flag : Bool) : Prop where
  hor : HorizonsOk d
  fits : ∀ c ∈ cs, c.Fits d
  x0s : x0.size = d.nx
  zs : z.size = d.nZ
  ran : ∃ mp Xb Ub bi be nanCmp r, scalingRun d cs = .ok mp ∧ Xb.Is (d.ph + 1) d.nx ∧ Ub.Is (d.ph + 1) d.nu ∧
    bi.size = d.ineq ∧ be.size = d.eq ∧
    Constraints.feasible (V := Flt K) id mp M x0 Xb Ub (Fi.map fun F _ => F) ti (Fe.map fun F _ => F) te bi be nanCmp z
      = .ok r ∧ r.flag = flag

/-- C43 as claimed: the flag tells that all values of the user's constraints, at the sequences which belong to the decision
vector, are numbers within the tolerances. -/
def C43Claim (K : Type) [Field K] [LinearOrder K] [IsStrictOrderedRing K] : Prop :=
  ∀ (d : Dims) (cs : List (ScalingCall K)) (M : NlModel d K) (x0 : Vec K) Fi ti Fe te (z : Vec K) flag,
    Checked d cs M x0 Fi ti Fe te z flag →
    ∀ (X : Traj (d.ph + 1) d.nx K) (U : Traj (d.ph + 1) d.nu K),
      X = NlSpec.codeStates d (stateScale cs) x0.get z.get → U = NlSpec.inputs d (inputScale cs) z.get →
      (flag = true ↔
        NlSpec.Sat (NlSpec.WithinIneq ti)
          (Fi.map fun F => F X (NlSpec.outputs M.outUser X U) U (z.get (NlSpec.slackIx d))) ∧
        NlSpec.Sat (NlSpec.WithinEq te) (Fe.map fun F => F X U))

/-- C43 holds when the values of the user's constraints are numbers (possibly infinite). -/
theorem c43_numbers_partial (d : Dims) (cs : List (ScalingCall K)) (M : NlModel d K) (x0 : Vec K) (Fi) (ti : K) (Fe) (te : K)
    (z : Vec K) (flag : Bool) (h : Checked d cs M x0 Fi ti Fe te z flag)
    (X : Traj (d.ph + 1) d.nx K) (U : Traj (d.ph + 1) d.nu K)
    (hX : X = NlSpec.codeStates d (stateScale cs) x0.get z.get) (hU : U = NlSpec.inputs d (inputScale cs) z.get)
    (hi : ∀ F, Fi = some F → ∀ i, (F X (NlSpec.outputs M.outUser X U) U (z.get (NlSpec.slackIx d)) i).IsNum)
    (he : ∀ F, Fe = some F → ∀ i, (F X U i).IsNum) :
    flag = true ↔
      NlSpec.Sat (NlSpec.WithinIneq ti)
        (Fi.map fun F => F X (NlSpec.outputs M.outUser X U) U (z.get (NlSpec.slackIx d))) ∧
      NlSpec.Sat (NlSpec.WithinEq te) (Fe.map fun F => F X U) := by
  obtain ⟨mp, Xb, Ub, bi, be, nc, r, hm, h1, h2, h3, h4, hr, rfl⟩ := h.ran
  obtain ⟨g1, g2, g3, g4⟩ := (scalingRun_post d h.hor cs h.fits).of_eq hm
  obtain ⟨-, -, -, -, k⟩ := Constraints.feasible_ok g1 g2 h.x0s h1 h2 h.hor.ph_int h3 h4 h.zs hr
  exact k X U _ (by rw [g4]; exact hX) (by rw [g3]; exact hU) rfl hi he

/-- an inequality function all of whose values are NaN passes the check -/
theorem feasIneq_nan {d : Dims} {tol : K} {M : NlModel d K}
    {f : FVec d.ineq (Flt K) → Traj (d.ph + 1) d.nx K → Traj (d.ph + 1) d.ny K → Traj (d.ph + 1) d.nu K → K → FVec d.ineq (Flt K)}
    (hf : ∀ b X Y U e i, f b X Y U e i = .nan) {buf : Vec (Flt K)} {X U : Mat K} (hX : X.Is (d.ph + 1) d.nx)
    (hU : U.Is (d.ph + 1) d.nu) (hp : d.ph < 2 ^ 31) (e : K) :
    Post (Constraints.feasIneq (V := Flt K) id tol M (some f) buf X U e) (fun r => r.1 = true) := by
  unfold Constraints.feasIneq
  dsimp only
  obtain ⟨Y, hY, hYs, -⟩ := M.getOutput_ok X U hp hX hU
  rw [hY, ok_bind, Mat.view_ok hX.1 hX.2, ok_bind, Mat.view_ok hYs.1 hYs.2, ok_bind, Mat.view_ok hU.1 hU.2, ok_bind]
  refine post_pure ?_
  dsimp only [id]
  rw [Bool.not_eq_true', anyGreater_eq_false]
  intro i hi
  dsimp only at hi ⊢
  rw [show i = ((⟨i, hi⟩ : Fin d.ineq) : Nat) from rfl, Vec.ofF_get, hf]
  rfl

/-- the check with a NaN-valued inequality function and no equality function answers `feasible` -/
theorem checked_nan {d : Dims} (hd : HorizonsOk d) (cs : List (ScalingCall K)) (hf : ∀ c ∈ cs, c.Fits d) (M : NlModel d K)
    (x0 z : Vec K) (hx : x0.size = d.nx) (hz : z.size = d.nZ) (ti te : K) :
    Checked d cs M x0 (some fun _ _ _ _ _ => .nan) ti none te z true := by
  refine ⟨hd, hf, hx, hz, ?_⟩
  obtain ⟨mp, hm, h1, h2, h3, h4⟩ := scalingRun_post d hd cs hf
  subst h2
  have : Post (Constraints.feasible (V := Flt K) id mp M x0 (Mat.const (mp.dims.ph + 1) mp.dims.nx 0) (Mat.const (mp.dims.ph + 1) mp.dims.nu 0)
      (some fun _ _ _ _ _ _ => .nan) ti none te (Vec.const mp.dims.ineq (Flt.fin 0)) (Vec.const mp.dims.eq (Flt.fin 0))
      false z) (fun r => r.flag = true) := by
    unfold Constraints.feasible
    refine Post.bind (Mapping.unwrapVector_post mp h1 z x0 (Mat.const (mp.dims.ph + 1) mp.dims.nx 0)
      (Mat.const (mp.dims.ph + 1) mp.dims.nu 0) hz hx rfl rfl rfl rfl) ?_
    intro w hw
    refine Post.bind (feasIneq_nan (fun _ _ _ _ _ _ => rfl) ⟨hw.xr, hw.xc⟩ ⟨hw.ur, hw.uc⟩ hd.ph_int _) ?_
    intro i hi
    rw [if_pos hi]
    exact post_pure rfl
  obtain ⟨r, hr, hr'⟩ := this
  exact ⟨mp, _, _, _, _, _, r, hm, ⟨rfl, rfl⟩, ⟨rfl, rfl⟩, rfl, rfl, hr, hr'⟩

/-- C43 is violated: a decision vector at which an inequality constraint evaluates to NaN is flagged feasible. -/
theorem c43_violated : ¬ C43Claim ℚ := by
  intro h
  have hc := checked_nan (K := ℚ) dN_ok [] (by simp) ⟨false, 0, none, none⟩ (nvec 2 fun _ => 0) (zN 0) rfl rfl 0 0
  have := ((h _ _ _ _ _ _ _ _ _ _ hc _ _ rfl rfl).1 rfl).1 0
  obtain ⟨x, hx, -⟩ := this
  cases hx

/-- non-vacuity: a check of a decision vector exists whose constraint values are numbers -/
example : ∃ flag, Checked (K := ℚ) dN [.input (nvec 1 fun _ => 2)] ⟨false, 0, none, none⟩ (nvec 2 fun _ => 1)
    (some fun X _ _ _ _ => .num (.fin (X 1 0))) 1 (some fun X _ _ => .num (.fin (X 1 0 - 1))) 0 (zN 0) flag := by
  have hf : ∀ c ∈ [ScalingCall.input (nvec 1 fun _ => 2)], c.Fits dN := by
    intro c hc; obtain rfl := List.mem_singleton.1 hc; rfl
  obtain ⟨mp, hm, h1, h2, h3, h4⟩ := scalingRun_post dN dN_ok _ hf
  obtain ⟨r, hr, -⟩ := Constraints.feasible_post (V := Flt ℚ) id mp h1 h2 ⟨false, 0, none, none⟩ (nvec 2 fun _ => 1) rfl
    (Mat.const _ _ 0) (Mat.const _ _ 0) ⟨rfl, rfl⟩ ⟨rfl, rfl⟩ (by decide)
    (some fun X _ _ _ _ => .num (.fin (X 1 0))) 1 (some fun X _ _ => .num (.fin (X 1 0 - 1))) 0 (fun _ => by decide)
    (Vec.const 1 (Flt.fin 0)) (Vec.const 1 (Flt.fin 0)) rfl rfl false (zN 0) rfl rfl rfl rfl
    (by rintro G ⟨⟩ i; simp) (by rintro G ⟨⟩ i; simp)
  exact ⟨r.flag, dN_ok, hf, rfl, rfl, mp, _, _, _, _, _, r, hm, ⟨rfl, rfl⟩, ⟨rfl, rfl⟩, rfl, rfl, hr, rfl⟩

variable {d : Dims} {dyn : Bool} {ops : List (NlCall d K)} {outs : List (NlOut K)} {m m' : NlMpc d K} {x0 u0 : Vec K}
  {cs : List (NlCallback K)} {oc : NlOutcome K} {r : LResult K} {call : NlSolverCall K}

/-- C43 at the API: after any history, when the solver answers `z` (and no user function throws in the check), the result is
flagged feasible if and only if the last set inequality function is at most its tolerance and the last set equality function
within plus/minus its tolerance, at the sequences of `z` under the last set scalings and the last set output map. -/
theorem c43_api_flag (h : NlAsked d dyn ops outs x0 u0 cs oc m m' r call) {z : Vec K} {value : Ext K} {code : Int}
    (ho : oc = .answered z value code false)
    (X : Traj (d.ph + 1) d.nx K) (U : Traj (d.ph + 1) d.nu K)
    (hX : X = NlSpec.codeStates d (NlSpec.stScale ops) x0.get z.get) (hU : U = NlSpec.inputs d (NlSpec.inScale ops) z.get) :
    r.is_feasible = true ↔
      (∀ F tol, NlSpec.last NlSpec.ineqConOf ops = some (F, tol) →
        ∀ i, F X (NlSpec.outputs (NlSpec.last NlSpec.outputOf ops) X U) U (z.get (NlSpec.slackIx d)) i ≤ tol) ∧
      (∀ F tol, NlSpec.last NlSpec.eqConOf ops = some (F, tol) → ∀ i, |F X U i| ≤ tol) := by
  subst ho
  obtain ⟨-, -, -, ha⟩ := h.known
  have ha : NlMpc.Answered (NlCtl.after d ops outs) x0.get z.get value code r m'.o := ha
  have hl := h.toNlRan.len
  have hf := ha.feas
  rw [after_inScale hl, after_stScale hl, after_out hl, ← hX, ← hU] at hf
  rw [hf, ← after_ineq hl, ← after_eq hl]
  refine and_congr ?_ ?_
  · cases (NlCtl.after d ops outs).cfg.ineq with
    | none => simp [NlSpec.Sat]
    | some G =>
      simp only [NlSpec.Sat, Option.map_some, NlSpec.WithinIneq, Option.some.injEq, Prod.mk.injEq]
      constructor
      · rintro h F tol ⟨rfl, rfl⟩ i
        obtain ⟨x, hx, hle⟩ := h i
        cases hx
        simpa using hle
      · intro h i
        exact ⟨_, rfl, by simpa using h _ _ ⟨rfl, rfl⟩ i⟩
  · cases (NlCtl.after d ops outs).cfg.eq with
    | none => simp [NlSpec.Sat]
    | some G =>
      simp only [NlSpec.Sat, Option.map_some, NlSpec.WithinEq, Option.some.injEq, Prod.mk.injEq]
      constructor
      · rintro h F tol ⟨rfl, rfl⟩ i
        obtain ⟨x, hx, h1, h2⟩ := h i
        cases hx
        exact abs_le.2 ⟨by simpa using h1, by simpa using h2⟩
      · intro h i
        have := abs_le.1 (h _ _ ⟨rfl, rfl⟩ i)
        exact ⟨_, rfl, by simpa using this.1, by simpa using this.2⟩

/-- C43, failures: when the solver or the check throws, the result is not flagged feasible. -/
theorem c43_failure_infeasible (h : NlAsked d dyn ops outs x0 u0 cs oc m m' r call)
    (ho : ∀ z value code, oc ≠ .answered z value code false) : r.is_feasible = false := by
  obtain ⟨-, -, -, ha⟩ := h.known
  rcases oc with _ | ⟨z, v, c, _ | _⟩
  · exact NlMpc.Failed.feas ha
  · exact absurd rfl (ho z v c)
  · exact NlMpc.Failed.feas ha

/-- non-vacuity: a history with both kinds of constraints, scaling and two calls, then an answer of the solver -/
example : ∃ outs m m' r call, NlAsked dN false opsN outs (nvec 2 fun _ => 1) (nvec 1 fun _ => 2) [.con 2 (zN 5) true (fun _ => 0)]
    (.answered (zN 4) (.fin 1) 4 false) m m' r call :=
  sampleN_asked 1 2 _ (by rintro z v c t ⟨⟩; rfl)

end

/-- C43: what the flag is for the sample, both ways (here the equality constraint is violated). -/
example {outs m m' r call} (h : NlAsked dN false opsN outs (nvec 2 fun _ => 1) (nvec 1 fun _ => 2) [.con 2 (zN 5) true (fun _ => 0)]
    (.answered (zN 4) (.fin 1) 4 false) m m' r call) : r.is_feasible = false := by
  rw [Bool.eq_false_iff]
  intro hc
  have := ((c43_api_flag h rfl _ _ rfl rfl).1 hc).2 _ _ rfl 0
  simp [NlSpec.codeStates, NlSpec.stScale, NlSpec.last, opsN, zN, NlSpec.stScaleOf, NlSpec.stateIx] at this
  norm_num at this

end Mpc.Props
