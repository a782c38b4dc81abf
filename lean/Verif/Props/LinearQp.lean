import Mathlib.Tactic.Linarith
import Verif.Props.Sample

/-
C01 - C09: what the problem handed to OSQP says, in terms of the API calls made before.

Throughout, `Spec.Asked d ops outs x0 u0 oc m m' r call` says that the calls `ops` (of any length, `optimize`
calls included) were made on a new controller of dimensions `d`, returning `outs`, and that then
`optimize(x0, u0)` handed `call` to OSQP; `Spec.configOf ops outs` is the configuration those calls left.
-/
namespace Mpc.Props
open Mpc.Spec
set_option linter.unusedSectionVars false

variable {K : Type} [Field K] [DecidableEq K] [LinearOrder K] [IsStrictOrderedRing K]
variable {d : Dims} {ops : List (LOp K)} {outs : List (LOut K)} {x0 u0 : Vec K} {oc : OsqpOutcome K}
  {m m' : LMpc K} {r : LResult K} {call : OsqpCall K}

/-! ### C01 -/

/-- C01. The equality rows hold exactly for the trajectories of the configured plant. -/
theorem c01_dynamics (h : Asked d ops outs x0 u0 oc m m' r call) (hms : (configOf ops outs).modelSet = true)
    (z : Nat → K) :
    (∀ ρ, ρ < boundRow d → rowOk call z ρ) ↔ Trajectory d (configOf ops outs) x0.get u0.get z := by
  obtain ⟨st, obj, sol, -, hs⟩ := asked_solved h
  exact hs.trajectory_iff hms z

/-- C01, what being a trajectory means for the numbers OSQP sees: those rows are equalities. -/
theorem c01_rows_are_equalities (h : Asked d ops outs x0 u0 oc m m' r call) {ρ : Nat} (hρ : ρ < boundRow d) :
    ∃ v, call.l.get ρ = .fin v ∧ call.u.get ρ = .fin v := by
  obtain ⟨st, obj, sol, -, hs⟩ := asked_solved h
  exact hs.eq_row hρ

example : ∃ m m' r call, Asked sampleDims sampleOps sampleOuts (cvec 2 1) (cvec 1 0) (.answered 1 0 none) m m' r call ∧
    (configOf sampleOps sampleOuts).modelSet = true := by
  obtain ⟨m, m', r, call, h⟩ := sample_asked 1 0 none
  exact ⟨m, m', r, call, h, sample_model⟩

/-! ### C02 -/

/-- C02. On any decision vector, the objective is the tracking cost plus the cost of the measured state and last
command, up to a constant, if no input-increment references were set. -/
theorem c02_objective (h : Asked d ops outs x0 u0 oc m m' r call) (hms : (configOf ops outs).modelSet = true)
    (hr : ∀ k a, k < d.ph → a < d.nu → (configOf ops outs).duRef k a = 0) :
    ∃ k : K, ∀ z, qpObjective call z + k =
      initialCost d (configOf ops outs) z + trackingCost d (configOf ops outs) (fun _ _ => 0) z := by
  obtain ⟨st, obj, sol, -, hs⟩ := asked_solved h
  refine ⟨Solved.constTerm d (configOf ops outs), fun z => ?_⟩
  rw [hs.objective_eq hms z]
  congr 1
  unfold trackingCost
  congr 1
  refine Finset.sum_congr rfl fun k hk => ?_
  congr 1
  refine Finset.sum_congr rfl fun a ha => ?_
  dsimp only
  rw [hr (k - 1) a (by have := Finset.mem_range.1 hk; omega) (Finset.mem_range.1 ha)]

/-- C02. On the trajectories of the plant the objective is the tracking cost up to a constant. -/
theorem c02_objective_on_trajectories (h : Asked d ops outs x0 u0 oc m m' r call)
    (hms : (configOf ops outs).modelSet = true)
    (hr : ∀ k a, k < d.ph → a < d.nu → (configOf ops outs).duRef k a = 0) :
    ∃ k : K, ∀ z, Trajectory d (configOf ops outs) x0.get u0.get z →
      qpObjective call z + k = trackingCost d (configOf ops outs) (fun _ _ => 0) z := by
  obtain ⟨k, hk⟩ := c02_objective h hms hr
  refine ⟨k - (sqErr d.ny ((configOf ops outs).wY 0)
      (outputOf d (configOf ops outs) x0.get ((configOf ops outs).dist 0)) ((configOf ops outs).yRef 0) +
     sqErr d.nu ((configOf ops outs).wU 0) u0.get ((configOf ops outs).uRef 0)) / 2, fun z hz => ?_⟩
  have e := hk z
  have : initialCost d (configOf ops outs) z = (sqErr d.ny ((configOf ops outs).wY 0)
      (outputOf d (configOf ops outs) x0.get ((configOf ops outs).dist 0)) ((configOf ops outs).yRef 0) +
     sqErr d.nu ((configOf ops outs).wU 0) u0.get ((configOf ops outs).uRef 0)) / 2 := by
    unfold initialCost
    congr 2
    · unfold sqErr outputOf dot
      refine Finset.sum_congr rfl fun a _ => ?_
      rw [Finset.sum_congr rfl fun e he => by rw [hz.state0 e (Finset.mem_range.1 he)]]
    · unfold sqErr
      refine Finset.sum_congr rfl fun a ha => ?_
      rw [hz.input0 a (Finset.mem_range.1 ha)]
  rw [this] at e
  linarith

example : ∀ k a, k < sampleDims.ph → a < sampleDims.nu → (configOf sampleOps sampleOuts).duRef k a = 0 := by
  intro k a _ _
  rfl

/-! ### C03 -/

/-- C03 as documented: the increment of step `k` is penalised against the reference given for step `k`. -/
def C03Claim (K : Type) [Field K] [DecidableEq K] : Prop :=
  ∀ (d : Dims) (ops : List (LOp K)) (outs : List (LOut K)) (x0 u0 : Vec K) (oc : OsqpOutcome K) (m m' : LMpc K)
    (r : LResult K) (call : OsqpCall K), Asked d ops outs x0 u0 oc m m' r call →
    (configOf ops outs).modelSet = true →
    ∃ k : K, ∀ z, Trajectory d (configOf ops outs) x0.get u0.get z →
      qpObjective call z + k = trackingCost d (configOf ops outs) (configOf ops outs).duRef z

/-- a controller with dimensions 1, prediction and control horizon 2, increment references (0, 1) -/
def c03Ops : List (LOp ℚ) :=
  [ plant1 0 0, .setObjectiveWeightsSlice (cvec 1 0) (cvec 1 0) (cvec 1 1) HorizonSlice.all,
    .setReferences (cmat 1 2 0) (cmat 1 2 0) ⟨1, 2, fun _ k => k⟩ ]

theorem c03_violated : ¬ C03Claim ℚ := by
  intro hc
  obtain ⟨m, m', r, call, h⟩ := asked_of_accepts (d := dims1 2 2) (ops := c03Ops) (x0 := cvec 1 0) (u0 := cvec 1 0)
    (dims1_valid (by decide) (by decide) (by decide) (by decide)) (by decide) (by decide) (by
      intro op hop
      simp only [c03Ops, plant1, List.mem_cons, List.not_mem_nil, or_false] at hop
      rcases hop with rfl | rfl | rfl <;>
        simp [Sized, LMpc.Accepts, SliceIn, HorizonSlice.Int32, HorizonSlice.all, dims1, cmat, cvec]) rfl rfl 1 0 none
  obtain ⟨k, hk⟩ := hc _ _ _ _ _ _ _ _ _ _ h rfl
  obtain ⟨st, obj, sol, -, hs⟩ := asked_solved h
  have tr : ∀ v : ℚ, Trajectory (dims1 2 2) (configOf c03Ops (c03Ops.map fun _ => .bool true)) (cvec 1 0).get (cvec 1 0).get
      (fun i => if i = 5 ∨ i = 7 then v else 0) := by
    intro v
    constructor
    · intro a ha
      simp only [dims1] at ha
      interval_cases a
      simp [stateAt, dims1, cvec]
    · intro a ha
      simp only [dims1] at ha
      interval_cases a
      simp [heldAt, dims1, cvec]
    · intro k a hk ha
      simp only [dims1] at ha hk
      interval_cases a
      interval_cases k <;> simp [heldAt, inputAt, incrementAt, dims1]
    · intro k a hk ha
      simp only [dims1] at ha hk
      interval_cases a
      interval_cases k <;> simp [heldAt, inputAt, incrementAt, stateAt, dims1, dot, configOf, c03Ops, LinConfig.after,
        accepted, LinConfig.apply, plant1, cmat, LinConfig.default]
  have ev : ∀ v : ℚ, ∀ ref : Nat → Nat → ℚ, trackingCost (dims1 2 2) (configOf c03Ops (c03Ops.map fun _ => .bool true)) ref
      (fun i => if i = 5 ∨ i = 7 then v else 0) = ((0 - ref 0 0) ^ 2 + (v - ref 1 0) ^ 2) / 2 := by
    intro v ref
    simp [trackingCost, sqErr, Finset.sum_range_succ, dims1, configOf, c03Ops, LinConfig.after, accepted, LinConfig.apply,
      plant1, cmat, cvec, upd, covers, HorizonSlice.all, incrementAt]
  have ei : ∀ v : ℚ, initialCost (dims1 2 2) (configOf c03Ops (c03Ops.map fun _ => .bool true))
      (fun i => if i = 5 ∨ i = 7 then v else 0) = 0 := by
    intro v
    simp [initialCost, sqErr, Finset.sum_range_succ, dims1, configOf, c03Ops, LinConfig.after, accepted, LinConfig.apply,
      plant1, cmat, cvec, upd, covers, HorizonSlice.all]
  have r0 : (configOf c03Ops (c03Ops.map fun _ => .bool true)).duRef 0 0 = 0 := rfl
  have r1 : (configOf c03Ops (c03Ops.map fun _ => .bool true)).duRef 1 0 = 1 := rfl
  have a0 := hk _ (tr 0)
  have a1 := hk _ (tr 1)
  have b0 := hs.objective_eq rfl (fun i => if i = 5 ∨ i = 7 then (0 : ℚ) else 0)
  have b1 := hs.objective_eq rfl (fun i => if i = 5 ∨ i = 7 then (1 : ℚ) else 0)
  rw [ev, r0, r1] at a0 a1
  rw [ei, ev] at b0 b1
  simp only [Nat.zero_sub, Nat.sub_self, r0] at b0 b1
  linarith

/-- C03, what holds: the increment of step `k` is penalised against the reference of step `k - 1` (step 0 against
that of step 0). Missing: the documented alignment. -/
theorem c03_shifted_partial (h : Asked d ops outs x0 u0 oc m m' r call) (hms : (configOf ops outs).modelSet = true) :
    ∃ k : K, ∀ z, qpObjective call z + k =
      initialCost d (configOf ops outs) z + trackingCost d (configOf ops outs) (fun k => (configOf ops outs).duRef (k - 1)) z := by
  obtain ⟨st, obj, sol, -, hs⟩ := asked_solved h
  exact ⟨_, fun z => hs.objective_eq hms z⟩

/-- C03 holds for references which are the same at all steps. -/
theorem c03_constant_partial (h : Asked d ops outs x0 u0 oc m m' r call) (hms : (configOf ops outs).modelSet = true)
    (hr : ∀ k a, k < d.ph → a < d.nu → (configOf ops outs).duRef k a = (configOf ops outs).duRef 0 a) :
    ∃ k : K, ∀ z, qpObjective call z + k =
      initialCost d (configOf ops outs) z + trackingCost d (configOf ops outs) (configOf ops outs).duRef z := by
  obtain ⟨k, hk⟩ := c03_shifted_partial h hms
  refine ⟨k, fun z => ?_⟩
  rw [hk z]
  congr 1
  unfold trackingCost
  congr 1
  refine Finset.sum_congr rfl fun k hk => ?_
  congr 1
  refine Finset.sum_congr rfl fun a ha => ?_
  have hk' := Finset.mem_range.1 hk
  dsimp only
  rw [hr (k - 1) a (by omega) (Finset.mem_range.1 ha), hr k a hk' (Finset.mem_range.1 ha)]

example : ∀ k a, k < sampleDims.ph → a < sampleDims.nu →
    (configOf sampleOps sampleOuts).duRef k a = (configOf sampleOps sampleOuts).duRef 0 a := fun _ _ _ _ => rfl

/-! ### C04 -/

/-- C04. The row of state `x_k` (component `a`) says that it lies within the bounds configured for index `k - 1`
(those of index 0 for `x_0`). -/
theorem c04_state_bounds (h : Asked d ops outs x0 u0 oc m m' r call) {k a : Nat} (hk : k ≤ d.ph) (ha : a < d.nx)
    (z : Nat → K) :
    rowOk call z (boundRow d + k * (d.nx + d.nu) + a) ↔
      within ((configOf ops outs).xMin (k - 1) a) ((configOf ops outs).xMax (k - 1) a) (stateAt d z k a) := by
  obtain ⟨st, obj, sol, -, hs⟩ := asked_solved h
  exact hs.state_row hk ha z

/-- C04 for feasible decision vectors. -/
theorem c04_feasible (h : Asked d ops outs x0 u0 oc m m' r call) (hms : (configOf ops outs).modelSet = true) {z : Nat → K}
    (hz : qpFeasible call z) {k a : Nat} (hk : k < d.ph) (ha : a < d.nx) :
    within ((configOf ops outs).xMin k a) ((configOf ops outs).xMax k a) (stateAt d z (k + 1) a) := by
  obtain ⟨st, obj, sol, -, hs⟩ := asked_solved h
  exact ((hs.feasible_iff hms z).1 hz).states (k + 1) a (by omega) ha

example : (configOf sampleOps sampleOuts).xMin 2 1 = .fin (-10) ∧ (configOf sampleOps sampleOuts).xMax 2 1 = .fin 10 :=
  ⟨rfl, rfl⟩

end Mpc.Props
