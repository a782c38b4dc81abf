import Verif.Proofs.QpLift
import Verif.Props.LinearRun

/-
C63: what an exact solution of the problem handed to OSQP is worth in terms of the control problem.
-/
namespace Mpc.Props
open Mpc.Spec
set_option linter.unusedSectionVars false

variable {K : Type} [Field K] [DecidableEq K] [LinearOrder K] [IsStrictOrderedRing K]
variable {d : Dims} {ops : List (LOp K)} {outs : List (LOut K)} {x0 u0 : Vec K} {oc : OsqpOutcome K}
  {m m' : LMpc K} {r : LResult K} {call : OsqpCall K} {st : Int} {obj : K} {x y : Nat → K}

/-- C63 as stated: when OSQP hands back an exact solution of its problem, the returned command is the first one of a
best documented plan. -/
def C63Claim (K : Type) [Field K] [DecidableEq K] [LE K] : Prop :=
  ∀ (d : Dims) (ops : List (LOp K)) (outs : List (LOut K)) (x0 u0 : Vec K) (st : Int) (obj : K) (x y : Nat → K)
    (m m' : LMpc K) (r : LResult K) (call : OsqpCall K),
    Asked d ops outs x0 u0 (.answered st obj (some (x, y))) m m' r call →
    (configOf ops outs).modelSet = true → d.ch ≤ d.ph → qpOptimal call x →
    ∃ u, IsBest (PlanAllowed d (configOf ops outs) x0.get)
        (planCost d (configOf ops outs) x0.get u0.get (configOf ops outs).duRef) u ∧
      ∀ a, a < d.nu → r.cmd.get a = u 0 a

/-- C63, as coded: a vector solves the problem handed to OSQP exactly if it is the trajectory of a best plan, with the
constraints `PlanCoded` and the increment references shifted by one step. (Missing: `PlanCoded` and the shift are not
what is documented.) -/
theorem c63_coded_partial (h : Asked d ops outs x0 u0 oc m m' r call) (hms : (configOf ops outs).modelSet = true)
    (z : Nat → K) :
    qpOptimal call z ↔ Trajectory d (configOf ops outs) x0.get u0.get z ∧
      IsBest (PlanCoded d (configOf ops outs) x0.get u0.get)
        (planCost d (configOf ops outs) x0.get u0.get fun k => (configOf ops outs).duRef (k - 1)) (inputAt d z) := by
  obtain ⟨st, obj, sol, -, hs⟩ := asked_solved h
  have ho : ∀ z z', Trajectory d (configOf ops outs) x0.get u0.get z → Trajectory d (configOf ops outs) x0.get u0.get z' →
      (qpObjective call z ≤ qpObjective call z' ↔
        planCost d (configOf ops outs) x0.get u0.get (fun k => (configOf ops outs).duRef (k - 1)) (inputAt d z) ≤
        planCost d (configOf ops outs) x0.get u0.get (fun k => (configOf ops outs).duRef (k - 1)) (inputAt d z')) := by
    intro z z' t t'
    have e := hs.objective_eq hms z
    have e' := hs.objective_eq hms z'
    rw [initialCost_const t, t.cost] at e
    rw [initialCost_const t', t'.cost] at e'
    constructor <;> intro hle <;> linarith
  constructor
  · rintro ⟨hf, hb⟩
    obtain ⟨t, hp⟩ := planOk_iff.1 ((hs.feasible_iff hms z).1 hf)
    refine ⟨t, hp, fun v hv => ?_⟩
    have e : ∀ k a, k < d.ph → a < d.nu → v k a = inputAt d (lift d (configOf ops outs) x0.get u0.get v) k a :=
      fun k a hk ha => (inputAt_lift hk ha).symm
    have := (ho _ _ t lift_trajectory).1
      (hb _ ((hs.feasible_iff hms _).2 (planOk_iff.2 ⟨lift_trajectory, planCoded_congr e hv⟩)))
    rwa [← planCost_congr e] at this
  · rintro ⟨t, hp, hb⟩
    refine ⟨(hs.feasible_iff hms z).2 (planOk_iff.2 ⟨t, hp⟩), fun z' hz' => ?_⟩
    obtain ⟨t', hp'⟩ := planOk_iff.1 ((hs.feasible_iff hms z').1 hz')
    exact (ho _ _ t t').2 (hb _ hp')

/-- control horizon 1 of 2: follow the reference 0, 1 with x+ = u -/
def c63Ops : List (LOp ℚ) :=
  [ plant1 0 1, .setObjectiveWeightsSlice (cvec 1 1) (cvec 1 0) (cvec 1 0) HorizonSlice.all,
    .setReferences ⟨1, 2, fun _ k => if k = 1 then 1 else 0⟩ (cmat 1 2 0) (cmat 1 2 0) ]

/-- C63 is violated: with control horizon 1 the code leaves the command of step 1 free. Following 0, 1 it plans the
commands 0, 1 and returns 0; the best constant command is 1/2. -/
theorem c63_violated : ¬ C63Claim ℚ := by
  intro hc
  -- x = 0 0 1, held = 0 0 1, increments 0 1
  obtain ⟨m, m', r, call, h⟩ := asked_of_accepts (d := dims1 2 1) (ops := c63Ops) (x0 := cvec 1 0) (u0 := cvec 1 0)
    (dims1_valid (by decide) (by decide) (by decide) (by decide)) (by decide) (by decide) (by accepts_tac [c63Ops]) rfl rfl
    1 0 (some (fun i => [0, 0, 0, 0, 1, 1, 0, 1].getD i 0, fun _ => 0))
  obtain ⟨-, -, -, -, hU, -, -, -, hcmd⟩ := c18_sequence h
  have e0 := hcmd 0 (by decide)
  rw [hU 0 0 (by decide) (by decide)] at e0
  have hopt := (c63_coded_partial h rfl (fun i => [0, 0, 0, 0, 1, 1, 0, 1].getD i 0)).2 (by
    refine ⟨⟨?_, ?_, ?_, ?_⟩, ⟨?_, ?_, ?_, ?_, ?_⟩, ?_⟩
    rotate_right
    · intro v _
      config_simp [c63Ops, planCost, sqErr, predict]
      nlinarith [sq_nonneg (v 0 0), sq_nonneg (v 1 0 - 1)]
    all_goals simp only [dims1]
    all_goals intro k
    all_goals try intro a
    all_goals intros
    all_goals try interval_cases a
    all_goals try interval_cases k
    all_goals try config_simp [c63Ops, predict, before])
  obtain ⟨u, ⟨hu, hb⟩, hr⟩ := hc _ _ _ _ _ _ _ _ _ _ _ _ _ h rfl (by decide) hopt
  have hr := hr 0 (by decide)
  rw [e0] at hr
  have hfz := hu.frozen 1 0 (by decide) (by decide) (by decide)
  have hb := hb (fun _ _ => 1 / 2) (by
    refine ⟨?_, ?_, ?_, ?_, ?_⟩
    all_goals simp only [dims1]
    all_goals intro k
    all_goals try intro a
    all_goals intros
    all_goals try interval_cases a
    all_goals try interval_cases k
    all_goals try config_simp [c63Ops, predict, before])
  revert hr hfz hb
  config_simp [c63Ops, planCost, sqErr, predict]
  intro hr hfz
  rw [hfz, ← hr]
  norm_num

/-- the measured state, the last command and the measured output respect the bounds of step 0 -/
structure StartOk (d : Dims) (c : LinConfig K) (x0 u0 : Nat → K) : Prop where
  state : ∀ a, a < d.nx → within (c.xMin 0 a) (c.xMax 0 a) (x0 a)
  input : ∀ a, a < d.nu → within (c.uMin 0 a) (c.uMax 0 a) (u0 a)
  output : ∀ a, a < d.ny → within (c.yMin 0 a) (c.yMax 0 a) (outputOf d c x0 (c.dist 0) a)

/-- The configurations in which what the code does is what is documented: no command is frozen, input bounds and
increment references are the same at all steps, no scalar constraint. -/
structure Aligned (d : Dims) (c : LinConfig K) : Prop where
  free : d.ph ≤ d.ch
  uMin : ∀ k a, k < d.ph → a < d.nu → c.uMin k a = c.uMin 0 a
  uMax : ∀ k a, k < d.ph → a < d.nu → c.uMax k a = c.uMax 0 a
  duRef : ∀ k a, k < d.ph → a < d.nu → c.duRef k a = c.duRef 0 a
  sMin : ∀ k, k < d.ph → c.sMin k = .negInf
  sMax : ∀ k, k < d.ph → c.sMax k = .posInf

theorem Aligned.coded_iff {c : LinConfig K} {x0 u0 : Nat → K} (h : Aligned d c) (hph : 0 < d.ph) (u : Nat → Nat → K) :
    PlanCoded d c x0 u0 u ↔ StartOk d c x0 u0 ∧ PlanAllowed d c x0 u := by
  constructor
  · intro hp
    refine ⟨⟨fun a ha => hp.states 0 a (by omega) ha, fun a ha => ?_, fun a ha => hp.outputs 0 a (by omega) ha⟩,
      fun k a hk ha => hp.states (k + 1) a hk ha, fun k a hk ha => ?_, fun k a hk ha => hp.outputs (k + 1) a hk ha,
      fun k a hk hk' ha => ?_, fun k hk => ?_⟩
    · simpa [before] using hp.held 0 a (by omega) ha
    · have := hp.held (k + 1) a hk ha
      rw [h.uMin _ a (by omega) ha, h.uMax _ a (by omega) ha] at this
      rw [h.uMin k a hk ha, h.uMax k a hk ha]; exact this
    · have := h.free; omega
    · rw [h.sMin k hk, h.sMax k hk]; exact ⟨trivial, trivial⟩
  · rintro ⟨hs, hp⟩
    refine ⟨fun k a hk ha => ?_, fun k a hk ha => ?_, fun k a hk ha => ?_, fun k a hk hk' ha => ?_, fun k hk => ?_⟩
    · cases k with
      | zero => exact hs.state a ha
      | succ k => exact hp.states k a (by omega) ha
    · rw [h.uMin _ a (by omega) ha, h.uMax _ a (by omega) ha]
      cases k with
      | zero => exact hs.input a ha
      | succ k => have := hp.inputs k a (by omega) ha; rwa [h.uMin k a (by omega) ha, h.uMax k a (by omega) ha] at this
    · cases k with
      | zero => exact hs.output a ha
      | succ k => exact hp.outputs k a (by omega) ha
    · have := h.free; omega
    · rw [h.sMin _ (by omega), h.sMax _ (by omega)]; exact ⟨trivial, trivial⟩

theorem Aligned.cost_eq {c : LinConfig K} {x0 u0 : Nat → K} (h : Aligned d c) (u : Nat → Nat → K) :
    planCost d c x0 u0 (fun k => c.duRef (k - 1)) u = planCost d c x0 u0 c.duRef u := by
  unfold planCost
  congr 1
  refine Finset.sum_congr rfl fun k hk => ?_
  have hk := Finset.mem_range.1 hk
  congr 1
  refine Finset.sum_congr rfl fun a ha => ?_
  have ha := Finset.mem_range.1 ha
  show _ * (_ - c.duRef (k - 1) a) ^ 2 = _
  rw [h.duRef (k - 1) a (by omega) ha, h.duRef k a hk ha]

/-- C63 for aligned configurations: when OSQP hands back an exact solution of its problem, the reported inputs are a best
documented plan, its first command is the returned one, and the reported states and outputs are those the plant model
predicts for it. (Missing: control horizons shorter than the prediction horizon, step-dependent input bounds and increment
references, and scalar constraints, where the claim fails.) -/
theorem c63_optimal_partial (h : Asked d ops outs x0 u0 (.answered st obj (some (x, y))) m m' r call)
    (hms : (configOf ops outs).modelSet = true) (ha : Aligned d (configOf ops outs)) (hx : qpOptimal call x) :
    let S := m'.getOptimalSequence.1
    let U := m'.getOptimalSequence.2.1
    let Y := m'.getOptimalSequence.2.2
    let c := configOf ops outs
    IsBest (PlanAllowed d c x0.get) (planCost d c x0.get u0.get c.duRef) U.get ∧
    (∀ a, a < d.nu → r.cmd.get a = U.get 0 a) ∧
    (∀ k a, k ≤ d.ph → a < d.nx → S.get k a = predict d c x0.get U.get k a) ∧
    ∀ k a, k < d.ph → a < d.ny → Y.get (k + 1) a = outputOf d c (predict d c x0.get U.get (k + 1)) (c.dist k) a := by
  intro S U Y c
  have hph := h.valid.ph_pos
  obtain ⟨t, hp, hb⟩ := (c63_coded_partial h hms x).1 hx
  obtain ⟨-, -, -, hS, hU, -, hY, -, hcmd⟩ := c18_sequence h
  have e : ∀ k a, k < d.ph → a < d.nu → inputAt d x k a = U.get k a := fun k a hk ha => (hU k a hk ha).symm
  obtain ⟨hs, -⟩ := (ha.coded_iff hph _).1 hp
  have hpred : ∀ k a, k ≤ d.ph → a < d.nx → S.get k a = predict d c x0.get U.get k a := fun k a hk ha => by
    rw [show S.get k a = stateAt d x k a from hS k a hk ha, t.predict k a hk ha]; exact predict_congr e k a hk ha
  refine ⟨⟨((ha.coded_iff hph _).1 (planCoded_congr e hp)).2, fun v hv => ?_⟩, hcmd, hpred, fun k a hk ha => ?_⟩
  · rw [← ha.cost_eq, ← ha.cost_eq, ← planCost_congr e]
    exact hb v ((ha.coded_iff hph _).2 ⟨hs, hv⟩)
  · rw [show Y.get (k + 1) a = outputOf d c (S.get (k + 1)) (c.dist k) a from hY (k + 1) a hk ha]
    exact outputOf_congr (fun e he => hpred (k + 1) e hk he) a

/-- C63 for aligned configurations, feasibility: the problem handed to OSQP has a solution exactly if there is a
documented plan and the measured state, the last command and the measured output respect the bounds of step 0. -/
theorem c63_feasible_partial (h : Asked d ops outs x0 u0 oc m m' r call)
    (hms : (configOf ops outs).modelSet = true) (ha : Aligned d (configOf ops outs)) :
    (∃ z, qpFeasible call z) ↔
      StartOk d (configOf ops outs) x0.get u0.get ∧ ∃ u, PlanAllowed d (configOf ops outs) x0.get u := by
  obtain ⟨st, obj, sol, -, hs⟩ := asked_solved h
  have hph := h.valid.ph_pos
  constructor
  · rintro ⟨z, hz⟩
    obtain ⟨-, hp⟩ := planOk_iff.1 ((hs.feasible_iff hms z).1 hz)
    obtain ⟨h1, h2⟩ := (ha.coded_iff hph _).1 hp
    exact ⟨h1, _, h2⟩
  · rintro ⟨h1, u, hu⟩
    refine ⟨lift d (configOf ops outs) x0.get u0.get u, (hs.feasible_iff hms _).2 (planOk_iff.2 ⟨lift_trajectory, ?_⟩)⟩
    exact planCoded_congr (fun k a hk ha => (inputAt_lift hk ha).symm) ((ha.coded_iff hph _).2 ⟨h1, hu⟩)

/-- bounds and a reference that pull against each other -/
def c63Aligned : List (LOp ℚ) :=
  [ plant1 0 1, .setObjectiveWeightsSlice (cvec 1 1) (cvec 1 0) (cvec 1 0) HorizonSlice.all,
    .setInputBoundsSlice (evec 1 (-1)) (evec 1 1) HorizonSlice.all,
    .setReferencesSlice (cvec 1 3) (cvec 1 0) (cvec 1 0) HorizonSlice.all ]

/-- C63, non-trivial case: the hypotheses hold for a plan at the bound (reference 3, commands at most 1). -/
example : ∃ m m' r call, Asked (dims1 2 2) c63Aligned (c63Aligned.map fun _ => .bool true) (cvec 1 0) (cvec 1 0)
      (.answered 1 0 (some (fun i => [0, 0, 1, 1, 1, 1, 1].getD i 0, fun _ => 0))) m m' r call ∧
    (configOf c63Aligned (c63Aligned.map fun _ => .bool true)).modelSet = true ∧
    Aligned (dims1 2 2) (configOf c63Aligned (c63Aligned.map fun _ => .bool true)) ∧
    qpOptimal call fun i => [0, 0, 1, 1, 1, 1, 1].getD i 0 := by
  obtain ⟨m, m', r, call, h⟩ := asked_of_accepts (d := dims1 2 2) (ops := c63Aligned) (x0 := cvec 1 0) (u0 := cvec 1 0)
    (dims1_valid (by decide) (by decide) (by decide) (by decide)) (by decide) (by decide) (by accepts_tac [c63Aligned]) rfl rfl
    1 0 (some (fun i => [0, 0, 1, 1, 1, 1, 1].getD i 0, fun _ => 0))
  refine ⟨m, m', r, call, h, rfl, ?_, (c63_coded_partial h rfl _).2 ?_⟩
  · refine ⟨by decide, ?_, ?_, ?_, ?_, ?_⟩ <;> simp only [dims1] <;> intro k <;> intros <;> interval_cases k <;>
      config_simp [c63Aligned]
  · refine ⟨⟨?_, ?_, ?_, ?_⟩, ⟨?_, ?_, ?_, ?_, ?_⟩, ?_⟩
    rotate_right
    · intro v hv
      have h1 := hv.held 1 0 (by decide) (by decide)
      have h2 := hv.held 2 0 (by decide) (by decide)
      revert h1 h2
      config_simp [c63Aligned, planCost, sqErr, predict, before]
      intro _ h1 _ h2
      nlinarith
    all_goals simp only [dims1]
    all_goals intro k
    all_goals try intro a
    all_goals intros
    all_goals try interval_cases a
    all_goals try interval_cases k
    all_goals try config_simp [c63Aligned, predict, before]

end Mpc.Props
