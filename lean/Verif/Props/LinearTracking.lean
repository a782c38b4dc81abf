import Verif.Proofs.PlanRest
import Verif.Props.LinearOptimal
import Verif.Props.LinearConfig

/-
C69 - C73: consequences for the closed loop of handing OSQP the documented problem, when OSQP solves it exactly: the
command is unique, it rests at a reached target, it does not depend on the unit of the weights, it only gets better when
limits are relaxed; what the reported cost is.
-/
namespace Mpc.Props
open Mpc.Spec
set_option linter.unusedSectionVars false

variable {K : Type} [Field K] [DecidableEq K] [LinearOrder K] [IsStrictOrderedRing K]
variable {d : Dims} {ops ops' : List (LOp K)} {outs outs' : List (LOut K)} {x0 u0 : Vec K} {oc oc' : OsqpOutcome K}
  {m m' m1 m1' : LMpc K} {r r' : LResult K} {call call' : OsqpCall K} {st st' : Int} {obj obj' : K} {x y x' y' : Nat → K}

/-! ### C69 -/

/-- C69. With non-negative weights and a positive weight on every command or its increment, the problem handed to OSQP has
at most one solution. -/
theorem c69_unique_solution (h : Asked d ops outs x0 u0 oc m m' r call) (hms : (configOf ops outs).modelSet = true)
    (hw : WeightsNonneg d (configOf ops outs)) (hc : CommandsWeighted d (configOf ops outs)) {z z' : Nat → K}
    (hz : qpOptimal call z) (hz' : qpOptimal call z') :
    (∀ k a, k ≤ d.ph → a < d.nx → stateAt d z k a = stateAt d z' k a) ∧
    (∀ k a, k ≤ d.ph → a < d.nu → heldAt d z k a = heldAt d z' k a) ∧
    (∀ k a, k < d.ph → a < d.nu → incrementAt d z k a = incrementAt d z' k a) := by
  obtain ⟨t, hb⟩ := (c63_coded_partial h hms z).1 hz
  obtain ⟨t', hb'⟩ := (c63_coded_partial h hms z').1 hz'
  have e := best_unique hw hc hb hb'
  have eb : ∀ k a, k ≤ d.ph → a < d.nu → heldAt d z k a = heldAt d z' k a := fun k a hk ha => by
    rw [t.before ha, t'.before ha]; exact before_congr e hk ha
  refine ⟨fun k a hk ha => ?_, eb, fun k a hk ha => ?_⟩
  · rw [t.predict k a hk ha, t'.predict k a hk ha]; exact predict_congr e k a hk ha
  · have h1 := t.input k a hk ha
    have h2 := t'.input k a hk ha
    rw [e k a hk ha, eb k a (by omega) ha, h2] at h1
    linear_combination -h1

/-- C69. Two controllers whose histories leave the same configuration, asked about the same state with the same last
command, return the same command and the same sequences when OSQP solves both problems exactly, whatever else happened
to them (earlier answers, warm starts, solver parameters). -/
theorem c69_history_independent (h : Asked d ops outs x0 u0 (.answered st obj (some (x, y))) m m' r call)
    (h' : Asked d ops' outs' x0 u0 (.answered st' obj' (some (x', y'))) m1 m1' r' call')
    (hc : (configOf ops outs).Agree d (configOf ops' outs')) (hms : (configOf ops outs).modelSet = true)
    (hw : WeightsNonneg d (configOf ops outs)) (hcw : CommandsWeighted d (configOf ops outs))
    (hx : qpOptimal call x) (hx' : qpOptimal call' x') :
    (∀ a, a < d.nu → r.cmd.get a = r'.cmd.get a) ∧
    (∀ k a, k ≤ d.ph → a < d.nx → m'.getOptimalSequence.1.get k a = m1'.getOptimalSequence.1.get k a) ∧
    (∀ k a, k ≤ d.ph → a < d.nu → m'.getOptimalSequence.2.1.get k a = m1'.getOptimalSequence.2.1.get k a) := by
  have hph := h.valid.ph_pos
  obtain ⟨e1, e2, -⟩ := c69_unique_solution h hms hw hcw hx ((same_optimal (c11_problem_of_configuration h h' hc) x').1 hx')
  obtain ⟨-, -, -, hS, hU, hUl, -, -, hcmd⟩ := c18_sequence h
  obtain ⟨-, -, -, hS', hU', hUl', -, -, hcmd'⟩ := c18_sequence h'
  have eU : ∀ k a, k < d.ph → a < d.nu → m'.getOptimalSequence.2.1.get k a = m1'.getOptimalSequence.2.1.get k a :=
    fun k a hk ha => by rw [hU k a hk ha, hU' k a hk ha]; exact e2 (k + 1) a hk ha
  refine ⟨fun a ha => ?_, fun k a hk ha => ?_, fun k a hk ha => ?_⟩
  · rw [hcmd a ha, hcmd' a ha]; exact eU 0 a hph ha
  · rw [hS k a hk ha, hS' k a hk ha]; exact e1 k a hk ha
  · rcases Nat.lt_or_ge k d.ph with hk' | hk'
    · exact eU k a hk' ha
    · obtain rfl : k = d.ph := by omega
      rw [hUl a ha, hUl' a ha]; exact eU _ a (by omega) ha

/-! ### C70 -/

/-- C70. At rest at the target the command is kept: if holding the last command keeps the measured state, within all limits
and at all weighted references, an exact solution of the problem handed to OSQP makes `optimize` return the last command,
and the reported sequences stay where they are. -/
theorem c70_keeps_rest (h : Asked d ops outs x0 u0 (.answered st obj (some (x, y))) m m' r call)
    (hms : (configOf ops outs).modelSet = true) (hw : WeightsNonneg d (configOf ops outs))
    (hc : CommandsWeighted d (configOf ops outs)) (hr : AtRest d (configOf ops outs) x0.get u0.get) (hx : qpOptimal call x) :
    (∀ a, a < d.nu → r.cmd.get a = u0.get a) ∧
    (∀ k a, k ≤ d.ph → a < d.nx → m'.getOptimalSequence.1.get k a = x0.get a) ∧
    (∀ k a, k ≤ d.ph → a < d.nu → m'.getOptimalSequence.2.1.get k a = u0.get a) := by
  have hph := h.valid.ph_pos
  obtain ⟨t, hb⟩ := (c63_coded_partial h hms x).1 hx
  have hrest : IsBest (PlanCoded d (configOf ops outs) x0.get u0.get)
      (planCost d (configOf ops outs) x0.get u0.get fun k => (configOf ops outs).duRef (k - 1)) fun _ => u0.get :=
    ⟨hr.coded hph, fun v _ => by rw [hr.cost]; exact planCost_nonneg hw _ _⟩
  have e := best_unique hw hc hb hrest
  obtain ⟨-, -, -, hS, hU, hUl, -, -, hcmd⟩ := c18_sequence h
  have eU : ∀ k a, k < d.ph → a < d.nu → m'.getOptimalSequence.2.1.get k a = u0.get a := fun k a hk ha => by
    rw [hU k a hk ha]; exact e k a hk ha
  refine ⟨fun a ha => ?_, fun k a hk ha => ?_, fun k a hk ha => ?_⟩
  · rw [hcmd a ha]; exact eU 0 a hph ha
  · rw [hS k a hk ha, t.predict k a hk ha, ← hr.predict k a hk ha]; exact predict_congr e k a hk ha
  · rcases Nat.lt_or_ge k d.ph with hk' | hk'
    · exact eU k a hk' ha
    · obtain rfl : k = d.ph := by omega
      rw [hUl a ha]; exact eU _ a (by omega) ha

theorem rest_optimal (h : Asked d ops outs x0 u0 oc m m' r call) (hms : (configOf ops outs).modelSet = true)
    (hw : WeightsNonneg d (configOf ops outs)) (hr : AtRest d (configOf ops outs) x0.get u0.get) :
    qpOptimal call (lift d (configOf ops outs) x0.get u0.get fun _ => u0.get) := by
  have hph := h.valid.ph_pos
  have e : ∀ k a, k < d.ph → a < d.nu → u0.get a = inputAt d (lift d (configOf ops outs) x0.get u0.get fun _ => u0.get) k a :=
    fun k a hk ha => (inputAt_lift (u := fun _ => u0.get) hk ha).symm
  refine (c63_coded_partial h hms _).2 ⟨lift_trajectory, planCoded_congr e (hr.coded hph), fun v _ => ?_⟩
  rw [← planCost_congr e, hr.cost]; exact planCost_nonneg hw _ _

/-- C70, the other half: such a rest is always a solution of the problem handed to OSQP (so that the problem is solvable). -/
theorem c70_rest_is_solution (h : Asked d ops outs x0 u0 oc m m' r call) (hms : (configOf ops outs).modelSet = true)
    (hw : WeightsNonneg d (configOf ops outs)) (hr : AtRest d (configOf ops outs) x0.get u0.get) :
    ∃ z, qpOptimal call z ∧ ∀ a, a < d.nu → inputAt d z 0 a = u0.get a := by
  exact ⟨_, rest_optimal h hms hw hr, fun a ha => inputAt_lift h.valid.ph_pos ha⟩

/-- integrator at its reference 3 -/
def restOps : List (LOp ℚ) :=
  [ plant1 1 1, .setObjectiveWeightsSlice (cvec 1 1) (cvec 1 0) (cvec 1 2) HorizonSlice.all,
    .setInputBoundsSlice (evec 1 (-1)) (evec 1 1) ⟨0, 1⟩, .setStateBoundsSlice (evec 1 0) (evec 1 3) HorizonSlice.all,
    .setReferencesSlice (cvec 1 3) (cvec 1 0) (cvec 1 0) HorizonSlice.all ]

/-- what its setters return -/
def restOuts : List (LOut ℚ) := restOps.map fun _ => .bool true

theorem rest_asked (st : Int) (obj : ℚ) (sol : Option ((Nat → ℚ) × (Nat → ℚ))) :
    ∃ m m' r call, Asked (dims1 3 2) restOps restOuts (cvec 1 3) (cvec 1 0) (.answered st obj sol) m m' r call :=
  asked_of_accepts (dims1_valid (by decide) (by decide) (by decide) (by decide)) (by decide) (by decide) (by accepts_tac [restOps]) rfl rfl
    st obj sol

theorem rest_weights : WeightsNonneg (dims1 3 2) (configOf restOps restOuts) ∧ CommandsWeighted (dims1 3 2) (configOf restOps restOuts) := by
  refine ⟨⟨?_, ?_, ?_⟩, ?_⟩ <;> simp only [CommandsWeighted, dims1] <;> intro k <;> intros <;> interval_cases k <;>
    config_simp [restOps, restOuts]

theorem rest_rest : AtRest (dims1 3 2) (configOf restOps restOuts) (cvec 1 3).get (cvec 1 0).get := by
  refine ⟨?_, ?_, ?_, ?_, ?_, ?_, ?_, ?_⟩ <;> simp only [dims1] <;> intro k <;> intros <;> interval_cases k <;>
    config_simp [restOps, restOuts]

/-- C70, non-trivial case: the hypotheses hold, with limits on the command and the state. -/
example : ∃ x m m' r call, Asked (dims1 3 2) restOps restOuts (cvec 1 3) (cvec 1 0) (.answered 1 0 (some (x, fun _ => 0))) m m' r call ∧
    qpOptimal call x ∧ r.cmd.get 0 = 0 := by
  obtain ⟨m, m', r, call, h⟩ := rest_asked 1 0 (some (lift (dims1 3 2) (configOf restOps restOuts) (cvec 1 3).get (cvec 1 0).get
    fun _ => (cvec 1 0).get, fun _ => 0))
  have ho := rest_optimal h rfl rest_weights.1 rest_rest
  exact ⟨_, m, m', r, call, h, ho, (c70_keeps_rest h rfl rest_weights.1 rest_weights.2 rest_rest ho).1 0 (by decide)⟩

/-- C69, non-trivial case: another history, leaving the same configuration. -/
example : ∃ ops', ops' ≠ restOps ∧
    (configOf restOps restOuts).Agree (dims1 3 2) (configOf ops' (ops'.map fun _ => .bool true)) ∧
    ∃ x m m' r call, Asked (dims1 3 2) ops' (ops'.map fun _ => .bool true) (cvec 1 3) (cvec 1 0)
      (.answered 2 5 (some (x, fun _ => 7))) m m' r call ∧ qpOptimal call x := by
  refine ⟨.setReferencesSlice (cvec 1 9) (cvec 1 9) (cvec 1 9) ⟨0, 1⟩ :: restOps, by simp [restOps], ?_, ?_⟩
  · constructor <;> intros <;> config_simp [restOps, restOuts]
  obtain ⟨m, m', r, call, h⟩ := asked_of_accepts (d := dims1 3 2)
    (ops := .setReferencesSlice (cvec 1 9) (cvec 1 9) (cvec 1 9) ⟨0, 1⟩ :: restOps) (x0 := cvec 1 3) (u0 := cvec 1 0)
    (dims1_valid (by decide) (by decide) (by decide) (by decide)) (by decide) (by decide) (by accepts_tac [restOps]) rfl rfl
    2 5 (some (lift (dims1 3 2) (configOf restOps restOuts) (cvec 1 3).get (cvec 1 0).get fun _ => (cvec 1 0).get, fun _ => 7))
  obtain ⟨m1, m1', r1, call1, h1⟩ := rest_asked 1 0 none
  refine ⟨_, m, m', r, call, h, (same_optimal (c11_problem_of_configuration h1 h ?_) _).2 (rest_optimal h1 rfl rest_weights.1 rest_rest)⟩
  constructor <;> intros <;> config_simp [restOps, restOuts]

/-! ### C71 -/

/-- C71. Only the proportion of the weights matters: multiplying all of them by the same positive factor changes nothing
about which vectors solve the problem handed to OSQP. -/
theorem c71_weight_scale {s : K} (hs : 0 < s) (h : Asked d ops outs x0 u0 oc m m' r call)
    (h' : Asked d ops' outs' x0 u0 oc' m1 m1' r' call') (hms : (configOf ops outs).modelSet = true)
    (hc : configOf ops' outs' = (configOf ops outs).scaleWeights s) (z : Nat → K) : qpOptimal call' z ↔ qpOptimal call z := by
  have hms' : (configOf ops' outs').modelSet = true := by rw [hc]; exact hms
  rw [c63_coded_partial h hms, c63_coded_partial h' hms', hc]
  have hp : ∀ u k, predict d ((configOf ops outs).scaleWeights s) x0.get u k = predict d (configOf ops outs) x0.get u k := by
    intro u k
    induction k with
    | zero => rfl
    | succ k ih => funext a; unfold predict; rw [ih]; rfl
  have hP : ∀ u, PlanCoded d ((configOf ops outs).scaleWeights s) x0.get u0.get u ↔ PlanCoded d (configOf ops outs) x0.get u0.get u := by
    intro u
    constructor <;> rintro ⟨h1, h2, h3, h4, h5⟩
    · refine ⟨fun k a hk ha => ?_, h2, fun k a hk ha => ?_, h4, fun k hk => ?_⟩
      · have := h1 k a hk ha; rwa [hp] at this
      · have := h3 k a hk ha; rw [hp] at this; exact this
      · have := h5 k hk; rw [hp] at this; exact this
    · refine ⟨fun k a hk ha => ?_, h2, fun k a hk ha => ?_, h4, fun k hk => ?_⟩
      · rw [hp]; exact h1 k a hk ha
      · rw [hp]; exact h3 k a hk ha
      · rw [hp]; exact h5 k hk
  have hsq : ∀ n (w v ref : Nat → K), sqErr n (fun a => s * w a) v ref = s * sqErr n w v ref := fun n w v ref => by
    unfold sqErr; rw [Finset.mul_sum]; exact Finset.sum_congr rfl fun a _ => by ring
  have hC : ∀ u, planCost d ((configOf ops outs).scaleWeights s) x0.get u0.get (fun k => (configOf ops outs).duRef (k - 1)) u =
      s * planCost d (configOf ops outs) x0.get u0.get (fun k => (configOf ops outs).duRef (k - 1)) u := by
    intro u
    unfold planCost
    rw [← mul_div_assoc, Finset.mul_sum]
    congr 1
    refine Finset.sum_congr rfl fun k _ => ?_
    rw [hp, mul_add, mul_add, ← hsq, ← hsq, ← hsq]
    rfl
  refine and_congr ?_ ?_
  · constructor <;> rintro ⟨h1, h2, h3, h4⟩ <;> exact ⟨h1, h2, h3, h4⟩
  · unfold IsBest
    refine and_congr (hP _) (forall_congr' fun v => imp_congr (hP v) ?_)
    show planCost d ((configOf ops outs).scaleWeights s) x0.get u0.get (fun k => (configOf ops outs).duRef (k - 1)) _ ≤
      planCost d ((configOf ops outs).scaleWeights s) x0.get u0.get (fun k => (configOf ops outs).duRef (k - 1)) _ ↔ _
    rw [hC, hC]
    exact mul_le_mul_iff_right₀ hs

/-- C71, non-trivial case: the same controller with all weights times four. -/
example : configOf (plant1 1 1 :: .setObjectiveWeightsSlice (cvec 1 4) (cvec 1 0) (cvec 1 8) HorizonSlice.all :: restOps.drop 2) restOuts =
    (configOf restOps restOuts).scaleWeights 4 := by
  config_simp [restOps, restOuts, LinConfig.scaleWeights]
  refine ⟨?_, ?_, ?_⟩ <;> funext k a <;> simp [upd, covers] <;> norm_num

/-! ### C72 -/

/-- C72 as stated: the reported cost is the documented cost of the reported sequence, in some fixed unit. -/
def C72Claim (K : Type) [Field K] [DecidableEq K] [LinearOrder K] : Prop :=
  ∃ s : K, 0 < s ∧ ∀ (d : Dims) (ops : List (LOp K)) (outs : List (LOut K)) (x0 u0 : Vec K) (st : Int) (obj : K) (x y : Nat → K)
    (m m' : LMpc K) (r : LResult K) (call : OsqpCall K),
    Asked d ops outs x0 u0 (.answered st obj (some (x, y))) m m' r call →
    (configOf ops outs).modelSet = true → qpOptimal call x → obj = qpObjective call x →
    r.cost = .fin (s * documentedCost d (configOf ops outs) x0.get u0.get m'.getOptimalSequence.2.1.get)

/-- C72, partial: the reported cost is the cost of the reported sequence, including the terms of the measured output and the
last command, minus what the zero vector would cost. (Missing: that constant, and the increment references are shifted by
one step, see C03.) -/
theorem c72_cost_partial (h : Asked d ops outs x0 u0 (.answered st obj (some (x, y))) m m' r call)
    (hms : (configOf ops outs).modelSet = true) (hf : qpFeasible call x) (ho : obj = qpObjective call x) :
    let c := configOf ops outs
    r.cost = .fin (planCost d c x0.get u0.get (fun k => c.duRef (k - 1)) m'.getOptimalSequence.2.1.get +
      (sqErr d.ny (c.wY 0) (outputOf d c x0.get (c.dist 0)) (c.yRef 0) + sqErr d.nu (c.wU 0) u0.get (c.uRef 0)) / 2 -
      (initialCost d c 0 + trackingCost d c (fun k => c.duRef (k - 1)) 0)) := by
  intro c
  obtain ⟨st', obj', sol', he, hs⟩ := asked_solved h
  obtain ⟨rfl, rfl, rfl⟩ : st = st' ∧ obj = obj' ∧ some (x, y) = sol' := by
    injection he with h1 h2 h3; exact ⟨h1, h2, h3⟩
  obtain ⟨t, -⟩ := planOk_iff.1 ((hs.feasible_iff hms x).1 hf)
  obtain ⟨-, -, -, -, hU, -, -, -, -⟩ := c18_sequence h
  have e1 := hs.objective_eq hms x
  have e0 := hs.objective_eq hms 0
  have z0 : qpObjective call 0 = 0 := by simp [qpObjective]
  rw [initialCost_const t, t.cost, planCost_congr fun k a hk ha => (hU k a hk ha).symm] at e1
  rw [z0, zero_add] at e0
  have hr : r.cost = .fin obj := by
    obtain ⟨S, U, Y, -, ho⟩ := hs.opt
    rw [hs.res, ho]
  rw [hr, ho]
  congr 1
  rw [← e0]
  linear_combination e1

/-- C72 is violated in every unit: a plan which stays at its reference is reported with a negative cost, the documented cost
is zero. -/
theorem c72_violated : ¬ C72Claim ℚ := by
  rintro ⟨s, hs, hc⟩
  obtain ⟨m, m', r, call, h⟩ := rest_asked 1 (-18) (some (lift (dims1 3 2) (configOf restOps restOuts) (cvec 1 3).get (cvec 1 0).get
    fun _ => (cvec 1 0).get, fun _ => 0))
  have ho := rest_optimal h rfl rest_weights.1 rest_rest
  obtain ⟨-, -, hU⟩ := c70_keeps_rest h rfl rest_weights.1 rest_weights.2 rest_rest ho
  obtain ⟨st', obj', sol', he, hs⟩ := asked_solved h
  have e1 := hs.objective_eq rfl (lift (dims1 3 2) (configOf restOps restOuts) (cvec 1 3).get (cvec 1 0).get fun _ => (cvec 1 0).get)
  have e0 := hs.objective_eq rfl 0
  have z0 : qpObjective call 0 = 0 := by simp [qpObjective]
  rw [initialCost_const lift_trajectory, lift_trajectory.cost, planCost_congr fun k a hk ha => inputAt_lift hk ha, rest_rest.cost] at e1
  rw [z0, zero_add] at e0
  have hobj : -18 = qpObjective call (lift (dims1 3 2) (configOf restOps restOuts) (cvec 1 3).get (cvec 1 0).get fun _ => (cvec 1 0).get) := by
    rw [e0] at e1
    revert e1
    config_simp [restOps, restOuts, initialCost, trackingCost, sqErr]
    intro e1
    linarith
  have hcost := hc _ _ _ _ _ _ _ _ _ _ _ _ _ h rfl ho hobj
  have hr : r.cost = .fin (-18) := by
    obtain ⟨rfl, rfl, rfl⟩ : 1 = st' ∧ -18 = obj' ∧ some (_, _) = sol' := by
      injection he with h1 h2 h3; exact ⟨h1, h2, h3⟩
    obtain ⟨S, U, Y, -, ho⟩ := hs.opt
    rw [hs.res, ho]
  rw [hr] at hcost
  injection hcost with hcost
  have hz : documentedCost (dims1 3 2) (configOf restOps restOuts) (cvec 1 3).get (cvec 1 0).get m'.getOptimalSequence.2.1.get = 0 := by
    have hz : planCost (dims1 3 2) (configOf restOps restOuts) (cvec 1 3).get (cvec 1 0).get (configOf restOps restOuts).duRef
        m'.getOptimalSequence.2.1.get = 0 := by
      rw [planCost_congr (w := fun _ => (cvec 1 0).get) fun k a hk ha => hU k a (Nat.le_of_lt hk) ha]
      config_simp [restOps, restOuts, planCost, sqErr, predict, before]
    unfold documentedCost
    rw [hz]
    config_simp [restOps, restOuts, sqErr]
  rw [hz] at hcost
  norm_num at hcost

/-! ### C73 -/

/-- C73. Relaxing limits keeps every solution candidate: what satisfied the problem handed to OSQP before still does. -/
theorem c73_feasible (h : Asked d ops outs x0 u0 oc m m' r call) (h' : Asked d ops' outs' x0 u0 oc' m1 m1' r' call')
    (hms : (configOf ops outs).modelSet = true) (hr : (configOf ops outs).Relaxes (configOf ops' outs')) {z : Nat → K}
    (hz : qpFeasible call z) : qpFeasible call' z := by
  obtain ⟨st, obj, sol, -, hs⟩ := asked_solved h
  obtain ⟨st', obj', sol', -, hs'⟩ := asked_solved h'
  have hms' : (configOf ops' outs').modelSet = true := by rw [hr.same]; exact hms
  obtain ⟨t, hp⟩ := planOk_iff.1 ((hs.feasible_iff hms z).1 hz)
  refine (hs'.feasible_iff hms' z).2 (planOk_iff.2 ⟨?_, hr.coded hp⟩)
  rw [hr.same]
  exact ⟨t.state0, t.input0, t.input, t.state⟩

/-- C73. ... and with exact solutions the cost of the plan does not rise. -/
theorem c73_cost (h : Asked d ops outs x0 u0 (.answered st obj (some (x, y))) m m' r call)
    (h' : Asked d ops' outs' x0 u0 (.answered st' obj' (some (x', y'))) m1 m1' r' call')
    (hms : (configOf ops outs).modelSet = true) (hr : (configOf ops outs).Relaxes (configOf ops' outs'))
    (hx : qpOptimal call x) (hx' : qpOptimal call' x') :
    let c := configOf ops outs
    planCost d c x0.get u0.get (fun k => c.duRef (k - 1)) m1'.getOptimalSequence.2.1.get ≤
      planCost d c x0.get u0.get (fun k => c.duRef (k - 1)) m'.getOptimalSequence.2.1.get := by
  intro c
  have hms' : (configOf ops' outs').modelSet = true := by rw [hr.same]; exact hms
  obtain ⟨-, hp, -⟩ := (c63_coded_partial h hms x).1 hx
  obtain ⟨-, -, hb⟩ := (c63_coded_partial h' hms' x').1 hx'
  obtain ⟨-, -, -, -, hU, -, -, -, -⟩ := c18_sequence h
  obtain ⟨-, -, -, -, hU', -, -, -, -⟩ := c18_sequence h'
  have := hb _ (hr.coded hp)
  rw [hr.cost, hr.cost, show (configOf ops' outs').duRef = c.duRef by rw [hr.same]] at this
  rw [planCost_congr hU, planCost_congr hU']
  exact this

/-- C73, non-trivial case: wider limits on the command, the lower limit of the state dropped. -/
example : (configOf restOps restOuts).Relaxes (configOf
    (restOps ++ [.setInputBoundsSlice (evec 1 (-2)) (evec 1 2) ⟨0, 1⟩,
      .setStateBoundsSlice ⟨1, fun _ => .negInf⟩ (evec 1 3) HorizonSlice.all])
    (restOuts ++ [.bool true, .bool true])) := by
  refine ⟨?_, ?_, ?_, ?_, ?_⟩
  · config_simp [restOps, restOuts]
  all_goals intro k
  all_goals try intro a
  all_goals intro v
  all_goals config_simp [restOps, restOuts]
  · split <;> simp_all
    intro h1 h2; constructor <;> linarith

end Mpc.Props
