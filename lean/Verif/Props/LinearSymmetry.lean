import Verif.Proofs.PlanSymmetry
import Verif.Props.LinearTracking

/-
C76, C77: the linear controller does not depend on the units, the sign convention and the state coordinates in which a
control problem is described.
-/
namespace Mpc.Props
open Mpc.Spec
set_option linter.unusedSectionVars false

variable {K : Type} [Field K] [DecidableEq K] [LinearOrder K] [IsStrictOrderedRing K]
variable {d : Dims} {ops ops' : List (LOp K)} {outs outs' : List (LOut K)} {x0 u0 x0' u0' : Vec K} {oc oc' : OsqpOutcome K}
  {m m' m1 m1' : LMpc K} {r r' : LResult K} {call call' : OsqpCall K} {st st' : Int} {obj obj' : K} {x y x' y' : Nat → K}

theorem trajectory_start {c : LinConfig K} {a b a' b' z : Nat → K} (ha : ∀ e, e < d.nx → a e = a' e) (hb : ∀ e, e < d.nu → b e = b' e)
    (h : Trajectory d c a b z) : Trajectory d c a' b' z :=
  ⟨fun e he => (h.state0 e he).trans (ha e he), fun e he => (h.input0 e he).trans (hb e he), h.input, h.state⟩

theorem predict_start {c : LinConfig K} {a a' : Nat → K} (ha : ∀ e, e < d.nx → a e = a' e) (u : Nat → Nat → K) :
    ∀ k e, e < d.nx → predict d c a u k e = predict d c a' u k e
  | 0, e, he => ha e he
  | k + 1, e, _ => by
    show dot d.nx (c.A e) (predict d c a u k) + _ + _ = dot d.nx (c.A e) (predict d c a' u k) + _ + _
    rw [dot_congr fun e he => predict_start ha u k e he]

theorem before_start {b b' : Nat → K} (hb : ∀ e, e < d.nu → b e = b' e) (u : Nat → Nat → K) (k e : Nat) (he : e < d.nu) :
    before b u k e = before b' u k e := by
  cases k with
  | zero => exact hb e he
  | succ k => rfl

theorem planCoded_start {c : LinConfig K} {a b a' b' : Nat → K} (ha : ∀ e, e < d.nx → a e = a' e)
    (hb : ∀ e, e < d.nu → b e = b' e) {u : Nat → Nat → K} (h : PlanCoded d c a b u) : PlanCoded d c a' b' u := by
  obtain ⟨h1, h2, h3, h4, h5⟩ := h
  refine ⟨fun k e hk he => ?_, fun k e hk he => ?_, fun k e hk he => ?_, h4, fun k hk => ?_⟩
  · rw [← predict_start ha u k e he]; exact h1 k e hk he
  · rw [← before_start hb u k e he]; exact h2 k e hk he
  · rw [← outputOf_congr (fun e he => predict_start ha u k e he)]; exact h3 k e hk he
  · rw [← dot_congr (fun e he => predict_start ha u k e he), ← dot_congr (fun e he => before_start hb u k e he)]; exact h5 k hk

theorem planCost_start {c : LinConfig K} {a b a' b' : Nat → K} (ha : ∀ e, e < d.nx → a e = a' e)
    (hb : ∀ e, e < d.nu → b e = b' e) (duRef u : Nat → Nat → K) : planCost d c a b duRef u = planCost d c a' b' duRef u := by
  unfold planCost
  congr 1
  refine Finset.sum_congr rfl fun k _ => congrArg₂ _ (congrArg₂ _ ?_ rfl) ?_
  · exact sqErr_congr fun e _ => outputOf_congr (fun e he => predict_start ha u (k + 1) e he) e
  · exact sqErr_congr fun e he => by rw [before_start hb u k e he]

theorem best_start {c : LinConfig K} {a b a' b' : Nat → K} (ha : ∀ e, e < d.nx → a e = a' e) (hb : ∀ e, e < d.nu → b e = b' e)
    {duRef u : Nat → Nat → K} : IsBest (PlanCoded d c a b) (planCost d c a b duRef) u ↔
      IsBest (PlanCoded d c a' b') (planCost d c a' b' duRef) u := by
  have e : ∀ v, PlanCoded d c a b v ↔ PlanCoded d c a' b' v := fun v =>
    ⟨planCoded_start ha hb, planCoded_start (fun e he => (ha e he).symm) fun e he => (hb e he).symm⟩
  unfold IsBest
  rw [e, planCost_start ha hb]
  exact and_congr_right fun _ => forall_congr' fun v => by rw [e, planCost_start ha hb]

/-! ### C76 -/

/-- C76. Multiplying all signals (measured state, last command, references, disturbances, limits) by the same factor, which
may be negative, multiplies the solutions of the problem handed to OSQP by it. -/
theorem c76_solutions {s : K} (hs : s ≠ 0) (h : Asked d ops outs x0 u0 oc m m' r call)
    (h' : Asked d ops' outs' x0' u0' oc' m1 m1' r' call') (hms : (configOf ops outs).modelSet = true)
    (hc : configOf ops' outs' = (configOf ops outs).scaleSignals s) (hx : ∀ a, a < d.nx → x0'.get a = s * x0.get a)
    (hu : ∀ a, a < d.nu → u0'.get a = s * u0.get a) (z : Nat → K) :
    qpOptimal call' (fun p => s * z p) ↔ qpOptimal call z := by
  have hms' : (configOf ops' outs').modelSet = true := by rw [hc]; exact hms
  rw [c63_coded_partial h hms, c63_coded_partial h' hms', hc]
  refine and_congr ?_ ?_
  · refine Iff.trans ?_ (trajectory_scale hs)
    exact ⟨trajectory_start hx hu, trajectory_start (fun a ha => (hx a ha).symm) fun a ha => (hu a ha).symm⟩
  · rw [best_start hx hu]
    exact best_scale hs

/-- C76. With exact answers of the solver and a unique solution, the command and the reported sequences are multiplied by
the factor. -/
theorem c76_command {s : K} (hs : s ≠ 0) (h : Asked d ops outs x0 u0 (.answered st obj (some (x, y))) m m' r call)
    (h' : Asked d ops' outs' x0' u0' (.answered st' obj' (some (x', y'))) m1 m1' r' call')
    (hms : (configOf ops outs).modelSet = true) (hw : WeightsNonneg d (configOf ops outs))
    (hcw : CommandsWeighted d (configOf ops outs))
    (hc : configOf ops' outs' = (configOf ops outs).scaleSignals s) (hx : ∀ a, a < d.nx → x0'.get a = s * x0.get a)
    (hu : ∀ a, a < d.nu → u0'.get a = s * u0.get a) (ho : qpOptimal call x) (ho' : qpOptimal call' x') :
    (∀ a, a < d.nu → r'.cmd.get a = s * r.cmd.get a) ∧
    (∀ k a, k ≤ d.ph → a < d.nx → m1'.getOptimalSequence.1.get k a = s * m'.getOptimalSequence.1.get k a) ∧
    (∀ k a, k ≤ d.ph → a < d.nu → m1'.getOptimalSequence.2.1.get k a = s * m'.getOptimalSequence.2.1.get k a) := by
  have hph := h.valid.ph_pos
  have hms' : (configOf ops' outs').modelSet = true := by rw [hc]; exact hms
  have hw' : WeightsNonneg d (configOf ops' outs') := by rw [hc]; exact ⟨hw.wY, hw.wU, hw.wDu⟩
  have hcw' : CommandsWeighted d (configOf ops' outs') := by rw [hc]; exact hcw
  obtain ⟨e1, e2, -⟩ := c69_unique_solution h' hms' hw' hcw' ho' ((c76_solutions hs h h' hms hc hx hu x).2 ho)
  obtain ⟨-, -, -, hS, hU, hUl, -, -, hcmd⟩ := c18_sequence h
  obtain ⟨-, -, -, hS', hU', hUl', -, -, hcmd'⟩ := c18_sequence h'
  have eU : ∀ k a, k < d.ph → a < d.nu → m1'.getOptimalSequence.2.1.get k a = s * m'.getOptimalSequence.2.1.get k a :=
    fun k a hk ha => by rw [hU k a hk ha, hU' k a hk ha]; exact e2 (k + 1) a hk ha
  refine ⟨fun a ha => ?_, fun k a hk ha => ?_, fun k a hk ha => ?_⟩
  · rw [hcmd a ha, hcmd' a ha]; exact eU 0 a hph ha
  · rw [hS k a hk ha, hS' k a hk ha]; exact e1 k a hk ha
  · rcases Nat.lt_or_ge k d.ph with hk' | hk'
    · exact eU k a hk' ha
    · obtain rfl : k = d.ph := by omega
      rw [hUl a ha, hUl' a ha]; exact eU _ a (by omega) ha

/-- the resting integrator with the signs reversed -/
def mirrorOps : List (LOp ℚ) :=
  [ plant1 1 1, .setObjectiveWeightsSlice (cvec 1 1) (cvec 1 0) (cvec 1 2) HorizonSlice.all,
    .setInputBoundsSlice (evec 1 (-1)) (evec 1 1) ⟨0, 1⟩, .setStateBoundsSlice (evec 1 (-3)) (evec 1 0) HorizonSlice.all,
    .setReferencesSlice (cvec 1 (-3)) (cvec 1 0) (cvec 1 0) HorizonSlice.all ]

/-- C76, non-trivial case: a mirrored controller, with exact answers. -/
example : ∃ x x' m m' r call m1 m1' r' call',
    Asked (dims1 3 2) restOps restOuts (cvec 1 3) (cvec 1 0) (.answered 1 0 (some (x, fun _ => 0))) m m' r call ∧
    Asked (dims1 3 2) mirrorOps restOuts (cvec 1 (-3)) (cvec 1 0) (.answered 1 0 (some (x', fun _ => 0))) m1 m1' r' call' ∧
    configOf mirrorOps restOuts = (configOf restOps restOuts).scaleSignals (-1) ∧ qpOptimal call x ∧ qpOptimal call' x' := by
  have hc : configOf mirrorOps restOuts = (configOf restOps restOuts).scaleSignals (-1) := by
    have h1 : ¬ (1 : ℚ) < 0 := by norm_num
    config_simp [restOps, restOuts, mirrorOps, LinConfig.scaleSignals, timesLimit, h1]
    refine ⟨?_, ?_, ?_, ?_, ?_, ?_⟩ <;> funext k a <;> by_cases hk : k = 0 <;> simp [upd, covers, hk]
  obtain ⟨m, m', r, call, h⟩ := rest_asked 1 0 (some (lift (dims1 3 2) (configOf restOps restOuts) (cvec 1 3).get (cvec 1 0).get
    fun _ => (cvec 1 0).get, fun _ => 0))
  obtain ⟨m1, m1', r1, call1, h1⟩ := asked_of_accepts (d := dims1 3 2) (ops := mirrorOps) (x0 := cvec 1 (-3)) (u0 := cvec 1 0)
    (dims1_valid (by decide) (by decide) (by decide) (by decide)) (by decide) (by decide) (by accepts_tac [mirrorOps]) rfl rfl
    1 0 (some (fun p => -1 * lift (dims1 3 2) (configOf restOps restOuts) (cvec 1 3).get (cvec 1 0).get
    (fun _ => (cvec 1 0).get) p, fun _ => 0))
  have ho := rest_optimal h rfl rest_weights.1 rest_rest
  exact ⟨_, _, m, m', r, call, m1, m1', r1, call1, h, h1, hc, ho, (c76_solutions (by norm_num) h h1 rfl hc
    (by intro a _; simp [cvec]) (by intro a _; simp [cvec]) _).2 ho⟩

/-! ### C77 -/

/-- C77. Two controllers whose models respond alike (coordinates related by `T`) and which are asked about corresponding
states have problems with the same optimal commands: the commands of a solution of either are those of a solution of the
other. -/
theorem c77_solutions {n : Nat} {T : Nat → Nat → K} (h : Asked d ops outs x0 u0 oc m m' r call)
    (h' : Asked (withStates d n) ops' outs' x0' u0 oc' m1 m1' r' call') (hms : (configOf ops outs).modelSet = true)
    (hc : SameBehaviour d n T (configOf ops outs) (configOf ops' outs'))
    (hx : ∀ i, i < n → x0'.get i = dot d.nx (T i) x0.get) :
    (∀ z, qpOptimal call z → ∃ z', qpOptimal call' z' ∧ ∀ k a, k < d.ph → a < d.nu → inputAt (withStates d n) z' k a = inputAt d z k a) ∧
    (∀ z', qpOptimal call' z' → ∃ z, qpOptimal call z ∧ ∀ k a, k < d.ph → a < d.nu → inputAt d z k a = inputAt (withStates d n) z' k a) := by
  have hms' : (configOf ops' outs').modelSet = true := by rw [hc.same]; exact hms
  have hdu : (configOf ops' outs').duRef = (configOf ops outs).duRef := by rw [hc.same]
  have best_congr : ∀ {d' : Dims} {c : LinConfig K} {a b : Nat → K} {f v w : Nat → Nat → K},
      (∀ k e, k < d'.ph → e < d'.nu → v k e = w k e) → IsBest (PlanCoded d' c a b) (planCost d' c a b f) v →
      IsBest (PlanCoded d' c a b) (planCost d' c a b f) w := fun e hb =>
    ⟨planCoded_congr e hb.1, fun q hq => by rw [← planCost_congr e]; exact hb.2 q hq⟩
  constructor
  · intro z hz
    obtain ⟨-, hb⟩ := (c63_coded_partial h hms z).1 hz
    have hb' := (hc.best hx).2 hb
    refine ⟨lift (withStates d n) (configOf ops' outs') x0'.get u0.get (inputAt d z), (c63_coded_partial h' hms' _).2
      ⟨lift_trajectory, ?_⟩, fun k a hk ha => inputAt_lift (d := withStates d n) hk ha⟩
    rw [hdu]
    exact best_congr (fun k a hk ha => (inputAt_lift (d := withStates d n) hk ha).symm) hb'
  · intro z hz
    obtain ⟨-, hb⟩ := (c63_coded_partial h' hms' z).1 hz
    rw [hdu] at hb
    have hb' := (hc.best hx).1 hb
    refine ⟨lift d (configOf ops outs) x0.get u0.get (inputAt (withStates d n) z), (c63_coded_partial h hms _).2
      ⟨lift_trajectory, ?_⟩, fun k a hk ha => inputAt_lift hk ha⟩
    exact best_congr (fun k a hk ha => (inputAt_lift hk ha).symm) hb'

/-- C77. With exact answers of the solver and a unique solution, both controllers return the same command and report the
same sequence of inputs. -/
theorem c77_command {n : Nat} {T : Nat → Nat → K} (h : Asked d ops outs x0 u0 (.answered st obj (some (x, y))) m m' r call)
    (h' : Asked (withStates d n) ops' outs' x0' u0 (.answered st' obj' (some (x', y'))) m1 m1' r' call')
    (hms : (configOf ops outs).modelSet = true) (hw : WeightsNonneg d (configOf ops outs))
    (hcw : CommandsWeighted d (configOf ops outs)) (hc : SameBehaviour d n T (configOf ops outs) (configOf ops' outs'))
    (hx : ∀ i, i < n → x0'.get i = dot d.nx (T i) x0.get) (ho : qpOptimal call x) (ho' : qpOptimal call' x') :
    (∀ a, a < d.nu → r'.cmd.get a = r.cmd.get a) ∧
    (∀ k a, k < d.ph → a < d.nu → m1'.getOptimalSequence.2.1.get k a = m'.getOptimalSequence.2.1.get k a) := by
  have hph := h.valid.ph_pos
  obtain ⟨z, hz, ez⟩ := (c77_solutions h h' hms hc hx).2 x' ho'
  obtain ⟨-, e2, -⟩ := c69_unique_solution h hms hw hcw ho hz
  obtain ⟨-, -, -, -, hU, -, -, -, hcmd⟩ := c18_sequence h
  obtain ⟨-, -, -, -, hU', -, -, -, hcmd'⟩ := c18_sequence h'
  have eU : ∀ k a, k < d.ph → a < d.nu → m1'.getOptimalSequence.2.1.get k a = m'.getOptimalSequence.2.1.get k a :=
    fun k a hk ha => by
      rw [hU k a hk ha, hU' k a hk ha]; exact ((e2 (k + 1) a hk ha).trans (ez k a hk ha)).symm
  exact ⟨fun a ha => by rw [hcmd a ha, hcmd' a ha]; exact eU 0 a hph ha, eU⟩

/-- the resting integrator without state limits -/
def plainOps : List (LOp ℚ) :=
  [ plant1 1 1, .setObjectiveWeightsSlice (cvec 1 1) (cvec 1 0) (cvec 1 2) HorizonSlice.all,
    .setInputBoundsSlice (evec 1 (-1)) (evec 1 1) ⟨0, 1⟩,
    .setReferencesSlice (cvec 1 3) (cvec 1 0) (cvec 1 0) HorizonSlice.all ]

/-- the same with two states: half of the state and its negative -/
def doubledOps : List (LOp ℚ) :=
  [ .setStateSpaceModel (⟨2, 2, fun i j => if i = j then 1 else 0⟩) ⟨2, 1, fun i _ => if i = 0 then 1 / 2 else -1⟩
      ⟨1, 2, fun _ j => if j = 0 then 2 else 0⟩,
    .setObjectiveWeightsSlice (cvec 1 1) (cvec 1 0) (cvec 1 2) HorizonSlice.all,
    .setInputBoundsSlice (evec 1 (-1)) (evec 1 1) ⟨0, 1⟩,
    .setReferencesSlice (cvec 1 3) (cvec 1 0) (cvec 1 0) HorizonSlice.all ]

/-- C77, non-trivial case: one state and two states. -/
example : ∃ m m' r call m1 m1' r' call',
    Asked (dims1 3 2) plainOps (plainOps.map fun _ => .bool true) (cvec 1 5) (cvec 1 0) (.answered 1 0 none) m m' r call ∧
    Asked (withStates (dims1 3 2) 2) doubledOps (plainOps.map fun _ => .bool true) ⟨2, fun i => if i = 0 then 5 / 2 else -5⟩ (cvec 1 0)
      (.answered 1 0 none) m1 m1' r' call' ∧
    SameBehaviour (dims1 3 2) 2 (fun i _ => if i = 0 then 1 / 2 else -1) (configOf plainOps (plainOps.map fun _ => .bool true))
      (configOf doubledOps (plainOps.map fun _ => .bool true)) := by
  obtain ⟨m, m', r, call, h⟩ := asked_of_accepts (d := dims1 3 2) (ops := plainOps) (x0 := cvec 1 5) (u0 := cvec 1 0)
    (dims1_valid (by decide) (by decide) (by decide) (by decide)) (by decide) (by decide) (by accepts_tac [plainOps]) rfl rfl
    1 0 none
  obtain ⟨m1, m1', r1, call1, h1⟩ := asked_of_accepts (d := withStates (dims1 3 2) 2) (ops := doubledOps)
    (x0 := ⟨2, fun i => if i = 0 then 5 / 2 else -5⟩) (u0 := cvec 1 0)
    ⟨by decide, by decide, by decide, by decide⟩ (by decide) (by decide) (by accepts_tac [doubledOps, withStates]) rfl rfl 1 0 none
  refine ⟨m, m', r, call, m1, m1', r1, call1, h, h1, ?_⟩
  constructor
  · intro i e hi he
    have : e = 0 := by simp only [dims1] at he; omega
    subst this
    interval_cases i <;> config_simp [plainOps, doubledOps]
  · intro i e hi he
    have : e = 0 := by simp only [dims1] at he; omega
    subst this
    interval_cases i <;> config_simp [plainOps, doubledOps]
  · intro i e hi he
    interval_cases i <;> config_simp [plainOps, doubledOps]
  · intro i e hi he
    have : e = 0 := by simp only [dims1] at he; omega
    subst this
    config_simp [plainOps, doubledOps]
  · intro e he
    config_simp [plainOps, doubledOps]
  · config_simp [plainOps, doubledOps]
  · intro k a
    config_simp [plainOps, doubledOps]
  · intro k a
    config_simp [plainOps, doubledOps]

end Mpc.Props
