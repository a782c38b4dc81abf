import Verif.Proofs.LinSnoc
import Verif.Props.LinearQp

/-
C05 - C09, C55: bounds, scalar constraint and control horizon.
-/
namespace Mpc.Props
open Mpc.Spec
set_option linter.unusedSectionVars false

variable {K : Type} [Field K] [DecidableEq K] [LinearOrder K] [IsStrictOrderedRing K]
variable {d : Dims} {ops : List (LOp K)} {outs : List (LOut K)} {x0 u0 : Vec K} {oc : OsqpOutcome K}
  {m m' : LMpc K} {r : LResult K} {call : OsqpCall K}

/-! ### C05 -/

/-- C05, first half: the bound given for step `k` constrains the command of step `k`. -/
def C05Claim (K : Type) [Field K] [DecidableEq K] [LE K] : Prop :=
  ∀ (d : Dims) (ops : List (LOp K)) (outs : List (LOut K)) (x0 u0 : Vec K) (oc : OsqpOutcome K) (m m' : LMpc K)
    (r : LResult K) (call : OsqpCall K), Asked d ops outs x0 u0 oc m m' r call →
    (configOf ops outs).modelSet = true → d.ch ≤ d.ph →
    ∀ z, qpFeasible call z → ∀ k a, k < d.ch → a < d.nu →
      within ((configOf ops outs).uMin k a) ((configOf ops outs).uMax k a) (inputAt d z k a)

/-- the command of step 0 is limited to [-1, 1] -/
def c05Ops : List (LOp ℚ) := [ plant1 0 0, .setInputBoundsSlice (evec 1 (-1)) (evec 1 1) ⟨0, 1⟩ ]

theorem c05_asked (u : ℚ) : ∃ m m' r call, Asked (dims1 2 2) c05Ops (c05Ops.map fun _ => .bool true) (cvec 1 0) (cvec 1 u)
    (.answered 1 0 none) m m' r call :=
  dims1_asked (by decide) (by decide) (by decide) (by decide) (by accepts_tac [c05Ops]) 0 u

theorem c05_violated : ¬ C05Claim ℚ := by
  intro hc
  obtain ⟨m, m', r, call, h⟩ := c05_asked 0
  obtain ⟨st, obj, sol, -, hs⟩ := asked_solved h
  -- u_0 = u_1 = 5
  have hz : qpFeasible call (fun i => if i = 3 ∨ i = 5 ∨ i = 6 then (5 : ℚ) else 0) := by
    refine (hs.feasible_iff rfl _).2 ⟨⟨?_, ?_, ?_, ?_⟩, ?_, ?_, ?_, ?_, ?_⟩
    all_goals simp only [dims1]
    all_goals intro k
    all_goals try intro a
    all_goals intros
    all_goals try interval_cases a
    all_goals try interval_cases k
    all_goals try config_simp [c05Ops]
  have := hc _ _ _ _ _ _ _ _ _ _ h rfl (by decide) _ hz 0 0 (by decide) (by decide)
  revert this
  config_simp [c05Ops]

/-- C05, second half: input bounds never constrain the last command, which is already applied. -/
def C05LastCommandClaim (K : Type) [Field K] [DecidableEq K] [LE K] : Prop :=
  ∀ (d : Dims) (ops : List (LOp K)) (outs : List (LOut K)) (x0 u0 : Vec K) (oc : OsqpOutcome K) (m m' : LMpc K)
    (r : LResult K) (call : OsqpCall K), Asked d ops outs x0 u0 oc m m' r call →
    (configOf ops outs).modelSet = true → d.ch ≤ d.ph →
    ∀ z, Trajectory d (configOf ops outs) x0.get u0.get z →
      (∀ k a, k < d.ph → a < d.nu →
        within ((configOf ops outs).uMin k a) ((configOf ops outs).uMax k a) (inputAt d z k a)) →
      ∀ a, a < d.nu → rowOk call z (boundRow d + d.nx + a)

theorem c05_last_command_violated : ¬ C05LastCommandClaim ℚ := by
  intro hc
  -- last command 5, next commands 0
  obtain ⟨m, m', r, call, h⟩ := c05_asked 5
  obtain ⟨st, obj, sol, -, hs⟩ := asked_solved h
  have hz : Trajectory (dims1 2 2) (configOf c05Ops (c05Ops.map fun _ => .bool true)) (cvec 1 0).get (cvec 1 5).get
      (fun i => if i = 1 then (5 : ℚ) else if i = 6 then -5 else 0) := by
    refine ⟨?_, ?_, ?_, ?_⟩
    all_goals simp only [dims1]
    all_goals intro k
    all_goals try intro a
    all_goals intros
    all_goals try interval_cases a
    all_goals try interval_cases k
    all_goals try config_simp [c05Ops]
  have := hc _ _ _ _ _ _ _ _ _ _ h rfl (by decide) _ hz (by
    simp only [dims1]
    intro k a hk ha
    interval_cases a
    interval_cases k <;> config_simp [c05Ops]) 0 (by decide)
  have := (hs.held_row (i := 0) (a := 0) (Nat.zero_le _) (by decide) _).1 (by simpa using this)
  revert this
  config_simp [c05Ops]

/-- C05, what holds: the row of the input in force before step `k` says that it lies within the bounds of step
`min k (ph-1)`; this input is `u_{k-1}`, or the last command for `k = 0`. Missing: the documented alignment. -/
theorem c05_held_partial (h : Asked d ops outs x0 u0 oc m m' r call) {k a : Nat} (hk : k ≤ d.ph) (ha : a < d.nu)
    (z : Nat → K) :
    rowOk call z (boundRow d + k * (d.nx + d.nu) + d.nx + a) ↔
      within ((configOf ops outs).uMin (min k (d.ph - 1)) a) ((configOf ops outs).uMax (min k (d.ph - 1)) a)
        (heldAt d z k a) := by
  obtain ⟨st, obj, sol, -, hs⟩ := asked_solved h
  exact hs.held_row hk ha z

/-- C05 holds for bounds which are the same at all steps, apart from the last command being bounded too. -/
theorem c05_constant_partial (h : Asked d ops outs x0 u0 oc m m' r call)
    (hb : ∀ k a, k < d.ph → a < d.nu → (configOf ops outs).uMin k a = (configOf ops outs).uMin 0 a ∧
      (configOf ops outs).uMax k a = (configOf ops outs).uMax 0 a)
    {z : Nat → K} (hz : Trajectory d (configOf ops outs) x0.get u0.get z) :
    (∀ k a, k ≤ d.ph → a < d.nu → rowOk call z (boundRow d + k * (d.nx + d.nu) + d.nx + a)) ↔
      (∀ a, a < d.nu → within ((configOf ops outs).uMin 0 a) ((configOf ops outs).uMax 0 a) (u0.get a)) ∧
      (∀ k a, k < d.ph → a < d.nu →
        within ((configOf ops outs).uMin k a) ((configOf ops outs).uMax k a) (inputAt d z k a)) := by
  have hph := h.valid.ph_pos
  constructor
  · intro hr
    refine ⟨fun a ha => ?_, fun k a hk ha => ?_⟩
    · have := (c05_held_partial h (Nat.zero_le _) ha z).1 (hr 0 a (Nat.zero_le _) ha)
      rw [Nat.zero_min, hz.input0 a ha] at this
      exact this
    · have := (c05_held_partial h (k := k + 1) (by omega) ha z).1 (hr (k + 1) a (by omega) ha)
      obtain ⟨e1, e2⟩ := hb (min (k + 1) (d.ph - 1)) a (by omega) ha
      obtain ⟨f1, f2⟩ := hb k a hk ha
      rw [f1, f2, ← e1, ← e2]
      exact this
  · rintro ⟨h1, h2⟩ k a hk ha
    refine (c05_held_partial h hk ha z).2 ?_
    obtain ⟨e1, e2⟩ := hb (min k (d.ph - 1)) a (by omega) ha
    rw [e1, e2]
    rcases Nat.eq_zero_or_pos k with rfl | hpos
    · rw [hz.input0 a ha]; exact h1 a ha
    · obtain ⟨k, rfl⟩ : ∃ j, k = j + 1 := ⟨k - 1, by omega⟩
      obtain ⟨f1, f2⟩ := hb k a (by omega) ha
      rw [← f1, ← f2]
      exact h2 k a (by omega) ha

/-- constant input bounds on the whole horizon -/
def c05ConstOps : List (LOp ℚ) := [ plant1 1 1, .setInputBoundsSlice (evec 1 (-1)) (evec 1 1) HorizonSlice.all ]

example : ∃ m m' r call, Asked (dims1 3 3) c05ConstOps (c05ConstOps.map fun _ => .bool true) (cvec 1 0) (cvec 1 0)
      (.answered 1 0 none) m m' r call ∧
    ∀ k a, k < 3 → a < 1 →
      (configOf c05ConstOps (c05ConstOps.map fun _ => .bool true)).uMin k a =
        (configOf c05ConstOps (c05ConstOps.map fun _ => .bool true)).uMin 0 a ∧
      (configOf c05ConstOps (c05ConstOps.map fun _ => .bool true)).uMax k a =
        (configOf c05ConstOps (c05ConstOps.map fun _ => .bool true)).uMax 0 a := by
  obtain ⟨m, m', r, call, h⟩ := dims1_asked (ph := 3) (ch := 3) (ops := c05ConstOps) (by decide) (by decide) (by decide)
    (by decide) (by accepts_tac [c05ConstOps]) 0 0
  exact ⟨m, m', r, call, h, fun k a _ _ => ⟨rfl, rfl⟩⟩

/-! ### C06 -/

/-- C06. The row of output `y_k` says that `C x_k` plus the feed-through of the disturbance given for the same API
index lies within the bounds given for that index (index `k - 1`, or 0 for `k = 0`). -/
theorem c06_output_bounds (h : Asked d ops outs x0 u0 oc m m' r call) {k a : Nat} (hk : k ≤ d.ph) (ha : a < d.ny)
    (z : Nat → K) :
    rowOk call z (outputRow d + k * d.ny + a) ↔
      within ((configOf ops outs).yMin (k - 1) a) ((configOf ops outs).yMax (k - 1) a)
        (outputOf d (configOf ops outs) (stateAt d z k) ((configOf ops outs).dist (k - 1)) a) := by
  obtain ⟨st, obj, sol, -, hs⟩ := asked_solved h
  exact hs.output_row hk ha z

example : (configOf sampleOps sampleOuts).yMin 0 0 = .fin (-4) ∧ (configOf sampleOps sampleOuts).dist 1 0 = 1 / 2 ∧
    (configOf sampleOps sampleOuts).Dd 0 0 = 1 := ⟨rfl, rfl, rfl⟩

/-! ### C55 -/

/-- C55 as documented: the output of step `k` contains the disturbance of step `k`, the one entering the state
equation at step `k`. -/
def C55Claim (K : Type) [Field K] [DecidableEq K] [LE K] : Prop :=
  ∀ (d : Dims) (ops : List (LOp K)) (outs : List (LOut K)) (x0 u0 : Vec K) (oc : OsqpOutcome K) (m m' : LMpc K)
    (r : LResult K) (call : OsqpCall K), Asked d ops outs x0 u0 oc m m' r call →
    (configOf ops outs).modelSet = true → ∀ z, qpFeasible call z →
    ∀ k a, 0 < k → k < d.ph → a < d.ny →
      within ((configOf ops outs).yMin (k - 1) a) ((configOf ops outs).yMax (k - 1) a)
        (outputOf d (configOf ops outs) (stateAt d z k) ((configOf ops outs).dist k) a)

/-- y_1 limited to [0, 0]; the disturbance, fed through to the output only, is 0 at step 0 and 1 at step 1 -/
def c55Ops : List (LOp ℚ) :=
  [ plant1 0 0, .setDisturbances (cmat 1 1 0) (cmat 1 1 1), .setExogenousInputs ⟨1, 2, fun _ k => k⟩,
    .setOutputBoundsSlice (evec 1 0) (evec 1 0) ⟨0, 1⟩ ]

theorem c55_violated : ¬ C55Claim ℚ := by
  intro hc
  obtain ⟨m, m', r, call, h⟩ := dims1_asked (ph := 2) (ch := 2) (ops := c55Ops) (by decide) (by decide) (by decide)
    (by decide) (by accepts_tac [c55Ops]) 0 0
  obtain ⟨st, obj, sol, -, hs⟩ := asked_solved h
  have hz : qpFeasible call (fun _ => (0 : ℚ)) := by
    refine (hs.feasible_iff rfl _).2 ⟨⟨?_, ?_, ?_, ?_⟩, ?_, ?_, ?_, ?_, ?_⟩
    all_goals simp only [dims1]
    all_goals intro k
    all_goals try intro a
    all_goals intros
    all_goals try interval_cases a
    all_goals try interval_cases k
    all_goals try config_simp [c55Ops]
  have := hc _ _ _ _ _ _ _ _ _ _ h rfl _ hz 1 0 (by decide) (by decide) (by decide)
  revert this
  config_simp [c55Ops]

/-- C55 holds for disturbances which are the same at all steps. -/
theorem c55_constant_partial (h : Asked d ops outs x0 u0 oc m m' r call)
    (hd : ∀ k a, k < d.ph → a < d.ndu → (configOf ops outs).dist k a = (configOf ops outs).dist 0 a)
    {k a : Nat} (hk : k < d.ph) (ha : a < d.ny) (z : Nat → K) :
    rowOk call z (outputRow d + k * d.ny + a) ↔
      within ((configOf ops outs).yMin (k - 1) a) ((configOf ops outs).yMax (k - 1) a)
        (outputOf d (configOf ops outs) (stateAt d z k) ((configOf ops outs).dist k) a) := by
  rw [c06_output_bounds h (by omega) ha z]
  have : outputOf d (configOf ops outs) (stateAt d z k) ((configOf ops outs).dist (k - 1)) a =
      outputOf d (configOf ops outs) (stateAt d z k) ((configOf ops outs).dist k) a := by
    unfold outputOf dot
    congr 1
    refine Finset.sum_congr rfl fun e he => ?_
    rw [hd k e hk (Finset.mem_range.1 he), hd (k - 1) e (by omega) (Finset.mem_range.1 he)]
  rw [this]

example : ∀ k a, k < sampleDims.ph → a < sampleDims.ndu →
    (configOf sampleOps sampleOuts).dist k a = (configOf sampleOps sampleOuts).dist 0 a := fun _ _ _ _ => rfl

/-! ### C07 -/

/-- C07 for limits which are the same at all steps (a special case of the documented behaviour, so that the
question which step's limits apply does not arise). -/
def C07Claim (K : Type) [Field K] [DecidableEq K] [LE K] : Prop :=
  ∀ (d : Dims) (ops : List (LOp K)) (outs : List (LOut K)) (x0 u0 : Vec K) (oc : OsqpOutcome K) (m m' : LMpc K)
    (r : LResult K) (call : OsqpCall K), Asked d ops outs x0 u0 oc m m' r call →
    (configOf ops outs).modelSet = true →
    (∀ k, k < d.ph → (configOf ops outs).sMin k = (configOf ops outs).sMin 0 ∧
      (configOf ops outs).sMax k = (configOf ops outs).sMax 0) →
    ∀ z, qpFeasible call z → ∀ k, k < d.ph →
      within ((configOf ops outs).sMin k) ((configOf ops outs).sMax k)
        (dot d.nx (configOf ops outs).sX (stateAt d z k) + dot d.nu (configOf ops outs).sU (inputAt d z k))

/-- -1 <= x_k + u_k <= 1 for the plant x+ = -x -/
def c07Ops : List (LOp ℚ) :=
  [ plant1 (-1) 0, .setScalarConstraintSlice (.fin (-1)) (.fin 1) (cvec 1 1) (cvec 1 1) HorizonSlice.all ]

theorem c07_violated : ¬ C07Claim ℚ := by
  intro hc
  obtain ⟨m, m', r, call, h⟩ := dims1_asked (ph := 2) (ch := 2) (ops := c07Ops) (by decide) (by decide) (by decide)
    (by decide) (by accepts_tac [c07Ops]) 1 0
  obtain ⟨st, obj, sol, -, hs⟩ := asked_solved h
  -- x = 1, -1, 1; u_0 = 0, u_1 = -2
  have hz : qpFeasible call
      (fun i => if i = 0 ∨ i = 4 then (1 : ℚ) else if i = 2 then -1 else if i = 5 ∨ i = 7 then -2 else 0) := by
    refine (hs.feasible_iff rfl _).2 ⟨⟨?_, ?_, ?_, ?_⟩, ?_, ?_, ?_, ?_, ?_⟩
    all_goals simp only [dims1]
    all_goals intro k
    all_goals try intro a
    all_goals intros
    all_goals try interval_cases a
    all_goals try interval_cases k
    all_goals try config_simp [c07Ops]
    all_goals norm_num
  have := hc _ _ _ _ _ _ _ _ _ _ h rfl (fun k _ => ⟨rfl, rfl⟩) _ hz 1 (by decide)
  revert this
  config_simp [c07Ops]

/-- C07, what holds: row `k` pairs the state of step `k` with the input held before step `k`. Missing: the input
applied at step `k`. -/
theorem c07_held_partial (h : Asked d ops outs x0 u0 oc m m' r call) {k : Nat} (hk : k ≤ d.ph) (z : Nat → K) :
    rowOk call z (scalarRow d + k) ↔
      within ((configOf ops outs).sMin (k - 1)) ((configOf ops outs).sMax (k - 1))
        (dot d.nx (configOf ops outs).sX (stateAt d z k) + dot d.nu (configOf ops outs).sU (heldAt d z k)) := by
  obtain ⟨st, obj, sol, -, hs⟩ := asked_solved h
  exact hs.scalar_row hk z

/-- C07 holds for constraints on the state alone. -/
theorem c07_state_only_partial (h : Asked d ops outs x0 u0 oc m m' r call)
    (hU : ∀ a, a < d.nu → (configOf ops outs).sU a = 0) {k : Nat} (hk : k ≤ d.ph) (z : Nat → K) :
    rowOk call z (scalarRow d + k) ↔
      within ((configOf ops outs).sMin (k - 1)) ((configOf ops outs).sMax (k - 1))
        (dot d.nx (configOf ops outs).sX (stateAt d z k) + dot d.nu (configOf ops outs).sU (inputAt d z k)) := by
  have e : ∀ v : Nat → K, dot d.nu (configOf ops outs).sU v = 0 := fun v =>
    Finset.sum_eq_zero fun a ha => by rw [hU a (Finset.mem_range.1 ha), zero_mul]
  rw [c07_held_partial h hk z, e, e]

example : ∃ m m' r call, Asked (dims1 2 2) [plant1 1 1, .setScalarConstraintAt 1 (.fin 0) .posInf (cvec 1 3) (cvec 1 0)]
      [.bool true, .bool true] (cvec 1 0) (cvec 1 0) (.answered 1 0 none) m m' r call ∧
    ∀ a, a < 1 → (configOf [plant1 1 1, .setScalarConstraintAt 1 (.fin (0 : ℚ)) .posInf (cvec 1 3) (cvec 1 0)]
      [.bool true, .bool true]).sU a = 0 := by
  obtain ⟨m, m', r, call, h⟩ := dims1_asked (ph := 2) (ch := 2)
    (ops := [plant1 1 1, .setScalarConstraintAt 1 (.fin 0) .posInf (cvec 1 3) (cvec 1 0)]) (by decide) (by decide)
    (by decide) (by decide) (by accepts_tac [plant1]) 0 0
  exact ⟨m, m', r, call, h, fun _ _ => rfl⟩

/-! ### C08 -/

/-- C08 as documented: no change of the input from the control horizon on. -/
def C08Claim (K : Type) [Field K] [DecidableEq K] [LE K] : Prop :=
  ∀ (d : Dims) (ops : List (LOp K)) (outs : List (LOut K)) (x0 u0 : Vec K) (oc : OsqpOutcome K) (m m' : LMpc K)
    (r : LResult K) (call : OsqpCall K), Asked d ops outs x0 u0 oc m m' r call →
    (configOf ops outs).modelSet = true → ∀ z, qpFeasible call z →
    ∀ k a, d.ch ≤ k → k < d.ph → a < d.nu → inputAt d z k a = inputAt d z (d.ch - 1) a

theorem c08_violated : ¬ C08Claim ℚ := by
  intro hc
  obtain ⟨m, m', r, call, h⟩ := dims1_asked (ph := 2) (ch := 1) (ops := [plant1 0 0]) (by decide) (by decide) (by decide)
    (by decide) (by accepts_tac [plant1]) 0 0
  obtain ⟨st, obj, sol, -, hs⟩ := asked_solved h
  -- u_0 = 0, u_1 = 1
  have hz : qpFeasible call (fun i => if i = 5 ∨ i = 7 then (1 : ℚ) else 0) := by
    refine (hs.feasible_iff rfl _).2 ⟨⟨?_, ?_, ?_, ?_⟩, ?_, ?_, ?_, ?_, ?_⟩
    all_goals simp only [dims1]
    all_goals intro k
    all_goals try intro a
    all_goals intros
    all_goals try interval_cases a
    all_goals try omega
    all_goals try interval_cases k
    all_goals try config_simp [plant1]
  have := hc _ _ _ _ _ _ _ _ _ _ h rfl _ hz 1 0 (by decide) (by decide) (by decide)
  revert this
  simp [inputAt, heldAt, dims1]

/-- C08, what holds: the rows of the input increments say that those of steps `k > ch` vanish, and nothing else. -/
theorem c08_increment_rows_partial (h : Asked d ops outs x0 u0 oc m m' r call) {k a : Nat} (hk : k < d.ph) (ha : a < d.nu)
    (z : Nat → K) :
    rowOk call z (incrementRow d + k * d.nu + a) ↔ (d.ch < k → incrementAt d z k a = 0) := by
  obtain ⟨st, obj, sol, -, hs⟩ := asked_solved h
  exact hs.increment_row hk ha z

/-- C08, what holds: the input is frozen one step later than documented. -/
theorem c08_frozen_partial (h : Asked d ops outs x0 u0 oc m m' r call) (hms : (configOf ops outs).modelSet = true)
    {z : Nat → K} (hz : qpFeasible call z) {k a : Nat} (hk : d.ch ≤ k) (hk' : k < d.ph) (ha : a < d.nu) :
    inputAt d z k a = inputAt d z d.ch a := by
  obtain ⟨st, obj, sol, -, hs⟩ := asked_solved h
  have hp := (hs.feasible_iff hms z).1 hz
  induction k, hk using Nat.le_induction with
  | base => rfl
  | succ k hk ih =>
    rw [hp.trajectory.input (k + 1) a hk' ha, hp.frozen (k + 1) a (by omega) hk' ha, add_zero]
    exact ih (by omega)

/-- C08 holds when the control horizon is the prediction horizon: there is nothing to freeze and no row acts. -/
theorem c08_full_partial (h : Asked d ops outs x0 u0 oc m m' r call) (hc : d.ph ≤ d.ch + 1) {k a : Nat} (hk : k < d.ph)
    (ha : a < d.nu) (z : Nat → K) : rowOk call z (incrementRow d + k * d.nu + a) :=
  (c08_increment_rows_partial h hk ha z).2 fun hh => by omega

example : sampleDims.ch ≤ 2 ∧ 2 < sampleDims.ph ∧ sampleDims.ph ≤ sampleDims.ch + 1 := by decide

/-! ### C09 -/

/-- C09 as documented: whole-horizon input bounds are accepted for every control horizon up to the prediction
horizon. -/
def C09Claim (K : Type) [Field K] [DecidableEq K] : Prop :=
  ∀ (d : Dims) (ops : List (LOp K)) (outs : List (LOut K)) (m : LMpc K), Configured d ops outs m → d.ch ≤ d.ph →
    ∀ mn mx : Mat (Ext K), Sized d (.setInputBounds mn mx) → ∃ m', m.step (.setInputBounds mn mx) = .ok (m', .bool true)

/-- C09 fails for every control horizon shorter than the prediction horizon, whatever was configured before: a column
past the end of the given matrix is read. -/
theorem c09_fault (h : Configured d ops outs m) (hc : d.ch ≠ d.ph) {mn mx : Mat (Ext K)}
    (hs : Sized d (.setInputBounds mn mx)) : m.step (.setInputBounds mn mx) = .error .outOfBounds := by
  have hi := configured_inv h
  have := Builder.setInputBounds_fault hi.builder hc hs.1 hs.2
  show (m.b.setInputBounds mn mx >>= _) = _
  rw [this]
  rfl

theorem c09_violated : ¬ C09Claim ℚ := by
  intro hc
  obtain ⟨m, hm, -⟩ := configured_of_accepts (d := dims1 2 1) (ops := [plant1 0 0])
    (dims1_valid (by decide) (by decide) (by decide) (by decide)) (by decide) (by decide) (by accepts_tac [plant1])
  have hsz : Sized (K := ℚ) (dims1 2 1) (.setInputBounds ⟨1, 1, fun _ _ => .fin 0⟩ ⟨1, 1, fun _ _ => .fin 1⟩) :=
    ⟨⟨rfl, rfl⟩, rfl, rfl⟩
  obtain ⟨m', h⟩ := hc _ _ _ m hm (by decide) _ _ hsz
  rw [c09_fault hm (by decide) hsz] at h
  cases h

private theorem whole_input (hd : d.Valid) {c : LinConfig K} (hi : LMpc.Inv d m c) (hc : d.ch = d.ph)
    {mn mx : Mat (Ext K)} (hs : Sized d (.setInputBounds mn mx)) :
    Exec.Post (m.step (.setInputBounds mn mx)) (LMpc.AccOk d c (.setInputBounds mn mx)) :=
  LMpc.whole_builder (op := .setInputBounds mn mx) (f := fun b => b.setInputBounds mn mx) hi rfl rfl rfl rfl
    (Builder.setInputBounds_post hd hi.builder hc (LMpc.inputColumns hs.1 hc) (LMpc.inputColumns hs.2 hc))

/-- C09 holds when both horizons are equal: the call is accepted, and from then on column `k` is what is configured
for step `k`. -/
theorem c09_equal_horizons_partial (h : Configured d ops outs m) (hc : d.ch = d.ph)
    {mn mx : Mat (Ext K)} (hs : Sized d (.setInputBounds mn mx)) :
    ∃ m', m.step (.setInputBounds mn mx) = .ok (m', .bool true) ∧
      Configured d (ops ++ [.setInputBounds mn mx]) (outs ++ [.bool true]) m' ∧
      ∀ k a, k < d.ph → a < d.nu →
        (configOf (ops ++ [.setInputBounds mn mx]) (outs ++ [.bool true])).uMin k a = mn.get a k ∧
        (configOf (ops ++ [.setInputBounds mn mx]) (outs ++ [.bool true])).uMax k a = mx.get a k := by
  have hlen := configured_length h
  have hi := configured_inv h
  obtain ⟨⟨m', o⟩, h1, h2, h3⟩ := whole_input h.valid hi hc hs
  obtain rfl : o = .bool true := h2
  refine ⟨m', h1, configured_snoc h ⟨hs, fun s hs => by cases hs⟩ h1, fun k a hk ha => ?_⟩
  rw [configOf_snoc hlen]
  obtain ⟨⟨-, c1⟩, -, c2⟩ := hs
  simp only [accepted, if_true, LinConfig.apply]
  rw [c1, c2, Nat.min_eq_left (by omega)]
  exact ⟨rfl, rfl⟩

end Mpc.Props
