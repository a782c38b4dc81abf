import Verif.Proofs.LinSnoc
import Verif.Proofs.QpBounds
import Verif.Props.LinearQp

/-
C10 - C17, C22, C23: the configuration and the problem it determines.
-/
namespace Mpc.Props
open Mpc.Spec
set_option linter.unusedSectionVars false

variable {K : Type} [Field K] [DecidableEq K] [LinearOrder K] [IsStrictOrderedRing K]
variable {d : Dims} {ops ops' : List (LOp K)} {outs outs' : List (LOut K)} {x0 u0 : Vec K} {oc oc' : OsqpOutcome K}
  {m m' m1 m1' : LMpc K} {r r' : LResult K} {call call' : OsqpCall K}

/-! ### C10 -/

/-- C10. The plans OSQP may choose from are exactly those allowed by the last accepted write of every item. -/
theorem c10_feasible_set (h : Asked d ops outs x0 u0 oc m m' r call)
    (hms : (lastWriteConfig ops outs).modelSet = true) (z : Nat → K) :
    qpFeasible call z ↔ PlanOk d (lastWriteConfig ops outs) x0.get u0.get z := by
  rw [← configOf_lastWrite] at hms ⊢
  obtain ⟨st, obj, sol, -, hs⟩ := asked_solved h
  exact hs.feasible_iff hms z

/-- C10. The objective is determined by the last accepted write of every item. -/
theorem c10_objective (h : Asked d ops outs x0 u0 oc m m' r call)
    (hms : (lastWriteConfig ops outs).modelSet = true) :
    ∃ k : K, ∀ z, qpObjective call z + k = initialCost d (lastWriteConfig ops outs) z +
      trackingCost d (lastWriteConfig ops outs) (fun k => (lastWriteConfig ops outs).duRef (k - 1)) z := by
  rw [← configOf_lastWrite] at hms ⊢
  exact c03_shifted_partial h hms

/-- C10. The two descriptions of a configuration used in these files agree. -/
theorem c10_configOf_eq (ops : List (LOp K)) (outs : List (LOut K)) : configOf ops outs = lastWriteConfig ops outs :=
  configOf_lastWrite ops outs

example : (lastWriteConfig sampleOps sampleOuts).modelSet = true ∧ (lastWriteConfig sampleOps sampleOuts).wY 1 0 = 5 ∧
    (lastWriteConfig sampleOps sampleOuts).wY 2 0 = 1 := ⟨rfl, rfl, rfl⟩

/-- C10 for the coefficients of the scalar constraint, as a user of the slice and single-step overloads expects it:
the coefficients in force at a step are those last given for that step. -/
def C10ScalarClaim (K : Type) [Field K] [DecidableEq K] [LE K] : Prop :=
  ∀ (d : Dims) (ops : List (LOp K)) (outs : List (LOut K)) (x0 u0 : Vec K) (oc : OsqpOutcome K) (m m' : LMpc K)
    (r : LResult K) (call : OsqpCall K), Asked d ops outs x0 u0 oc m m' r call →
    (configOf ops outs).modelSet = true → ∀ z, qpFeasible call z → ∀ k, k < d.ph →
      within ((configOf ops outs).sMin k) ((configOf ops outs).sMax k)
        (dot d.nx (fun a => lastWrite (writeSXAt k a) 0 ops outs) (stateAt d z (k + 1)) +
         dot d.nu (fun a => lastWrite (writeSUAt k a) 0 ops outs) (heldAt d z (k + 1)))

/-- step 0: -1 <= x <= 1; step 1: no constraint (coefficients 0) -/
def c10ScalarOps : List (LOp ℚ) :=
  [ plant1 1 0, .setScalarConstraintAt 0 (.fin (-1)) (.fin 1) (cvec 1 1) (cvec 1 0),
    .setScalarConstraintAt 1 .negInf .posInf (cvec 1 0) (cvec 1 0) ]

theorem c10_scalar_coefficients_violated : ¬ C10ScalarClaim ℚ := by
  intro hc
  obtain ⟨m, m', r, call, h⟩ := dims1_asked (ph := 2) (ch := 2) (ops := c10ScalarOps) (by decide) (by decide) (by decide)
    (by decide) (by accepts_tac [c10ScalarOps]) 5 0
  obtain ⟨st, obj, sol, -, hs⟩ := asked_solved h
  have hz : qpFeasible call (fun i => if i = 0 ∨ i = 2 ∨ i = 4 then (5 : ℚ) else 0) := by
    refine (hs.feasible_iff rfl _).2 ⟨⟨?_, ?_, ?_, ?_⟩, ?_, ?_, ?_, ?_, ?_⟩
    all_goals simp only [dims1]
    all_goals intro k
    all_goals try intro a
    all_goals intros
    all_goals try interval_cases a
    all_goals try interval_cases k
    all_goals try config_simp [c10ScalarOps]
  have := hc _ _ _ _ _ _ _ _ _ _ h rfl _ hz 0 (by decide)
  revert this
  config_simp [c10ScalarOps, lastWrite, writeSXAt, writeSUAt]

/-! ### C11 -/

/-- C11. The problem handed to OSQP is a function of the configuration, the measured state and the last command:
two controllers of the same dimensions whose histories leave the same configuration pose the same problem. -/
theorem c11_problem_of_configuration (h : Asked d ops outs x0 u0 oc m m' r call)
    (h' : Asked d ops' outs' x0 u0 oc' m1 m1' r' call') (hc : (configOf ops outs).Agree d (configOf ops' outs')) :
    SameProblem call call' := by
  obtain ⟨st, obj, sol, -, hs⟩ := asked_solved h
  obtain ⟨st', obj', sol', -, hs'⟩ := asked_solved h'
  exact (hs.agree hc).same_problem hs'

/-- A different history, leaving the same configuration as the sample's. -/
def sampleOps2 : List (LOp ℚ) :=
  .setStateBoundsSlice (evec 2 (-1)) (evec 2 1) ⟨0, 1⟩ :: .setObjectiveWeights (cmat 1 3 7) (cmat 1 3 7) (cmat 1 3 7) ::
    sampleOps

example : (configOf sampleOps sampleOuts).Agree sampleDims (configOf sampleOps2 (sampleOps2.map fun _ => .bool true)) ∧
    ∃ m m' r call, Asked sampleDims sampleOps2 (sampleOps2.map fun _ => .bool true) (cvec 2 1) (cvec 1 0)
      (.answered 1 0 none) m m' r call := by
  constructor
  · constructor <;> intros <;>
      simp [configOf, sampleOps2, sampleOps, sampleOuts, LinConfig.after, accepted, LinConfig.apply, upd, covers,
        HorizonSlice.all]
  · refine asked_of_accepts sample_valid (by decide) (by decide) ?_ rfl rfl 1 0 none
    intro op hop
    rcases List.mem_cons.1 hop with rfl | hop
    · simp [Sized, LMpc.Accepts, SliceIn, HorizonSlice.Int32, sampleDims, evec]
    · rcases List.mem_cons.1 hop with rfl | hop
      · simp [Sized, LMpc.Accepts, sampleDims, cmat]
      · exact sample_ok op hop

/-! ### C12 -/

/-- C12. A new controller (no setter called yet) hands OSQP infinite bounds for all states, inputs, outputs and the
scalar constraint; of the increments, those of steps after the control horizon are fixed at 0. -/
theorem c12_no_limits (h : Asked d ([] : List (LOp K)) outs x0 u0 oc m m' r call) :
    (∀ ρ, boundRow d ≤ ρ → ρ < incrementRow d → call.l.get ρ = .negInf ∧ call.u.get ρ = .posInf) ∧
    (∀ k a, k < d.ph → a < d.nu → ¬ d.ch < k → call.l.get (incrementRow d + k * d.nu + a) = .negInf ∧
      call.u.get (incrementRow d + k * d.nu + a) = .posInf) ∧
    (∀ ρ, scalarRow d ≤ ρ → ρ < rowCount d → call.l.get ρ = .negInf ∧ call.u.get ρ = .posInf) := by
  obtain ⟨st, obj, sol, -, hs⟩ := asked_solved h
  have b2 : incrementRow d ≤ scalarRow d := Nat.le_add_right _ _
  have b3 : scalarRow d ≤ rowCount d := Nat.le_add_right _ _
  have hc : configOf ([] : List (LOp K)) outs = LinConfig.default := by cases outs <;> rfl
  rw [hc] at hs
  have inc : ∀ {k a}, k < d.ph → a < d.nu → incrementRow d + k * d.nu + a < scalarRow d := by
    intro k a hk ha
    have : k * d.nu + a < d.ph * d.nu := block_lt ha hk
    have : scalarRow d = incrementRow d + d.ph * d.nu := rfl
    omega
  refine ⟨?_, ?_, ?_⟩
  · intro ρ h1 h2
    rcases Solved.rows_cases (d := d) (by omega : ρ < rowCount d) with h3 | ⟨i, a, hi, ha, rfl⟩ | ⟨i, a, hi, ha, rfl⟩ |
      ⟨i, a, hi, ha, rfl⟩ | ⟨i, a, hi, ha, rfl⟩ | ⟨i, hi, rfl⟩
    · omega
    · rw [(hs.state_bounds hi ha).1, (hs.state_bounds hi ha).2]; exact ⟨rfl, rfl⟩
    · rw [(hs.held_bounds hi ha).1, (hs.held_bounds hi ha).2]; exact ⟨rfl, rfl⟩
    · rw [(hs.output_bounds hi ha).1, (hs.output_bounds hi ha).2]; exact ⟨rfl, rfl⟩
    · omega
    · omega
  · intro k a hk ha hch
    rw [(hs.increment_bounds hk ha).1, (hs.increment_bounds hk ha).2, if_neg hch, if_neg hch]
    exact ⟨rfl, rfl⟩
  · intro ρ h1 h2
    have : rowCount d = scalarRow d + (d.ph + 1) := rfl
    obtain ⟨k, rfl⟩ := Nat.exists_eq_add_of_le h1
    have hk : k ≤ d.ph := by omega
    rw [(hs.scalar_bounds hk).1, (hs.scalar_bounds hk).2]
    exact ⟨rfl, rfl⟩

example : ∃ m m' r call, Asked (dims1 4 2) ([] : List (LOp ℚ)) [] (cvec 1 3) (cvec 1 0) (.answered 1 0 none) m m' r call :=
  dims1_asked (by decide) (by decide) (by decide) (by decide) (by simp) 3 0

/-! ### C13 -/

/-- C13. The Hessian OSQP works with is positive semidefinite when all weights are non-negative. -/
theorem c13_positive_semidefinite (h : Asked d ops outs x0 u0 oc m m' r call)
    (hy : ∀ k a, k < d.ph → a < d.ny → 0 ≤ (configOf ops outs).wY k a)
    (hu : ∀ k a, k < d.ph → a < d.nu → 0 ≤ (configOf ops outs).wU k a)
    (hdu : ∀ k a, k < d.ph → a < d.nu → 0 ≤ (configOf ops outs).wDu k a) (z : Nat → K) :
    0 ≤ ∑ i ∈ Finset.range call.n, ∑ j ∈ Finset.range call.n, z i * hessian call i j * z j := by
  obtain ⟨st, obj, sol, -, hs⟩ := asked_solved h
  exact hs.quad_nonneg hy hu hdu z

/-- C13. The matrix the library assembled is symmetric, and storing its upper triangle only loses nothing: what OSQP
reconstructs is that matrix. -/
theorem c13_symmetric (h : Asked d ops outs x0 u0 oc m m' r call) {i j : Nat} (hi : i < varCount d) (hj : j < varCount d) :
    hessian call i j = m'.b.P.get i j ∧ m'.b.P.get i j = m'.b.P.get j i := by
  obtain ⟨st, obj, sol, -, hs⟩ := asked_solved h
  rw [Solved.varCount_eq] at hi hj
  have e := hs.get.P
  rw [e]
  exact ⟨hs.hessian_eq hi hj, hs.P_symm hi hj⟩

example : (∀ k a, k < sampleDims.ph → a < sampleDims.ny → 0 ≤ (configOf sampleOps sampleOuts).wY k a) ∧
    (∀ k a, k < sampleDims.ph → a < sampleDims.nu → 0 ≤ (configOf sampleOps sampleOuts).wU k a) ∧
    (∀ k a, k < sampleDims.ph → a < sampleDims.nu → 0 ≤ (configOf sampleOps sampleOuts).wDu k a) := by
  refine ⟨?_, ?_, ?_⟩ <;>
  · intro k a hk ha
    simp only [sampleDims] at hk ha
    interval_cases a
    interval_cases k <;>
      simp [configOf, sampleOps, sampleOuts, LinConfig.after, accepted, LinConfig.apply, upd, covers, cvec, cmat, columns]

/-! ### C14 -/

/-- C14. Both matrices handed to OSQP are well formed and decode to the assembled ones (the Hessian to its upper
triangle). -/
theorem c14_problem_matrices (h : Asked d ops outs x0 u0 oc m m' r call) :
    (CscWellFormed call.A ∧ call.A.m = rowCount d ∧ call.A.n = varCount d ∧
      ∀ i j, i < rowCount d → j < varCount d → cscEntry call.A i j = m'.b.A.get i j) ∧
    (CscWellFormed call.P ∧ call.P.m = varCount d ∧ call.P.n = varCount d ∧
      ∀ i j, i < varCount d → j < varCount d → cscEntry call.P i j = if i ≤ j then m'.b.P.get i j else 0) := by
  obtain ⟨st, obj, sol, -, hs⟩ := asked_solved h
  have hd := hs.inv'.builder.dims
  have sA := hs.inv'.builder.shaped.A
  have sP := hs.inv'.builder.shaped.P
  rw [hd] at sA sP
  rw [Solved.varCount_eq, Solved.rowCount_eq]
  have eP := hs.get.P
  have eA := hs.get.A
  refine ⟨⟨hs.call.A.wellFormed (Sparse.ofDense_ordered _), hs.call.A.m.trans sA.1, hs.call.A.n.trans sA.2, ?_⟩,
    ⟨hs.call.P.wellFormed (Sparse.upper_ordered (Sparse.ofDense_ordered _)), hs.call.P.m.trans sP.1,
      hs.call.P.n.trans sP.2, ?_⟩⟩
  · intro i j hi hj
    rw [eA]; exact hs.entryA hi hj
  · intro i j hi hj
    rw [eP]; exact hs.entryP hi hj

/-- C14 for the conversion itself: every matrix, of any size and contents, is copied without loss. -/
theorem c14_conversion (M : Mat K) (jp ji : Nat → Nat) (jx : Nat → K) :
    ∃ a, createOsqpSparseMatrix (Sparse.ofDense M) false jp ji jx = .ok (some a) ∧ CscWellFormed a ∧ a.m = M.rows ∧
      a.n = M.cols ∧ ∀ i j, i < M.rows → j < M.cols → cscEntry a i j = M.get i j := by
  obtain ⟨r, h1, a, rfl, h2⟩ := createOsqp_post (Sparse.ofDense M) jp ji jx
  refine ⟨a, h1, h2.wellFormed (Sparse.ofDense_ordered M), h2.m, h2.n, fun i j hi hj => ?_⟩
  exact h2.entry (Sparse.ofDense_ordered M) (show j < (Sparse.ofDense M).cols from hj) (colHas_ofDense M hi j)

/-- C14 for the upper triangle. -/
theorem c14_conversion_upper (M : Mat K) (jp ji : Nat → Nat) (jx : Nat → K) :
    ∃ a, createOsqpSparseMatrix (Sparse.ofDense M).upper false jp ji jx = .ok (some a) ∧ CscWellFormed a ∧ a.m = M.rows ∧
      a.n = M.cols ∧ ∀ i j, i < M.rows → j < M.cols → cscEntry a i j = if i ≤ j then M.get i j else 0 := by
  obtain ⟨r, h1, a, rfl, h2⟩ := createOsqp_post (Sparse.ofDense M).upper jp ji jx
  refine ⟨a, h1, h2.wellFormed (Sparse.upper_ordered (Sparse.ofDense_ordered M)), h2.m, h2.n, fun i j hi hj => ?_⟩
  exact h2.entry (Sparse.upper_ordered (Sparse.ofDense_ordered M)) (show j < (Sparse.ofDense M).upper.cols from hj)
    (colHas_upper (colHas_ofDense M hi j))

example : ∃ a : Csc ℚ, createOsqpSparseMatrix (Sparse.ofDense ⟨2, 2, fun i j => if i = j then 0 else 3⟩) false
    (fun _ => 9) (fun _ => 9) (fun _ => 9) = .ok (some a) ∧ cscEntry a 0 1 = 3 ∧ cscEntry a 1 1 = 0 := by
  obtain ⟨a, h1, -, -, -, h2⟩ := c14_conversion (K := ℚ) ⟨2, 2, fun i j => if i = j then 0 else 3⟩ (fun _ => 9) (fun _ => 9) (fun _ => 9)
  exact ⟨a, h1, h2 0 1 (by decide) (by decide), h2 1 1 (by decide) (by decide)⟩

/-! ### C22 -/

/-- Every configured lower limit is at most the upper one. -/
structure Consistent (d : Dims) (c : LinConfig K) : Prop where
  x : ∀ k a, k < d.ph → a < d.nx → c.xMin k a ≤ c.xMax k a
  u : ∀ k a, k < d.ph → a < d.nu → c.uMin k a ≤ c.uMax k a
  y : ∀ k a, k < d.ph → a < d.ny → c.yMin k a ≤ c.yMax k a
  s : ∀ k, k < d.ph → c.sMin k ≤ c.sMax k

/-- C22, first half: OSQP's requirement `l <= u` holds row by row exactly when the configured limits are consistent,
whatever the disturbances. -/
theorem c22_bounds_ordered (h : Asked d ops outs x0 u0 oc m m' r call) :
    (∀ ρ, ρ < call.m → call.l.get ρ ≤ call.u.get ρ) ↔ Consistent d (configOf ops outs) := by
  obtain ⟨st, obj, sol, -, hs⟩ := asked_solved h
  have hph := hs.valid.ph_pos
  have hm : call.m = rowCount d := by rw [Solved.rowCount_eq]; exact hs.call.m
  have e0 : outputRow d = boundRow d + (d.ph + 1) * (d.nx + d.nu) := rfl
  have e1 : incrementRow d = outputRow d + (d.ph + 1) * d.ny := rfl
  have e2 : scalarRow d = incrementRow d + d.ph * d.nu := rfl
  have e3 : rowCount d = scalarRow d + (d.ph + 1) := rfl
  constructor
  · intro ho
    refine ⟨fun k a hk ha => ?_, fun k a hk ha => ?_, fun k a hk ha => ?_, fun k hk => ?_⟩
    · have hb : (k + 1) * (d.nx + d.nu) + a < (d.ph + 1) * (d.nx + d.nu) := block_lt (by omega) (by omega)
      have := ho (boundRow d + (k + 1) * (d.nx + d.nu) + a) (by omega)
      rwa [(hs.state_bounds (by omega) ha).1, (hs.state_bounds (by omega) ha).2] at this
    · have hb : k * (d.nx + d.nu) + (d.nx + a) < (d.ph + 1) * (d.nx + d.nu) := block_lt (by omega) (by omega)
      have := ho (boundRow d + k * (d.nx + d.nu) + d.nx + a) (by omega)
      rw [(hs.held_bounds (by omega) ha).1, (hs.held_bounds (by omega) ha).2] at this
      rwa [Nat.min_eq_left (by omega)] at this
    · have hb : (k + 1) * d.ny + a < (d.ph + 1) * d.ny := block_lt (by omega) (by omega)
      have := ho (outputRow d + (k + 1) * d.ny + a) (by omega)
      rwa [(hs.output_bounds (by omega) ha).1, (hs.output_bounds (by omega) ha).2, Ext.add_le_add_iff] at this
    · have := ho (scalarRow d + (k + 1)) (by omega)
      rwa [(hs.scalar_bounds (by omega)).1, (hs.scalar_bounds (by omega)).2] at this
  · intro hc ρ hρ
    rw [hm] at hρ
    rcases Solved.rows_cases hρ with h1 | ⟨i, a, hi, ha, rfl⟩ | ⟨i, a, hi, ha, rfl⟩ | ⟨i, a, hi, ha, rfl⟩ |
      ⟨i, a, hi, ha, rfl⟩ | ⟨i, hi, rfl⟩
    · obtain ⟨v, h2, h3⟩ := hs.eq_row h1
      rw [h2, h3, Ext.fin_le_fin]
    · rw [(hs.state_bounds hi ha).1, (hs.state_bounds hi ha).2]
      exact hc.x _ _ (by omega) ha
    · rw [(hs.held_bounds hi ha).1, (hs.held_bounds hi ha).2]
      exact hc.u _ _ (by omega) ha
    · rw [(hs.output_bounds hi ha).1, (hs.output_bounds hi ha).2, Ext.add_le_add_iff]
      exact hc.y _ _ (by omega) ha
    · rw [(hs.increment_bounds hi ha).1, (hs.increment_bounds hi ha).2]
      by_cases hh : d.ch < i
      · rw [if_pos hh, if_pos hh, Ext.fin_le_fin]
      · rw [if_neg hh, if_neg hh]; simp
    · rw [(hs.scalar_bounds hi).1, (hs.scalar_bounds hi).2]
      exact hc.s _ (by omega)

example : Consistent sampleDims (configOf sampleOps sampleOuts) := by
  constructor
  · intro k a hk ha
    show (Ext.fin (-10) : Ext ℚ) ≤ .fin 10
    rw [Ext.fin_le_fin]; norm_num
  · intro k a hk ha
    simp only [sampleDims] at hk ha
    interval_cases k <;>
      simp [configOf, sampleOps, sampleOuts, LinConfig.after, accepted, LinConfig.apply, LinConfig.default, upd, covers, evec]
  · intro k a hk ha
    simp only [sampleDims] at hk ha
    interval_cases k <;>
      simp [configOf, sampleOps, sampleOuts, LinConfig.after, accepted, LinConfig.apply, LinConfig.default, upd, covers, evec]
  · intro k hk
    simp only [sampleDims] at hk
    interval_cases k <;>
      simp [configOf, sampleOps, sampleOuts, LinConfig.after, accepted, LinConfig.apply, LinConfig.default, upd]

/-- C22, second half as documented: a rejected problem is reported, not used. -/
def C22RejectClaim (K : Type) [Field K] [DecidableEq K] : Prop :=
  ∀ (d : Dims) (ops : List (LOp K)) (outs : List (LOut K)) (m : LMpc K) (x0 u0 : Vec K), Configured d ops outs m →
    x0.size = d.nx → u0.size = d.nu →
    ∃ m' r call, m.step (.optimize x0 u0 .rejected) = .ok (m', .result r call) ∧ r.status = .ERROR

/-- C22, second half: when OSQP rejects the problem, the workspace which was not created is dereferenced; this is so
after every history. -/
theorem c22_rejected_fault (h : Configured d ops outs m) (hx : x0.size = d.nx) (hu : u0.size = d.nu) :
    m.step (.optimize x0 u0 .rejected) = .error .danglingUse := by
  have hi := configured_inv h
  have := LOpt.run_rejected h.valid.ph_pos hi.opt hi.builder.shaped hi.builder.dims hx hu
  show (m.o.run m.b x0 u0 .rejected >>= _) = _
  rw [this]
  rfl

theorem c22_violated : ¬ C22RejectClaim ℚ := by
  intro hc
  obtain ⟨m, hm, -⟩ := configured_of_accepts (d := dims1 2 2) (ops := [plant1 0 0])
    (dims1_valid (by decide) (by decide) (by decide) (by decide)) (by decide) (by decide) (by accepts_tac [plant1])
  obtain ⟨m', r, call, h, -⟩ := hc _ _ _ m (cvec 1 0) (cvec 1 0) hm rfl rfl
  rw [c22_rejected_fault hm rfl rfl] at h
  cases h

/-! ### C23 -/

/-- the accepted calls of a history, in order, with their results -/
def acceptedCalls (ops : List (LOp K)) (outs : List (LOut K)) : List (LOp K × LOut K) :=
  (ops.zip outs).filter fun p => accepted p.2

theorem after_accepted (ops : List (LOp K)) : ∀ (outs : List (LOut K)) (c : LinConfig K),
    c.after ops outs = (acceptedCalls ops outs).foldl (fun c p => c.apply p.1) c := by
  induction ops with
  | nil => intro outs c; cases outs <;> rfl
  | cons op ops ih =>
    intro outs c
    cases outs with
    | nil => rfl
    | cons o outs =>
      rw [LinConfig.after, ih]
      unfold acceptedCalls
      rw [List.zip_cons_cons, List.filter_cons]
      by_cases ha : accepted o = true
      · rw [if_pos ha, if_pos (by simpa using ha)]; rfl
      · rw [if_neg ha, if_neg (by simpa using ha)]

/-- C23. Two histories with the same accepted setter calls pose the same problem: `optimize` calls in between (with any
measured state, last command and solver behaviour), rejected setters, parameter and warm-start settings make no
difference. -/
theorem c23_no_memory (h : Asked d ops outs x0 u0 oc m m' r call)
    (h' : Asked d ops' outs' x0 u0 oc' m1 m1' r' call') (hc : acceptedCalls ops outs = acceptedCalls ops' outs') :
    SameProblem call call' := by
  refine c11_problem_of_configuration h h' ?_
  have : configOf ops' outs' = configOf ops outs := by
    unfold configOf
    rw [after_accepted, after_accepted, hc]
  rw [this]
  constructor <;> intros <;> rfl

/-- C23, in particular: one more `optimize` before changes nothing. -/
theorem c23_after_optimize {x1 u1 : Vec K} {o : LOut K} (h : Asked d ops outs x0 u0 oc m m' r call)
    (h' : Asked d (ops ++ [.optimize x1 u1 oc']) (outs ++ [o]) x0 u0 oc m1 m1' r' call') :
    SameProblem call call' := by
  refine c23_no_memory h h' ?_
  have hlen := configured_length h.toConfigured
  have hno : accepted o = false := by
    obtain ⟨-, -, u, j, m0, -, he⟩ := h'.toConfigured
    obtain ⟨m1, o1, o2, e1, e2, e3, e4⟩ := LMpc.exec_append_inv ops he
    obtain ⟨rfl, rfl⟩ := List.append_inj' e3 (by
      have := congrArg List.length e3
      simp only [List.length_append, List.length_singleton] at this ⊢
      omega)
    simp only [LMpc.exec, LMpc.step, Exec.bind_eq_ok] at e2
    obtain ⟨⟨a, b⟩, ⟨q, _, h3⟩, ⟨e, f⟩, h4, h5⟩ := e2
    cases h3
    cases h4
    cases h5
    rfl
  unfold acceptedCalls
  rw [List.zip_append hlen.symm, List.filter_append]
  simp [hno]

example : ∃ o m m' r call, Asked sampleDims (sampleOps ++ [.optimize (cvec 2 3) (cvec 1 2) (.answered (-3) 0 none)])
    (sampleOuts ++ [o]) (cvec 2 1) (cvec 1 0) (.answered 1 0 none) m m' r call := by
  obtain ⟨m, hm, hw⟩ := configured_of_accepts sample_valid (by decide) (by decide) sample_ok
  obtain ⟨⟨m1, o⟩, h1⟩ := LMpc.step_total (op := .optimize (cvec 2 3) (cvec 1 2) (.answered (-3) 0 none)) sample_valid
    (by decide) (by decide) (configured_inv hm) hw ⟨rfl, rfl⟩ (fun s hs => by cases hs) (by simp [LMpc.Safe])
  have hm1 := configured_snoc (op := .optimize (cvec 2 3) (cvec 1 2) (.answered (-3) 0 none)) hm ⟨⟨rfl, rfl⟩, fun s hs => by cases hs⟩ h1
  have hw1 := LMpc.step_warm sample_valid (configured_inv hm) hw (op := .optimize (cvec 2 3) (cvec 1 2) (.answered (-3) 0 none))
    ⟨rfl, rfl⟩ (by simp [LMpc.Safe]) h1
  obtain ⟨⟨m2, o2⟩, h2⟩ := LMpc.step_total (op := .optimize (cvec 2 1) (cvec 1 0) (.answered 1 0 none)) sample_valid
    (by decide) (by decide) (configured_inv hm1) hw1 ⟨rfl, rfl⟩ (fun s hs => by cases hs) (by simp [LMpc.Safe])
  have h3 := h2
  simp only [LMpc.step, Exec.bind_eq_ok] at h3
  obtain ⟨q, hq, h3⟩ := h3
  obtain ⟨rfl, rfl⟩ : _ = m2 ∧ _ = o2 := by
    have := Except.ok.inj h3
    exact ⟨congrArg Prod.fst this, congrArg Prod.snd this⟩
  exact ⟨o, m1, _, _, _, hm1, rfl, rfl, h2⟩

end Mpc.Props
