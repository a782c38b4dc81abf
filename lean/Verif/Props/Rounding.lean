import Mathlib.Algebra.Order.Ring.Pow
import Mathlib.Data.Rat.Floor
import Verif.Proofs.RoundCost
import Verif.Props.LinearAccuracy
import Verif.Props.LinearConfig

/-
C103 - C107: the linear controller computing with floating-point numbers. `R` is any rounding, for instance `Rounding.binary 53`;
`c.exact` is the configuration the user wrote, every stored number read as the real number it is, and `call.exact` the problem
OSQP was handed, read in the same way.
-/
namespace Mpc.Props
open Mpc.Spec Exec
set_option linter.unusedSectionVars false

variable {K : Type} [Field K] [DecidableEq K] [LinearOrder K] [IsStrictOrderedRing K] {R : Rounding K}
variable {d : Dims} {ops : List (LOp (Fl R))} {outs : List (LOut (Fl R))} {x0 u0 : Vec (Fl R)} {oc : OsqpOutcome (Fl R)}
  {m m' : LMpc (Fl R)} {r : LResult (Fl R)} {call : OsqpCall (Fl R)}

/-! ### A sample: `double`s -/

/-- IEEE double precision -/
abbrev double : Rounding ℚ := Rounding.binary ℚ 53 (by norm_num)

/-- the `double` nearest to a number -/
def dbl (x : ℚ) : Fl double := Fl.of double x

/-- x+ = 0.1 x + 0.3 u + 0.7 d, y = x + 0.9 d, limits and references which are no `double`s either -/
def roundOps (dist : ℚ) : List (LOp (Fl double)) :=
  [ .setStateSpaceModel ⟨1, 1, fun _ _ => dbl (1 / 10)⟩ ⟨1, 1, fun _ _ => dbl (3 / 10)⟩ ⟨1, 1, fun _ _ => dbl (11 / 10)⟩,
    .setDisturbances ⟨1, 1, fun _ _ => dbl (7 / 10)⟩ ⟨1, 1, fun _ _ => dbl (9 / 10)⟩,
    .setObjectiveWeightsSlice ⟨1, fun _ => dbl (1 / 3)⟩ ⟨1, fun _ => dbl (1 / 5)⟩ ⟨1, fun _ => dbl (1 / 7)⟩ HorizonSlice.all,
    .setOutputBoundsSlice ⟨1, fun _ => .fin (dbl (-1 / 3))⟩ ⟨1, fun _ => .fin (dbl (1 / 3))⟩ HorizonSlice.all,
    .setExogenousInputs ⟨1, 2, fun _ _ => dbl dist⟩ ]

/-- the same plant with y = x -/
def selectOps : List (LOp (Fl double)) :=
  [ .setStateSpaceModel ⟨1, 1, fun _ _ => dbl (1 / 10)⟩ ⟨1, 1, fun _ _ => dbl (3 / 10)⟩ ⟨1, 1, fun _ _ => dbl 1⟩,
    .setObjectiveWeightsSlice ⟨1, fun _ => dbl (1 / 3)⟩ ⟨1, fun _ => dbl (1 / 5)⟩ ⟨1, fun _ => dbl (1 / 7)⟩ HorizonSlice.all,
    .setOutputBoundsSlice ⟨1, fun _ => .fin (dbl (-1 / 3))⟩ ⟨1, fun _ => .fin (dbl (1 / 3))⟩ HorizonSlice.all ]

theorem dbl_nonneg {x : ℚ} (h : 0 ≤ x) : 0 ≤ (dbl x).val := by
  have := double.mono 0 x h
  rwa [double.zero] at this

theorem select_asked (x0 u0 : ℚ) (st : Int) (obj : Fl double) (sol : Option ((Nat → Fl double) × (Nat → Fl double))) :
    ∃ m m' r call, Asked (dims1 2 2) selectOps (selectOps.map fun _ => .bool true) ⟨1, fun _ => dbl x0⟩
      ⟨1, fun _ => dbl u0⟩ (.answered st obj sol) m m' r call :=
  asked_of_accepts (dims1_valid (by decide) (by decide) (by decide) (by decide)) (by decide) (by decide)
    (by accepts_tac [selectOps]) rfl rfl st obj sol

theorem round_asked (dist x0 u0 : ℚ) (st : Int) (obj : Fl double) (sol : Option ((Nat → Fl double) × (Nat → Fl double))) :
    ∃ m m' r call, Asked (dims1 2 2) (roundOps dist) ((roundOps dist).map fun _ => .bool true) ⟨1, fun _ => dbl x0⟩
      ⟨1, fun _ => dbl u0⟩ (.answered st obj sol) m m' r call :=
  asked_of_accepts (dims1_valid (by decide) (by decide) (by decide) (by decide)) (by decide) (by decide)
    (by accepts_tac [roundOps]) rfl rfl st obj sol

/-! ### C103 -/

/-- C103. When no disturbance enters the prediction, rounding does not touch the constraints: the plans OSQP may choose from are
exactly the plans of the configured plant from the measured state which respect the configured limits. -/
theorem c103_feasible_set_exact (h : Asked d ops outs x0 u0 oc m m' r call) (hms : (configOf ops outs).modelSet = true)
    (hn : Undisturbed d (configOf ops outs).exact) (z : Nat → K) :
    qpFeasible call.exact z ↔ PlanOk d (configOf ops outs).exact (exactly x0) (exactly u0) z := by
  obtain ⟨st, obj, sol, -, hs⟩ := asked_solved h
  obtain ⟨m1, m1', r1, call1, h1⟩ := Solved.exists h.valid (configOf ops outs).exact (x0 := x0.map Fl.val) (u0 := u0.map Fl.val)
    h.x0Size h.u0Size 0 0 none
  refine Iff.trans ?_ (h1.feasible_iff hms z)
  unfold qpFeasible
  rw [show call.exact.m = d.nC from hs.call.m, h1.call.m]
  refine forall_congr' fun ρ => forall_congr' fun hρ => ?_
  unfold rowOk
  rw [hs.rowValue_exact h1 (Twin.map Fl.val _) hρ, (hs.bounds_exact h1 hn hρ).1, (hs.bounds_exact h1 hn hρ).2]

example (x0 u0 : ℚ) : ∃ ops outs x u oc m m' r, ∃ call : OsqpCall (Fl double), Asked (dims1 2 2) ops outs x u oc m m' r call ∧
    (configOf ops outs).modelSet = true ∧ Undisturbed (dims1 2 2) (configOf ops outs).exact ∧ exactly x 0 = (dbl x0).val := by
  obtain ⟨m, m', r, call, h⟩ := round_asked 0 x0 u0 1 0 none
  refine ⟨_, _, _, _, _, _, _, _, _, h, rfl, .inl fun k e _ _ => ?_, rfl⟩
  have h0 : (dbl 0).val = 0 := double.zero
  show ((configOf (roundOps 0) _).dist k e).val = 0
  config_simp [roundOps, h0]

/-- C103. Whatever the disturbances, the rows which state the dynamics are equalities: both sides of every such row are the same
number. -/
theorem c103_equalities (h : Asked d ops outs x0 u0 oc m m' r call) {ρ : Nat} (hρ : ρ < boundRow d) :
    ∃ v, call.exact.l.get ρ = .fin v ∧ call.exact.u.get ρ = .fin v := by
  obtain ⟨st, obj, sol, -, hs⟩ := asked_solved h
  have hdim := hs.inv.builder.dims
  have g1 := hs.get.leqlu
  have g2 := hs.get.l0x
  have g3 := hs.get.l0u
  have g4 := hs.get.le
  simp only [hdim] at g1 g2 g3 g4
  rw [Solved.boundRow_eq] at hρ
  show ∃ v, (call.l.get ρ).map Fl.val = .fin v ∧ (call.u.get ρ).map Fl.val = .fin v
  rw [hs.call.l, hs.call.u, ← g1 ρ hρ]
  have key : ∃ v, m'.b.l.get ρ = .fin v := by
    obtain ⟨i, a, hi, ha, rfl⟩ := exists_block (s := d.nu + d.nx) (n := d.ph + 1) hρ
    rcases i with _ | i
    · rw [Nat.zero_mul, Nat.zero_add]
      by_cases hx : a < d.nx
      · exact ⟨_, g2 a hx⟩
      · obtain ⟨a', rfl⟩ := Nat.exists_eq_add_of_le (Nat.le_of_not_lt hx)
        exact ⟨_, g3 a' (by omega)⟩
    · exact ⟨_, g4 i a (by omega) ha⟩
  obtain ⟨v, hv⟩ := key
  rw [hv]
  exact ⟨v.val, rfl, rfl⟩

theorem ext_add_mono {lo hi : Ext (Fl R)} (h : lo.map Fl.val ≤ hi.map Fl.val) (t : Fl R) :
    (lo.add t).map Fl.val ≤ (hi.add t).map Fl.val := by
  cases lo <;> cases hi <;> simp_all [Ext.add]
  exact R.mono _ _ (by have h' := h; exact add_le_add_left h' t.val)

/-- C103. Whatever the disturbances, OSQP's requirement `l <= u` holds in every row when the configured limits are consistent:
rounding the shifted output limits does not exchange them. -/
theorem c103_bounds_ordered (h : Asked d ops outs x0 u0 oc m m' r call) (hc : Consistent d (configOf ops outs).exact) :
    ∀ ρ, ρ < call.exact.m → call.exact.l.get ρ ≤ call.exact.u.get ρ := by
  obtain ⟨st, obj, sol, -, hs⟩ := asked_solved h
  have hph := hs.valid.ph_pos
  have hm : call.exact.m = rowCount d := by rw [Solved.rowCount_eq]; exact hs.call.m
  intro ρ hρ
  rw [hm] at hρ
  show (call.l.get _).map Fl.val ≤ (call.u.get _).map Fl.val
  rcases Solved.rows_cases hρ with h1 | ⟨i, a, hi, ha, rfl⟩ | ⟨i, a, hi, ha, rfl⟩ | ⟨i, a, hi, ha, rfl⟩ |
    ⟨i, a, hi, ha, rfl⟩ | ⟨i, hi, rfl⟩
  · obtain ⟨v, h2, h3⟩ := c103_equalities h h1
    have e1 : (call.l.get ρ).map Fl.val = .fin v := h2
    have e2 : (call.u.get ρ).map Fl.val = .fin v := h3
    rw [e1, e2, Ext.fin_le_fin]
  · rw [(hs.state_bounds hi ha).1, (hs.state_bounds hi ha).2]
    exact hc.x _ _ (by omega) ha
  · rw [(hs.held_bounds hi ha).1, (hs.held_bounds hi ha).2]
    exact hc.u _ _ (by omega) ha
  · rw [(hs.output_bounds_raw hi ha).1, (hs.output_bounds_raw hi ha).2]
    exact ext_add_mono (hc.y (i - 1) a (by omega) ha) _
  · rw [(hs.increment_bounds hi ha).1, (hs.increment_bounds hi ha).2]
    by_cases hh : d.ch < i
    · rw [if_pos hh, if_pos hh]
      exact (Ext.fin_le_fin _ _).2 (le_refl _)
    · rw [if_neg hh, if_neg hh]; simp
  · rw [(hs.scalar_bounds hi).1, (hs.scalar_bounds hi).2]
    exact hc.s _ (by omega)

example : Consistent (dims1 2 2) (configOf (roundOps (1 / 2)) ((roundOps (1 / 2)).map fun _ => .bool true)).exact := by
  have h3 : (dbl (-1 / 3)).val ≤ (dbl (1 / 3)).val := double.mono _ _ (by norm_num)
  constructor
  · intro k a hk ha
    config_simp [roundOps, LinConfig.exact, LinConfig.map]
  · intro k a hk ha
    config_simp [roundOps, LinConfig.exact, LinConfig.map]
  · intro k a hk ha
    have : k < 2 := hk
    config_simp [roundOps, LinConfig.exact, LinConfig.map]
    rw [show (3 : ℚ)⁻¹ = 1 / 3 by norm_num]
    exact h3
  · intro k hk
    config_simp [roundOps, LinConfig.exact, LinConfig.map]

/-! ### C104 -/

/-- C104. With disturbances, a vector which satisfies the rows OSQP was handed up to a residual `δ` is a plan of the configured
plant up to `δ` and the rounding errors of the disturbance terms, and conversely. -/
theorem c104_near_plan (h : Asked d ops outs x0 u0 oc m m' r call) (hms : (configOf ops outs).modelSet = true) {B δ : K}
    (hB : DisturbanceScale d (configOf ops outs).exact B) (hB0 : 0 ≤ B) {z : Nat → K} :
    (qpNearFeasible δ call.exact z →
      PlanNear d (configOf ops outs).exact (δ + R.gamma (d.ndu + 2) * B) (exactly x0) (exactly u0) z) ∧
    (PlanNear d (configOf ops outs).exact δ (exactly x0) (exactly u0) z →
      qpNearFeasible (δ + R.gamma (d.ndu + 2) * B) call.exact z) := by
  obtain ⟨st, obj, sol, -, hs⟩ := asked_solved h
  obtain ⟨m1, m1', r1, call1, h1⟩ := Solved.exists h.valid (configOf ops outs).exact (x0 := x0.map Fl.val) (u0 := u0.map Fl.val)
    h.x0Size h.u0Size 0 0 none
  have e0 : call.exact.m = d.nC := hs.call.m
  constructor
  · intro hf
    refine (h1.near_iff (ε := δ + R.gamma (d.ndu + 2) * B) hms).1 fun ρ hρ => ?_
    rw [h1.call.m] at hρ
    have := hf ρ (by rw [e0]; exact hρ)
    rw [hs.rowValue_exact h1 (Twin.map Fl.val _) hρ] at this
    obtain ⟨n1, n2⟩ := hs.bounds_near h1 hB hB0 hρ
    exact n1.nearly n2 this
  · intro hp ρ hρ
    rw [e0] at hρ
    have := (h1.near_iff (ε := δ) hms).2 hp ρ (by rw [h1.call.m]; exact hρ)
    rw [hs.rowValue_exact h1 (Twin.map Fl.val _) hρ]
    obtain ⟨n1, n2⟩ := hs.bounds_near h1 hB hB0 hρ
    exact n1.symm.nearly n2.symm this

example (x0 u0 : ℚ) : ∃ ops outs x u oc m m' r B, ∃ call : OsqpCall (Fl double), Asked (dims1 2 2) ops outs x u oc m m' r call ∧
    (configOf ops outs).modelSet = true ∧ DisturbanceScale (dims1 2 2) (configOf ops outs).exact B ∧ 0 ≤ B ∧
    (configOf ops outs).exact.dist 0 0 = 1 := by
  obtain ⟨m, m', r, call, h⟩ := round_asked 1 x0 u0 1 0 none
  have h0 : (dbl 1).val = 1 := double.one
  have p1 := abs_nonneg (dbl (7 / 10)).val
  have p2 := abs_nonneg (dbl (9 / 10)).val
  have p3 := abs_nonneg (dbl (1 / 3)).val
  have p4 := abs_nonneg (dbl (-1 / 3)).val
  refine ⟨_, _, _, _, _, _, _, _, |(dbl (7 / 10)).val| + |(dbl (9 / 10)).val| + |(dbl (1 / 3)).val| + |(dbl (-1 / 3)).val|, _, h,
    rfl, ⟨?_, ?_, ?_⟩, by linarith, ?_⟩
  · intro k a hk ha
    have : k < 2 := hk
    config_simp [roundOps, LinConfig.exact, LinConfig.map, h0]
    linarith
  · intro k a l hk ha
    have : k < 2 := hk
    config_simp [roundOps, LinConfig.exact, LinConfig.map, h0]
    rintro rfl
    linarith
  · intro k a l hk ha
    have : k < 2 := hk
    config_simp [roundOps, LinConfig.exact, LinConfig.map, h0]
    rintro rfl
    linarith
  · config_simp [roundOps, LinConfig.exact, LinConfig.map, h0]

/-- C104. The relative error of `n` operations is about `n` times the error of one. -/
theorem c104_gamma (n : Nat) (hn : n * R.eps ≤ 1 / 2) : n * R.eps ≤ R.gamma n ∧ R.gamma n ≤ 2 * (n * R.eps) := by
  have e0 := R.eps_nonneg
  constructor
  · have := one_add_mul_le_pow (a := R.eps) (by linarith) n
    unfold Rounding.gamma
    linarith
  · rcases Nat.eq_zero_or_pos n with rfl | hpos
    · simp [Rounding.gamma]
    have e1 : R.eps ≤ 1 / 2 := le_trans (le_mul_of_one_le_left e0 (by exact_mod_cast hpos)) hn
    have b1 := one_add_mul_le_pow (a := -R.eps) (by linarith) n
    have b2 : (1 + R.eps) ^ n * (1 + -R.eps) ^ n ≤ 1 := by
      rw [← mul_pow]
      exact pow_le_one₀ (by nlinarith) (by nlinarith)
    have p1 : 1 ≤ (1 + R.eps) ^ n := R.one_le_pow n
    have b3 : (1 + R.eps) ^ n * (1 - n * R.eps) ≤ 1 :=
      le_trans (mul_le_mul_of_nonneg_left (by linarith) (by linarith)) b2
    unfold Rounding.gamma
    have t0 : 0 ≤ n * R.eps := mul_nonneg (Nat.cast_nonneg _) e0
    nlinarith [mul_nonneg t0 (sub_nonneg.2 hn)]

/-! ### C105 -/

/-- the cost of a plan, as the code pairs the references (see C03) -/
def shiftedCost (d : Dims) (c : LinConfig K) (z : Nat → K) : K :=
  initialCost d c z + trackingCost d c (fun k => c.duRef (k - 1)) z

/-- C105. Up to a constant, the objective OSQP minimises is the cost of the plan, with an error of at most the relative error of
`nu + ny + ndu + 4` operations, compared with the same cost without cancellations. The bound does not grow with the horizon
length other than through the cost. -/
theorem c105_objective (h : Asked d ops outs x0 u0 oc m m' r call) (hms : (configOf ops outs).modelSet = true) :
    ∃ κ : K, ∀ z, |qpObjective call.exact z + κ - shiftedCost d (configOf ops outs).exact z| ≤
      R.gamma (d.nu + d.ny + d.ndu + 4) * costScale d (configOf ops outs).exact z := by
  obtain ⟨st, obj, sol, -, hs⟩ := asked_solved h
  obtain ⟨m1, m1', r1, call1, h1⟩ := Solved.exists h.valid (configOf ops outs).exact (x0 := x0.map Fl.val) (u0 := u0.map Fl.val)
    h.x0Size h.u0Size 0 0 none
  obtain ⟨m2, m2', r2, call2, h2⟩ := Solved.exists h.valid (configOf ops outs).exact.magnitudes (x0 := x0.map Fl.val)
    (u0 := u0.map Fl.val) h.x0Size h.u0Size 0 0 none
  refine ⟨Solved.constTerm d (configOf ops outs).exact, fun z => ?_⟩
  have e1 := h1.objective_eq hms z
  have e2 := h2.objective_eq hms (fun i => |z i|)
  have e3 := hs.objective_err h1 h2 z
  have e4 : 0 ≤ Solved.constTerm d (configOf ops outs).exact.magnitudes := Solved.constTerm_nonneg
  unfold shiftedCost
  rw [← e1, show qpObjective call.exact z + Solved.constTerm d (configOf ops outs).exact -
    (qpObjective call1 z + Solved.constTerm d (configOf ops outs).exact) = qpObjective call.exact z - qpObjective call1 z by ring]
  refine e3.trans (mul_le_mul_of_nonneg_left ?_ (R.gamma_nonneg _))
  unfold costScale
  rw [← e2]
  linarith

/-- C105. An answer of OSQP which is at most `ε` worse than any other for the problem it was handed is, in terms of the configured
cost, at most `ε` and the rounding errors of the two costs worse than any plan. -/
theorem c105_near_optimal (h : Asked d ops outs x0 u0 oc m m' r call) (hms : (configOf ops outs).modelSet = true)
    (hn : Undisturbed d (configOf ops outs).exact) {ε : K} {z w : Nat → K} (hz : qpNearOptimal ε call.exact z)
    (hw : PlanOk d (configOf ops outs).exact (exactly x0) (exactly u0) w) :
    shiftedCost d (configOf ops outs).exact z ≤ shiftedCost d (configOf ops outs).exact w + ε +
      R.gamma (d.nu + d.ny + d.ndu + 4) *
        (costScale d (configOf ops outs).exact z + costScale d (configOf ops outs).exact w) := by
  obtain ⟨κ, hκ⟩ := c105_objective h hms
  have e1 := hκ z
  have e2 := hκ w
  have e3 := hz.2 w ((c103_feasible_set_exact h hms hn w).2 hw)
  rw [abs_le] at e1 e2
  rw [mul_add]
  linarith [e1.1, e2.2]

/-! ### C106 -/

/-- C106, as the user expects it: with non-negative weights, the Hessian handed to OSQP is positive semidefinite (OSQP requires
it). -/
def C106Claim (R : Rounding K) : Prop :=
  ∀ (d : Dims) (ops : List (LOp (Fl R))) (outs : List (LOut (Fl R))) (x0 u0 : Vec (Fl R)) (oc : OsqpOutcome (Fl R))
    (m m' : LMpc (Fl R)) (r : LResult (Fl R)) (call : OsqpCall (Fl R)), Asked d ops outs x0 u0 oc m m' r call →
    (∀ k a, k < d.ph → a < d.ny → 0 ≤ (configOf ops outs).exact.wY k a) →
    (∀ k a, k < d.ph → a < d.nu → 0 ≤ (configOf ops outs).exact.wU k a) →
    (∀ k a, k < d.ph → a < d.nu → 0 ≤ (configOf ops outs).exact.wDu k a) → ∀ z : Nat → K,
    0 ≤ ∑ i ∈ Finset.range call.n, ∑ j ∈ Finset.range call.n, z i * hessian call.exact i j * z j

/-- C106, what holds: with non-negative weights the Hessian is positive semidefinite up to the rounding errors of its entries. -/
theorem c106_nearly_convex_partial (h : Asked d ops outs x0 u0 oc m m' r call) (hms : (configOf ops outs).modelSet = true)
    (hy : ∀ k a, k < d.ph → a < d.ny → 0 ≤ (configOf ops outs).exact.wY k a)
    (hu : ∀ k a, k < d.ph → a < d.nu → 0 ≤ (configOf ops outs).exact.wU k a)
    (hdu : ∀ k a, k < d.ph → a < d.nu → 0 ≤ (configOf ops outs).exact.wDu k a) (z : Nat → K) :
    -(R.gamma (d.nu + d.ny + 2) * curvatureScale d (configOf ops outs).exact z) ≤
      ∑ i ∈ Finset.range call.n, ∑ j ∈ Finset.range call.n, z i * hessian call.exact i j * z j := by
  obtain ⟨st, obj, sol, -, hs⟩ := asked_solved h
  obtain ⟨m1, m1', r1, call1, h1⟩ := Solved.exists h.valid (configOf ops outs).exact (x0 := x0.map Fl.val) (u0 := u0.map Fl.val)
    h.x0Size h.u0Size 0 0 none
  obtain ⟨m2, m2', r2, call2, h2⟩ := Solved.exists h.valid (configOf ops outs).exact.magnitudes (x0 := x0.map Fl.val)
    (u0 := u0.map Fl.val) h.x0Size h.u0Size 0 0 none
  have e1 := h1.quad_nonneg hy hu hdu z
  have e2 := hs.quad_err h1 h2 z
  rw [h2.curvature_eq hms z, abs_le] at e2
  have e3 : call.exact.n = call.n := rfl
  rw [e3] at e2
  linarith [e2.1]

/-- C106. In exact arithmetic the claim holds. -/
theorem c106_exact_arithmetic (K : Type) [Field K] [DecidableEq K] [LinearOrder K] [IsStrictOrderedRing K] :
    C106Claim (Rounding.exact K) := by
  refine fun d ops outs x0 u0 oc m m' r call h hy hu hdu z => ?_
  obtain ⟨st, obj, sol, -, hs⟩ := asked_solved h
  obtain ⟨m1, m1', r1, call1, h1⟩ := Solved.exists h.valid (configOf ops outs).exact (x0 := x0.map Fl.val) (u0 := u0.map Fl.val)
    h.x0Size h.u0Size 0 0 none
  obtain ⟨m2, m2', r2, call2, h2⟩ := Solved.exists h.valid (configOf ops outs).exact.magnitudes (x0 := x0.map Fl.val)
    (u0 := u0.map Fl.val) h.x0Size h.u0Size 0 0 none
  have e1 := h1.quad_nonneg hy hu hdu z
  have e2 := hs.quad_err h1 h2 z
  have e3 : (Rounding.exact K).gamma (d.nu + d.ny + 2) = 0 := by simp [Rounding.gamma, Rounding.exact]
  rw [e3, zero_mul, abs_nonpos_iff, sub_eq_zero] at e2
  exact e1.trans_eq e2.symm

/-- C106, what holds: when every output coefficient is 0, 1 or -1 and no state is read by two outputs - the outputs select
states - nothing is rounded, and non-negative weights give a positive semidefinite Hessian. -/
theorem c106_selecting_partial (h : Asked d ops outs x0 u0 oc m m' r call)
    (hC : ∀ a e, a < d.ny → e < d.nx → (configOf ops outs).exact.C a e = 0 ∨ (configOf ops outs).exact.C a e = 1 ∨
      (configOf ops outs).exact.C a e = -1)
    (hone : ∀ a a' e, a < d.ny → a' < d.ny → e < d.nx → (configOf ops outs).exact.C a e ≠ 0 →
      (configOf ops outs).exact.C a' e ≠ 0 → a = a')
    (hy : ∀ k a, k < d.ph → a < d.ny → 0 ≤ (configOf ops outs).exact.wY k a)
    (hu : ∀ k a, k < d.ph → a < d.nu → 0 ≤ (configOf ops outs).exact.wU k a)
    (hdu : ∀ k a, k < d.ph → a < d.nu → 0 ≤ (configOf ops outs).exact.wDu k a) (z : Nat → K) :
    0 ≤ ∑ i ∈ Finset.range call.n, ∑ j ∈ Finset.range call.n, z i * hessian call.exact i j * z j := by
  obtain ⟨st, obj, sol, -, hs⟩ := asked_solved h
  obtain ⟨m1, m1', r1, call1, h1⟩ := Solved.exists h.valid (configOf ops outs).exact (x0 := x0.map Fl.val) (u0 := u0.map Fl.val)
    h.x0Size h.u0Size 0 0 none
  refine (h1.quad_nonneg hy hu hdu z).trans_eq ?_
  rw [hs.call.n, h1.call.n]
  refine Finset.sum_congr rfl fun i hi => Finset.sum_congr rfl fun j hj => ?_
  rw [hs.hessian_exact h1 hC hone (Finset.mem_range.1 hi) (Finset.mem_range.1 hj)]

theorem select_undisturbed : Undisturbed (dims1 2 2) (configOf selectOps (selectOps.map fun _ => .bool true)).exact := by
  refine .inl fun k e _ _ => ?_
  config_simp [selectOps, LinConfig.exact, LinConfig.map]

theorem select_plan : PlanOk (dims1 2 2) (configOf selectOps (selectOps.map fun _ => .bool true)).exact
    (exactly (⟨1, fun _ => dbl 0⟩ : Vec (Fl double))) (exactly (⟨1, fun _ => dbl 0⟩ : Vec (Fl double))) (fun _ => 0) := by
  have h0 : (dbl 0).val = 0 := double.zero
  have h3 : (dbl (-1 / 3)).val ≤ 0 := by
    have := double.mono (-1 / 3) 0 (by norm_num); rw [double.zero] at this; exact this
  have h4 : 0 ≤ (dbl 3⁻¹).val := dbl_nonneg (by norm_num)
  refine ⟨⟨?_, ?_, ?_, ?_⟩, ?_, ?_, ?_, ?_, ?_⟩
  · intro a _; exact h0.symm
  · intro a _; exact h0.symm
  · intro k a _ _; config_simp [h0]
  · intro k a _ _; config_simp [selectOps, LinConfig.exact, LinConfig.map, h0]
  · intro k a _ _; config_simp [selectOps, LinConfig.exact, LinConfig.map, h0]
  · intro k a _ _; config_simp [selectOps, LinConfig.exact, LinConfig.map, h0]
  · intro k a hk ha
    have : k ≤ 2 := hk
    have h5 : k - 1 < 2 := by omega
    config_simp [selectOps, LinConfig.exact, LinConfig.map, h0]
    exact ⟨h3, h4⟩
  · intro k a _ _ _; config_simp [h0]
  · intro k _; config_simp [selectOps, LinConfig.exact, LinConfig.map, h0]

/-- the sample with y = x has a plan and an optimal answer -/
example : ∃ ops outs x u oc m m' r, ∃ call : OsqpCall (Fl double), Asked (dims1 2 2) ops outs x u oc m m' r call ∧
    (configOf ops outs).modelSet = true ∧ Undisturbed (dims1 2 2) (configOf ops outs).exact ∧
    qpNearOptimal 0 call.exact (fun _ => 0) ∧
    PlanOk (dims1 2 2) (configOf ops outs).exact (exactly x) (exactly u) (fun _ => 0) := by
  obtain ⟨m, m', r, call, h⟩ := select_asked 0 0 1 0 none
  have h1 : (dbl 1).val = 1 := double.one
  have h4 : 0 ≤ (dbl 3⁻¹).val := dbl_nonneg (by norm_num)
  have h5 : 0 ≤ (dbl 5⁻¹).val := dbl_nonneg (by norm_num)
  have h7 : 0 ≤ (dbl 7⁻¹).val := dbl_nonneg (by norm_num)
  have hn := select_undisturbed
  have hp := select_plan
  refine ⟨_, _, _, _, _, _, _, _, _, h, rfl, hn, ⟨?_, ?_⟩, hp⟩
  · exact (c103_feasible_set_exact h rfl hn _).2 hp
  · intro w _
    have hc := c106_selecting_partial h
      (by intro a e _ _; config_simp [selectOps, LinConfig.exact, LinConfig.map, h1])
      (by intro a a' e (ha : a < 1) (ha' : a' < 1) _ _ _; omega)
      (by intro k a hk _; have : k < 2 := hk; config_simp [selectOps, LinConfig.exact, LinConfig.map]; exact h4)
      (by intro k a hk _; have : k < 2 := hk; config_simp [selectOps, LinConfig.exact, LinConfig.map]; exact h5)
      (by intro k a hk _; have : k < 2 := hk; config_simp [selectOps, LinConfig.exact, LinConfig.map]; exact h7) w
    obtain ⟨st, obj, sol, -, hs⟩ := asked_solved h
    have hq : ∀ i, i < call.exact.n → call.exact.q.get i = 0 := fun i hi => by
      have hi' : i < (dims1 2 2).nV := by rw [← hs.call.n]; exact hi
      have := hs.q_zero (by intro k a _ _; config_simp [selectOps]) (by intro k a _ _; config_simp [selectOps])
        (by intro k a _ _; config_simp [selectOps]) (by intro k a _ _; config_simp [selectOps]) hi'
      show (call.q.get i).val = 0
      rw [this]; rfl
    have hl : ∀ z : Nat → ℚ, ∑ i ∈ Finset.range call.exact.n, call.exact.q.get i * z i = 0 := fun z =>
      Finset.sum_eq_zero fun i hi => by rw [hq i (Finset.mem_range.1 hi), zero_mul]
    unfold qpObjective
    rw [hl, hl]
    simp only [Finset.sum_const_zero, mul_zero, zero_mul, zero_div, add_zero]
    exact div_nonneg hc (by norm_num)

/-! The claim itself fails in every binary arithmetic with at least three digits, also for outputs which are mere weighted sums
of two states: `y = x + (1 + 2^(1-p)) x'`. -/

/-- the number after 1 -/
def afterOne (p : ℕ) : ℚ := 1 + 1 / 2 ^ (p - 1)

theorem afterOne_fixed {p : ℕ} (hp : 3 ≤ p) : roundBits p (afterOne p) = afterOne p := by
  have e : afterOne p = ((2 ^ (p - 1) + 1 : ℤ) : ℚ) * 2 ^ (-((p - 1 : ℕ) : ℤ)) := by
    unfold afterOne
    rw [zpow_neg, zpow_natCast]
    push_cast
    field_simp
  rw [e]
  refine roundBits_fixed (by omega) ?_
  have h1 : (1 : ℤ) ≤ 2 ^ (p - 1) := one_le_pow₀ (by norm_num)
  have h2 : (2 : ℤ) ^ p = 2 * 2 ^ (p - 1) := by rw [← pow_succ']; congr 1; omega
  rw [abs_of_nonneg (by linarith), h2]
  linarith

/-- its square is rounded down -/
theorem afterOne_sq {p : ℕ} (hp : 3 ≤ p) : roundBits p (afterOne p * afterOne p) < afterOne p * afterOne p := by
  obtain ⟨t, ht⟩ : ∃ t : ℚ, t = 2 ^ (p - 1) := ⟨_, rfl⟩
  have t4 : 4 ≤ t := by
    rw [ht, show (4 : ℚ) = 2 ^ 2 by norm_num]
    exact pow_le_pow_right₀ (by norm_num) (by omega)
  have t0 : 0 < t := by linarith
  have eb : afterOne p * afterOne p = 1 + 2 / t + 1 / t / t := by
    unfold afterOne; rw [← ht]; field_simp; ring
  have b1 : 1 / t ≤ 1 / 4 := by rw [div_le_div_iff₀ t0 (by norm_num)]; linarith
  have b0 : 0 < 1 / t := by positivity
  have b2 : 1 / t / t ≤ 1 / 4 * (1 / 4) := by
    rw [div_eq_mul_one_div (1 / t)]; exact mul_le_mul b1 b1 b0.le (by norm_num)
  have b3 : 0 < 1 / t / t := by positivity
  have e2 : 2 / t = 2 * (1 / t) := by ring
  have lo : 1 ≤ afterOne p * afterOne p := by rw [eb, e2]; linarith
  have hi : afterOne p * afterOne p < 2 := by rw [eb, e2]; linarith
  have hlog : Int.log 2 |afterOne p * afterOne p| = 0 := by
    rw [abs_of_nonneg (by linarith)]
    have h1 : (0 : ℤ) ≤ Int.log 2 (afterOne p * afterOne p) := by
      rw [← Int.zpow_le_iff_le_log (by norm_num) (by linarith)]; simpa using lo
    have h2 : Int.log 2 (afterOne p * afterOne p) < 1 := by
      rw [← Int.lt_zpow_iff_log_lt (by norm_num) (by linarith)]; simpa using hi
    omega
  have hu : ulp p (afterOne p * afterOne p) = 1 / t := by
    unfold ulp
    rw [hlog, ht, show (0 : ℤ) + 1 - p = -((p - 1 : ℕ) : ℤ) by omega, zpow_neg, zpow_natCast, one_div]
  have hq : afterOne p * afterOne p / (1 / t) = ((2 ^ (p - 1) + 2 : ℤ) : ℚ) + 1 / t := by
    rw [eb]; push_cast; rw [← ht]; field_simp
  have hf : ⌊((2 ^ (p - 1) + 2 : ℤ) : ℚ) + 1 / t⌋ = 2 ^ (p - 1) + 2 := by
    rw [Int.floor_eq_iff]
    constructor <;> linarith
  unfold roundBits
  rw [hu, hq]
  unfold roundEven
  rw [hf, if_pos (by rw [add_sub_cancel_left]; linarith), eb]
  push_cast
  rw [← ht, add_mul, mul_one_div_cancel t0.ne', mul_one_div]
  linarith

/-- two states, one input, one output, one step -/
def twoStates : Dims := { nx := 2, nu := 1, ndu := 0, ny := 1, ph := 1, ch := 1 }

/-- the output is `x + (1 + 2^(1-p)) x'`, and only it has a weight -/
def sumOps (p : ℕ) (hp : 1 ≤ p) : List (LOp (Fl (Rounding.binary ℚ p hp))) :=
  [ .setStateSpaceModel ⟨2, 2, fun _ _ => 0⟩ ⟨2, 1, fun _ _ => 0⟩ ⟨1, 2, fun _ e => if e = 0 then 1 else Fl.of _ (afterOne p)⟩,
    .setObjectiveWeightsSlice ⟨1, fun _ => 1⟩ ⟨1, fun _ => 0⟩ ⟨1, fun _ => 0⟩ HorizonSlice.all ]

/-- C106 fails in every binary arithmetic with at least three digits, `double` included. -/
theorem c106_convex_violated {p : ℕ} (hp : 3 ≤ p) : ¬ C106Claim (Rounding.binary ℚ p (by omega)) := by
  intro hc
  have hp1 : 1 ≤ p := by omega
  obtain ⟨m, m', r, call, h⟩ : ∃ m m' r call, Asked twoStates (sumOps p hp1) ((sumOps p hp1).map fun _ => .bool true)
      ⟨2, fun _ => 0⟩ ⟨1, fun _ => 0⟩ (.answered 1 0 none) m m' r call :=
    asked_of_accepts ⟨by decide, by decide, by decide, by decide⟩ (by decide) (by decide)
      (by accepts_tac [sumOps, twoStates]) rfl rfl 1 0 none
  obtain ⟨st, obj, sol, -, hs⟩ := asked_solved h
  have hb : (Fl.of (Rounding.binary ℚ p hp1) (afterOne p)).val = afterOne p := afterOne_fixed hp
  -- the upper triangle of the block of the states of step 1
  have entry : ∀ a e, a < 2 → e < 2 → a ≤ e → hessian call.exact (3 + a) (3 + e) =
      ((if a = 0 then 1 else Fl.of (Rounding.binary ℚ p hp1) (afterOne p)) *
        (if e = 0 then 1 else Fl.of (Rounding.binary ℚ p hp1) (afterOne p))).val := by
    intro a e ha he hae
    have hnV : twoStates.nV = 7 := rfl
    unfold hessian
    rw [hs.entryP_exact (by omega) (by omega), if_pos (by omega), show min (3 + a) (3 + e) = 1 * 3 + a by omega,
      show max (3 + a) (3 + e) = 1 * 3 + e by omega]
    have e0 := hs.inv.builder.dims
    have hP := hs.inv.builder.derived.P.xx
    have Cyx := hs.inv.builder.repr.Cyx
    have Cux := hs.inv.builder.repr.Cux
    have wY := hs.inv.builder.repr.wY
    simp only [e0] at hP Cyx Cux wY
    have := hP 1 a 1 e (le_refl 1) (le_refl 1) (by show a < 3; omega) (by show e < 3; omega)
    rw [show twoStates.nu + twoStates.nx = 3 from rfl] at this
    rw [this, if_pos rfl, sumTo_single (k := 0) (by decide)]
    · have hw : m.b.wDiag 1 0 = 1 := by
        unfold Builder.wDiag
        rw [e0, if_pos (by decide), wY 0 1 (by decide) (le_refl 1)]
        config_simp [sumOps, twoStates]
      rw [hw, Cyx 0 a (by decide) ha, Cyx 0 e (by decide) he]
      congr 1
      have hx : ∀ x : Fl (Rounding.binary ℚ p hp1), x * 1 = x := fun x =>
        Fl.ext (by rw [Fl.val_mul, Fl.val_one, mul_one, Fl.rnd_val])
      rw [hx]
      config_simp [sumOps, twoStates]
    · intro q hq hne
      have h1 : q = 1 + 0 := by
        have : q < 2 := hq
        omega
      rw [h1, show m.b.ssC.get (1 + 0) a = 0 from Cux 0 a (by decide) ha, ExactOps.zero_mul, ExactOps.zero_mul]
  have key := hc _ _ _ _ _ _ _ _ _ _ h
    (by intro k a hk ha; have : k < 1 := hk; config_simp [sumOps, twoStates, LinConfig.exact, LinConfig.map])
    (by intro k a hk ha; have : k < 1 := hk; config_simp [sumOps, twoStates, LinConfig.exact, LinConfig.map])
    (by intro k a hk ha; have : k < 1 := hk; config_simp [sumOps, twoStates, LinConfig.exact, LinConfig.map])
    (fun i => if i = 3 then -afterOne p else if i = 4 then 1 else 0)
  have h33 : hessian call.exact 3 3 = 1 := by
    refine (entry 0 0 (by omega) (by omega) (le_refl 0)).trans ?_
    rw [if_pos rfl, ExactOps.one_mul, Fl.val_one]
  have h34 : hessian call.exact 3 4 = afterOne p := by
    refine (entry 0 1 (by omega) (by omega) (by omega)).trans ?_
    rw [if_pos rfl, if_neg (by omega), ExactOps.one_mul, hb]
  have h44 : hessian call.exact 4 4 = roundBits p (afterOne p * afterOne p) := by
    refine (entry 1 1 (by omega) (by omega) (le_refl 1)).trans ?_
    rw [if_neg (by omega), Fl.val_mul, hb]
    rfl
  have h43 : hessian call.exact 4 3 = afterOne p := h34
  rw [hs.call.n, show twoStates.nV = 7 from rfl] at key
  simp [Finset.sum_range_succ, h33, h34, h43, h44] at key
  have := afterOne_sq hp
  linarith

/-- C106 fails for `double`. -/
example : ¬ C106Claim double := c106_convex_violated (by norm_num)

/-! ### C107 -/

section
variable {st : Int} {obj : Fl R} {x y : Nat → Fl R}

/-- a reported sequence, as exact numbers -/
def exactRows (M : Mat (Fl R)) : Nat → Nat → K := fun k a => (M.get k a).val

/-- C107. No arithmetic is done on the states, inputs and command reported: they are the numbers of OSQP's answer, bit by bit. -/
theorem c107_copied (h : Asked d ops outs x0 u0 (.answered st obj (some (x, y))) m m' r call) :
    (∀ k a, k ≤ d.ph → a < d.nx → exactRows m'.getOptimalSequence.1 k a = stateAt d (fun i => (x i).val) k a) ∧
    (∀ k a, k < d.ph → a < d.nu → exactRows m'.getOptimalSequence.2.1 k a = inputAt d (fun i => (x i).val) k a) ∧
    (∀ a, a < d.nu → exactly r.cmd a = inputAt d (fun i => (x i).val) 0 a) := by
  obtain ⟨st', obj', sol, he, hs⟩ := asked_solved h
  obtain ⟨rfl, rfl, rfl⟩ : st = st' ∧ obj = obj' ∧ some (x, y) = sol := by
    injection he with h1 h2 h3; exact ⟨h1, h2, h3⟩
  have hph := hs.valid.ph_pos
  obtain ⟨S, U, Y, hq, ho⟩ := hs.opt
  have hres := hs.res
  have e1 : m'.getOptimalSequence = (S, U, Y) := by unfold LMpc.getOptimalSequence; rw [ho]
  have e2 : r.cmd = ⟨d.nu, fun j => U.get 0 j⟩ := by rw [hres, ho]
  have hU : ∀ k a, k < d.ph → a < d.nu → (U.get k a).val = inputAt d (fun i => (x i).val) k a := by
    intro k a hk ha
    unfold inputAt
    rw [Solved.heldAt_eq]
    have := hq.input k a (by omega) ha
    rw [LOpt.inputRow, if_pos (by omega)] at this
    rw [this]
  rw [e1, e2]
  refine ⟨fun k a hk ha => ?_, hU, fun a ha => hU 0 a hph ha⟩
  rw [Solved.stateAt_eq]
  exact congrArg Fl.val (hq.state k a (by omega) ha)

/-- C107. The outputs reported are those of the reported states and the announced disturbances, up to the relative error of
`nx + ndu + 2` operations. -/
theorem c107_outputs (h : Asked d ops outs x0 u0 (.answered st obj (some (x, y))) m m' r call) {k a : Nat} (hk : k ≤ d.ph)
    (ha : a < d.ny) :
    let c := (configOf ops outs).exact
    let S := exactRows m'.getOptimalSequence.1
    |exactRows m'.getOptimalSequence.2.2 k a - outputOf d c (S k) (c.dist (k - 1)) a| ≤
      R.gamma (d.nx + d.ndu + 2) *
        (dot d.nx (fun e => |c.C a e|) (fun e => |S k e|) + dot d.ndu (fun e => |c.Dd a e|) (fun e => |c.dist (k - 1) e|)) := by
  obtain ⟨st', obj', sol, he, hs⟩ := asked_solved h
  obtain ⟨rfl, rfl, rfl⟩ : st = st' ∧ obj = obj' ∧ some (x, y) = sol := by
    injection he with h1 h2 h3; exact ⟨h1, h2, h3⟩
  have hph := hs.valid.ph_pos
  obtain ⟨S, U, Y, hq, ho⟩ := hs.opt
  have e1 : m'.getOptimalSequence = (S, U, Y) := by unfold LMpc.getOptimalSequence; rw [ho]
  have hd' := hs.inv'.builder.dims
  have c1 := hs.inv'.builder.repr.Cyx a
  have c2 := hs.inv'.builder.repr.Dvy a
  have c3 := hs.inv.opt.dist
  simp only [hd'] at c1 c2
  have hY : Y.get k a = sumTo d.nx (fun e => (configOf ops outs).C a e * S.get k e) +
      sumTo d.ndu (fun e => (configOf ops outs).Dd a e * (configOf ops outs).dist (k - 1) e) := by
    rw [hq.output k a (by omega) ha]
    congr 1
    · exact sumTo_congr fun e he => by rw [c1 e ha he, hq.state k e (by omega) he]
    · exact sumTo_congr fun e he => by rw [c2 e ha he, c3 e (k - 1) he (by omega)]
  rw [e1]
  intro c S'
  have n1 := (Approx.dot (R := R) d.nx ((configOf ops outs).C a) (S.get k)).mono (show 1 + d.nx ≤ d.nx + d.ndu + 1 by omega) (le_refl _)
  have n2 := (Approx.dot (R := R) d.ndu ((configOf ops outs).Dd a) ((configOf ops outs).dist (k - 1))).mono
    (show 1 + d.ndu ≤ d.nx + d.ndu + 1 by omega) (le_refl _)
  have n3 := (n1.add n2).err
  rw [← hY] at n3
  exact n3

/-- C107. What a user can expect of the sequence reported by a controller computing with `double`s, when OSQP's answer satisfies
its rows up to `δ`: with `η` the sum of `δ` and the rounding errors of the disturbance terms, it starts within `η` of the measured
state, every step follows the plant up to `(1 + β) η`, states and inputs respect their limits up to `η`, and after `k` steps the
plant driven by the reported inputs is within `drift α β η k` of the reported states. -/
theorem c107_plant (h : Asked d ops outs x0 u0 (.answered st obj (some (x, y))) m m' r call)
    (hms : (configOf ops outs).modelSet = true) {B δ α β : K} (hB : DisturbanceScale d (configOf ops outs).exact B) (hB0 : 0 ≤ B)
    (hδ : 0 ≤ δ) (hx : qpNearFeasible δ call.exact (fun i => (x i).val))
    (hα : ∀ a, a < d.nx → RowSum d.nx ((configOf ops outs).exact.A a) α)
    (hβ : ∀ a, a < d.nx → RowSum d.nu ((configOf ops outs).exact.B a) β) :
    let c := (configOf ops outs).exact
    let S := exactRows m'.getOptimalSequence.1
    let U := exactRows m'.getOptimalSequence.2.1
    let η := δ + R.gamma (d.ndu + 2) * B
    (∀ a, a < d.nx → |S 0 a - exactly x0 a| ≤ η) ∧
    (∀ k a, k < d.ph → a < d.nx → |S (k + 1) a - (dot d.nx (c.A a) (S k) + dot d.nu (c.B a) (U k) +
      dot d.ndu (c.Bd a) (c.dist k))| ≤ (1 + β) * η) ∧
    (∀ k a, k < d.ph → a < d.nx → nearly η (c.xMin k a) (c.xMax k a) (S (k + 1) a)) ∧
    (∀ k a, k < d.ph → a < d.nu → nearly η (c.uMin (min (k + 1) (d.ph - 1)) a) (c.uMax (min (k + 1) (d.ph - 1)) a) (U k a)) ∧
    (∀ k a, k ≤ d.ph → a < d.nx → |predict d c (exactly x0) U k a - S k a| ≤ drift α β η k) := by
  intro c S U η
  have hp : PlanNear d c η (exactly x0) (exactly u0) fun i => (x i).val := (c104_near_plan h hms hB hB0).1 hx
  have hη : 0 ≤ η := add_nonneg hδ (mul_nonneg (R.gamma_nonneg _) hB0)
  obtain ⟨hS, hU, -⟩ := c107_copied h
  have h0 : ∀ a, a < d.nx → |S 0 a - exactly x0 a| ≤ η := fun a ha => by
    show |exactRows m'.getOptimalSequence.1 0 a - _| ≤ _
    rw [hS 0 a (by omega) ha]; exact hp.state0 a ha
  have h1 : ∀ k a, k < d.ph → a < d.nx → |S (k + 1) a - (dot d.nx (c.A a) (S k) + dot d.nu (c.B a) (U k) +
      dot d.ndu (c.Bd a) (c.dist k))| ≤ (1 + β) * η := fun k a hk ha => step_near hp (fun k a hk ha => hS k a hk ha)
        (fun k a hk ha => hU k a hk ha) (hβ a ha) hη hk ha
  refine ⟨h0, h1, fun k a hk ha => ?_, fun k a hk ha => ?_, fun k a hk ha => drift_near hα h0 h1 k hk a ha⟩
  · show nearly _ _ _ (exactRows m'.getOptimalSequence.1 (k + 1) a)
    rw [hS (k + 1) a (by omega) ha]; exact hp.states (k + 1) a (by omega) ha
  · show nearly _ _ _ (exactRows m'.getOptimalSequence.2.1 k a)
    rw [hU k a hk ha]; exact hp.held (k + 1) a (by omega) ha

end

/-- C107, non-trivial case: OSQP answers 0 to the sample with y = x at rest. -/
example : ∃ ops outs x u st obj z y m m' r B, ∃ call : OsqpCall (Fl double),
    Asked (dims1 2 2) ops outs x u (.answered st obj (some (z, y))) m m' r call ∧ (configOf ops outs).modelSet = true ∧
    DisturbanceScale (dims1 2 2) (configOf ops outs).exact B ∧ 0 ≤ B ∧
    qpNearFeasible 0 call.exact (fun i => (z i).val) ∧
    (∀ a, a < 1 → RowSum 1 ((configOf ops outs).exact.A a) 1) ∧ (∀ a, a < 1 → RowSum 1 ((configOf ops outs).exact.B a) 1) := by
  obtain ⟨m, m', r, call, h⟩ := select_asked 0 0 1 0 (some (fun _ => 0, fun _ => 0))
  have h1 : (dbl 1).val = 1 := double.one
  have h2 : (0 : ℚ) ≤ |(dbl (1 / 3)).val| := abs_nonneg _
  have h3 : (0 : ℚ) ≤ |(dbl (-1 / 3)).val| := abs_nonneg _
  have unit : ∀ q : ℚ, 0 ≤ q → q ≤ 1 → |(dbl q).val| ≤ 1 := fun q q0 q1 => by
    rw [abs_of_nonneg (dbl_nonneg q0)]
    exact (double.mono _ _ q1).trans_eq double.one
  refine ⟨_, _, _, _, _, _, _, _, _, _, _, |(dbl (1 / 3)).val| + |(dbl (-1 / 3)).val|, _, h, rfl, ⟨?_, ?_, ?_⟩, by linarith, ?_, ?_, ?_⟩
  · intro k a hk ha
    config_simp [selectOps, LinConfig.exact, LinConfig.map]
    rw [← one_div]
    linarith
  · intro k a l hk ha
    have : k < 2 := hk
    config_simp [selectOps, LinConfig.exact, LinConfig.map]
    rintro rfl
    rw [one_div] at h2
    linarith
  · intro k a l hk ha
    have : k < 2 := hk
    config_simp [selectOps, LinConfig.exact, LinConfig.map]
    rintro rfl
    rw [one_div] at h2
    linarith
  · have hf := (c103_feasible_set_exact h rfl select_undisturbed _).2 select_plan
    intro ρ hρ
    exact nearly_zero_iff.2 (hf ρ hρ)
  · intro a ha
    config_simp [selectOps, LinConfig.exact, LinConfig.map, RowSum]
    exact unit _ (by norm_num) (by norm_num)
  · intro a ha
    config_simp [selectOps, LinConfig.exact, LinConfig.map, RowSum]
    exact unit _ (by norm_num) (by norm_num)

end Mpc.Props
