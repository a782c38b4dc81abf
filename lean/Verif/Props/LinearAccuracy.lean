import Mathlib.Tactic.Positivity
import Verif.Proofs.QpNear
import Verif.Proofs.PlanAgree
import Verif.Props.LinearTracking

/-
C84, C85: answers of OSQP which are only nearly feasible, or only nearly optimal.
-/
namespace Mpc.Props
open Mpc.Spec Exec
set_option linter.unusedSectionVars false

variable {K : Type} [Field K] [DecidableEq K] [LinearOrder K] [IsStrictOrderedRing K]
variable {d : Dims} {ops ops' : List (LOp K)} {outs outs' : List (LOut K)} {x0 u0 : Vec K} {oc oc' : OsqpOutcome K}
  {m m' m1 m1' : LMpc K} {r r' : LResult K} {call call' : OsqpCall K} {st st' : Int} {obj obj' ε α β : K} {z y z' y' : Nat → K}

/-! ### C84 -/

/-- C84. A residual of `ε` in the problem handed to OSQP is an error of `ε` in the physical unit of each constraint: no
row is scaled. -/
theorem c84_residual (h : Asked d ops outs x0 u0 oc m m' r call) (hms : (configOf ops outs).modelSet = true) :
    qpNearFeasible ε call z ↔ PlanNear d (configOf ops outs) ε x0.get u0.get z := by
  obtain ⟨st, obj, sol, -, hs⟩ := asked_solved h
  exact hs.near_iff hms

theorem dot_near {n : Nat} {M v w : Nat → K} {bound e : K} (hb : RowSum n M bound) (he : 0 ≤ e)
    (hv : ∀ i, i < n → |v i - w i| ≤ e) : |dot n M v - dot n M w| ≤ bound * e := by
  unfold dot
  rw [← Finset.sum_sub_distrib]
  calc |∑ i ∈ Finset.range n, (M i * v i - M i * w i)|
      ≤ ∑ i ∈ Finset.range n, |M i * v i - M i * w i| := Finset.abs_sum_le_sum_abs _ _
    _ ≤ ∑ i ∈ Finset.range n, |M i| * e := Finset.sum_le_sum fun i hi => by
        rw [← mul_sub, abs_mul]
        exact mul_le_mul_of_nonneg_left (hv i (Finset.mem_range.1 hi)) (abs_nonneg _)
    _ = (∑ i ∈ Finset.range n, |M i|) * e := by rw [Finset.sum_mul]
    _ ≤ bound * e := mul_le_mul_of_nonneg_right hb he

theorem RowSum.nonneg {n : Nat} {M : Nat → K} {bound : K} (h : RowSum n M bound) : 0 ≤ bound :=
  le_trans (Finset.sum_nonneg fun _ _ => abs_nonneg _) h

/-- the rows of a nearly feasible plan give the plant step, up to the error of the inputs -/
theorem step_near {c : LinConfig K} {x0 u0 z : Nat → K} (hp : PlanNear d c ε x0 u0 z) {S U : Nat → Nat → K}
    (hS : ∀ k a, k ≤ d.ph → a < d.nx → S k a = stateAt d z k a) (hU : ∀ k a, k < d.ph → a < d.nu → U k a = inputAt d z k a)
    {a : Nat} (hβ : RowSum d.nu (c.B a) β) (hε : 0 ≤ ε) {k : Nat} (hk : k < d.ph) (ha : a < d.nx) :
    |S (k + 1) a - (dot d.nx (c.A a) (S k) + dot d.nu (c.B a) (U k) + dot d.ndu (c.Bd a) (c.dist k))| ≤ (1 + β) * ε := by
  have e1 := hp.state k a hk ha
  have e2 := dot_near hβ hε (v := fun e => heldAt d z k e + incrementAt d z k e) (w := inputAt d z k)
    fun b hb => by rw [abs_sub_comm]; exact hp.input k b hk hb
  rw [hS (k + 1) a (by omega) ha, dot_congr (v := S k) fun e he => hS k e (by omega) he,
    dot_congr (v := U k) fun e he => hU k e hk he]
  have e3 := abs_add_le (stateAt d z (k + 1) a - (dot d.nx (c.A a) (stateAt d z k) +
    dot d.nu (c.B a) (fun e => heldAt d z k e + incrementAt d z k e) + dot d.ndu (c.Bd a) (c.dist k)))
    (dot d.nu (c.B a) (fun e => heldAt d z k e + incrementAt d z k e) - dot d.nu (c.B a) (inputAt d z k))
  refine le_trans (le_of_eq ?_) (e3.trans (le_trans (add_le_add e1 e2) (le_of_eq ?_)))
  · congr 1; ring
  · ring

/-- errors of the steps add up to the drift -/
theorem drift_near {c : LinConfig K} {x0 : Nat → K} {S U : Nat → Nat → K} (hα : ∀ a, a < d.nx → RowSum d.nx (c.A a) α)
    (h0 : ∀ a, a < d.nx → |S 0 a - x0 a| ≤ ε)
    (h1 : ∀ k a, k < d.ph → a < d.nx → |S (k + 1) a - (dot d.nx (c.A a) (S k) + dot d.nu (c.B a) (U k) +
      dot d.ndu (c.Bd a) (c.dist k))| ≤ (1 + β) * ε) :
    ∀ k, k ≤ d.ph → ∀ a, a < d.nx → |predict d c x0 U k a - S k a| ≤ drift α β ε k := by
  intro k
  induction k with
  | zero => intro _ a ha; rw [abs_sub_comm]; exact h0 a ha
  | succ k ih =>
    intro hk a ha
    have ih := ih (by omega)
    have hd : 0 ≤ drift α β ε k := le_trans (abs_nonneg _) (ih a ha)
    have e1 := dot_near (hα a ha) hd ih
    have e2 := h1 k a hk ha
    rw [abs_sub_comm] at e2
    refine le_trans (le_of_eq ?_) ((abs_add_le _ _).trans (add_le_add e1 e2))
    congr 1
    show dot d.nx _ (predict d c x0 U k) + dot d.nu _ _ + dot d.ndu _ _ - _ = _
    ring

/-- C84, in terms of what `optimize` reports: with a residual of at most `ε`, the reported sequence starts within `ε` of
the measured state, every step follows the plant up to `(1 + β) ε`, and the reported states, inputs and outputs respect
their limits up to `ε`; inputs which must not change change by at most `2 ε`. -/
theorem c84_reported (h : Asked d ops outs x0 u0 (.answered st obj (some (z, y))) m m' r call)
    (hms : (configOf ops outs).modelSet = true) (hε : 0 ≤ ε) (hz : qpNearFeasible ε call z)
    (hβ : ∀ a, a < d.nx → RowSum d.nu ((configOf ops outs).B a) β) :
    let c := configOf ops outs
    let S := m'.getOptimalSequence.1
    let U := m'.getOptimalSequence.2.1
    let Y := m'.getOptimalSequence.2.2
    (∀ a, a < d.nx → |S.get 0 a - x0.get a| ≤ ε) ∧
    (∀ k a, k < d.ph → a < d.nx → |S.get (k + 1) a - (dot d.nx (c.A a) (S.get k) + dot d.nu (c.B a) (U.get k) +
      dot d.ndu (c.Bd a) (c.dist k))| ≤ (1 + β) * ε) ∧
    (∀ k a, k < d.ph → a < d.nx → nearly ε (c.xMin k a) (c.xMax k a) (S.get (k + 1) a)) ∧
    (∀ k a, k < d.ph → a < d.nu → nearly ε (c.uMin (min (k + 1) (d.ph - 1)) a) (c.uMax (min (k + 1) (d.ph - 1)) a) (U.get k a)) ∧
    (∀ k a, k < d.ph → a < d.ny → nearly ε (c.yMin k a) (c.yMax k a) (Y.get (k + 1) a)) ∧
    (∀ k a, d.ch < k → k < d.ph → a < d.nu → |U.get k a - U.get (k - 1) a| ≤ 2 * ε) := by
  have hp := (c84_residual h hms).1 hz
  obtain ⟨-, -, -, hS, hU, -, hY, -, -⟩ := c18_sequence h
  intro c S U Y
  refine ⟨fun a ha => ?_, fun k a hk ha => ?_, fun k a hk ha => ?_, fun k a hk ha => ?_, fun k a hk ha => ?_, fun k a hc hk ha => ?_⟩
  · rw [hS 0 a (by omega) ha]; exact hp.state0 a ha
  · exact step_near hp hS hU (hβ a ha) hε hk ha
  · rw [hS (k + 1) a (by omega) ha]; exact hp.states (k + 1) a (by omega) ha
  · rw [hU k a hk ha]; exact hp.held (k + 1) a (by omega) ha
  · rw [hY (k + 1) a (by omega) ha, outputOf_congr fun e he => hS (k + 1) e (by omega) he]
    exact hp.outputs (k + 1) a (by omega) ha
  · rw [hU k a hk ha, hU (k - 1) a (by omega) ha]
    have e1 := hp.input k a hk ha
    have e2 := hp.frozen k a hc hk ha
    have e3 : inputAt d z (k - 1) a = heldAt d z k a := by unfold inputAt; rw [Nat.sub_add_cancel (by omega)]
    rw [e3]
    rw [abs_le] at *
    constructor <;> linarith [e1.1, e1.2, e2.1, e2.2]

/-- C84, the plant itself: under the reported inputs a plant which follows the model stays within `drift α β ε k` of the
reported states after `k` steps, hence within the limits up to `ε + drift`. -/
theorem c84_plant (h : Asked d ops outs x0 u0 (.answered st obj (some (z, y))) m m' r call)
    (hms : (configOf ops outs).modelSet = true) (hε : 0 ≤ ε) (hz : qpNearFeasible ε call z)
    (hα : ∀ a, a < d.nx → RowSum d.nx ((configOf ops outs).A a) α) (hβ : ∀ a, a < d.nx → RowSum d.nu ((configOf ops outs).B a) β) :
    (∀ k a, k ≤ d.ph → a < d.nx → |predict d (configOf ops outs) x0.get m'.getOptimalSequence.2.1.get k a -
      m'.getOptimalSequence.1.get k a| ≤ drift α β ε k) ∧
    ∀ k a, k < d.ph → a < d.nx → nearly (ε + drift α β ε (k + 1)) ((configOf ops outs).xMin k a) ((configOf ops outs).xMax k a)
      (predict d (configOf ops outs) x0.get m'.getOptimalSequence.2.1.get (k + 1) a) := by
  obtain ⟨h0, h1, h2, -, -, -⟩ := c84_reported h hms hε hz hβ
  have key := drift_near hα h0 h1
  refine ⟨fun k a hk ha => key k hk a ha, fun k a hk ha => ?_⟩
  exact nearly_move (h2 k a hk ha) (key (k + 1) hk a ha)

/-- an answer off by up to 1/50: the measured state is 3, the sequence starts at 3.01 and ends beyond the limit 3 -/
def offZ : Nat → ℚ := fun i => [301 / 100, 0, 3, 1 / 100, 3, 0, 301 / 100, 0, 0, 0, 0].getD i 0

/-- C84, non-trivial case: an answer which is nearly feasible but not feasible. -/
example : ∃ m m' r call, Asked (dims1 3 2) restOps restOuts (cvec 1 3) (cvec 1 0) (.answered 1 0 (some (offZ, fun _ => 0))) m m' r call ∧
    qpNearFeasible (1 / 50) call offZ ∧ ¬ qpFeasible call offZ ∧
    (∀ a, a < (dims1 3 2).nx → RowSum (dims1 3 2).nx ((configOf restOps restOuts).A a) 1) ∧
    (∀ a, a < (dims1 3 2).nx → RowSum (dims1 3 2).nu ((configOf restOps restOuts).B a) 1) := by
  obtain ⟨m, m', r, call, h⟩ := rest_asked 1 0 (some (offZ, fun _ => 0))
  refine ⟨m, m', r, call, h, (c84_residual h rfl).2 ?_, fun hf => ?_, ?_, ?_⟩
  · refine ⟨?_, ?_, ?_, ?_, ?_, ?_, ?_, ?_, ?_⟩
    all_goals simp only [dims1]
    all_goals intro k
    all_goals try intro a
    all_goals intros
    all_goals try interval_cases a
    all_goals try interval_cases k
    all_goals try config_simp [restOps, restOuts, offZ, nearly]
    all_goals norm_num [abs_le]
  · have := (c04_feasible h rfl hf (k := 2) (a := 0) (by decide) (by decide)).2
    revert this
    config_simp [restOps, restOuts, offZ]
    norm_num
  · intro a ha
    simp only [dims1] at ha
    interval_cases a
    config_simp [restOps, restOuts, RowSum]
  · intro a ha
    simp only [dims1] at ha
    interval_cases a
    config_simp [restOps, restOuts, RowSum]

/-! ### C85 -/

theorem nearOptimal_plan (h : Asked d ops outs x0 u0 oc m m' r call) (hms : (configOf ops outs).modelSet = true) :
    qpNearOptimal ε call z ↔ Trajectory d (configOf ops outs) x0.get u0.get z ∧
      PlanCoded d (configOf ops outs) x0.get u0.get (inputAt d z) ∧ ∀ v, PlanCoded d (configOf ops outs) x0.get u0.get v →
        planCost d (configOf ops outs) x0.get u0.get (fun k => (configOf ops outs).duRef (k - 1)) (inputAt d z) ≤
        planCost d (configOf ops outs) x0.get u0.get (fun k => (configOf ops outs).duRef (k - 1)) v + ε := by
  obtain ⟨st, obj, sol, -, hs⟩ := asked_solved h
  have ho : ∀ z z', Trajectory d (configOf ops outs) x0.get u0.get z → Trajectory d (configOf ops outs) x0.get u0.get z' →
      (qpObjective call z ≤ qpObjective call z' + ε ↔
        planCost d (configOf ops outs) x0.get u0.get (fun k => (configOf ops outs).duRef (k - 1)) (inputAt d z) ≤
        planCost d (configOf ops outs) x0.get u0.get (fun k => (configOf ops outs).duRef (k - 1)) (inputAt d z') + ε) := by
    intro z z' t t'
    have e := hs.objective_eq hms z
    have e' := hs.objective_eq hms z'
    rw [initialCost_const t, t.cost] at e
    rw [initialCost_const t', t'.cost] at e'
    constructor <;> intro hle <;> linarith
  constructor
  · rintro ⟨hf, hb⟩
    obtain ⟨t, hp⟩ := planOk_iff.1 ((hs.feasible_iff hms z).1 hf)
    refine ⟨t, hp, fun v hv => ?_⟩
    have e : ∀ k a, k < d.ph → a < d.nu → v k a = inputAt d (lift d (configOf ops outs) x0.get u0.get v) k a :=
      fun k a hk ha => (inputAt_lift hk ha).symm
    have := (ho _ _ t lift_trajectory).1
      (hb _ ((hs.feasible_iff hms _).2 (planOk_iff.2 ⟨lift_trajectory, planCoded_congr e hv⟩)))
    rwa [← planCost_congr e] at this
  · rintro ⟨t, hp, hb⟩
    refine ⟨(hs.feasible_iff hms z).2 (planOk_iff.2 ⟨t, hp⟩), fun z' hz' => ?_⟩
    obtain ⟨t', hp'⟩ := planOk_iff.1 ((hs.feasible_iff hms z').1 hz')
    exact (ho _ _ t t').2 (hb _ hp')

theorem gap_term {n : Nat} {w v v' : Nat → K} (h : ∀ a, a < n → 0 ≤ w a) {a : Nat} (ha : a < n) :
    w a * (v a - v' a) ^ 2 ≤ gap n w v v' :=
  Finset.single_le_sum (f := fun a => w a * (v a - v' a) ^ 2) (fun b hb => mul_nonneg (h b (Finset.mem_range.1 hb)) (sq_nonneg _))
    (Finset.mem_range.2 ha)

/-- distance of a plan from the best one -/
theorem gap_best {c : LinConfig K} {a b : Nat → K} {f : Nat → Nat → K} {u v : Nat → Nat → K}
    (hu : IsBest (PlanCoded d c a b) (planCost d c a b f) u) (hv : PlanCoded d c a b v)
    (he : planCost d c a b f v ≤ planCost d c a b f u + ε) : planGap d c a b u v ≤ 4 * ε := by
  have e3 := hu.2 _ (planCoded_half hu.1 hv)
  rw [planCost_half] at e3
  linarith

/-- C85. An answer which is feasible and at most `ε` worse than the best gives a command close to the exact one: the
squared difference, in the weights of the command and its increment, is at most `4 ε`. Likewise for the inputs and outputs
of the whole reported sequence. -/
theorem c85_command (h : Asked d ops outs x0 u0 (.answered st obj (some (z, y))) m m' r call)
    (h' : Asked d ops' outs' x0 u0 (.answered st' obj' (some (z', y'))) m1 m1' r' call')
    (hc : (configOf ops outs).Agree d (configOf ops' outs')) (hms : (configOf ops outs).modelSet = true)
    (hw : WeightsNonneg d (configOf ops outs)) (hz : qpNearOptimal ε call z) (hz' : qpOptimal call' z') :
    (∀ a, a < d.nu → ((configOf ops outs).wU 0 a + (configOf ops outs).wDu 0 a) * (r.cmd.get a - r'.cmd.get a) ^ 2 ≤ 4 * ε) ∧
    (∀ k a, k < d.ph → a < d.nu → (configOf ops outs).wU k a *
      (m'.getOptimalSequence.2.1.get k a - m1'.getOptimalSequence.2.1.get k a) ^ 2 ≤ 4 * ε) ∧
    (∀ k a, k < d.ph → a < d.ny → (configOf ops outs).wY k a *
      (m'.getOptimalSequence.2.2.get (k + 1) a - m1'.getOptimalSequence.2.2.get (k + 1) a) ^ 2 ≤ 4 * ε) := by
  have hph := h.valid.ph_pos
  obtain ⟨t, hp, hb⟩ := (nearOptimal_plan h hms).1 hz
  obtain ⟨t', hb'⟩ := (c63_coded_partial h hms z').1 ((same_optimal (c11_problem_of_configuration h h' hc) z').1 hz')
  have hg := gap_best hb' hp (hb _ hb'.1)
  obtain ⟨-, -, -, hS, hU, -, hY, -, hcmd⟩ := c18_sequence h
  obtain ⟨-, -, -, hS', hU', -, hY', -, hcmd'⟩ := c18_sequence h'
  set c := configOf ops outs
  have nn : ∀ k, k < d.ph →
      0 ≤ gap d.ny (c.wY k) (outputOf d c (predict d c x0.get (inputAt d z') (k + 1)) (c.dist k)) (outputOf d c (predict d c x0.get (inputAt d z) (k + 1)) (c.dist k)) ∧
      0 ≤ gap d.nu (c.wU k) (inputAt d z' k) (inputAt d z k) ∧
      0 ≤ gap d.nu (c.wDu k) (fun a => inputAt d z' k a - before u0.get (inputAt d z') k a) (fun a => inputAt d z k a - before u0.get (inputAt d z) k a) :=
    fun k hk => ⟨gap_nonneg (hw.wY k · hk), gap_nonneg (hw.wU k · hk), gap_nonneg (hw.wDu k · hk)⟩
  have step : ∀ k, k < d.ph →
      gap d.ny (c.wY k) (outputOf d c (predict d c x0.get (inputAt d z') (k + 1)) (c.dist k)) (outputOf d c (predict d c x0.get (inputAt d z) (k + 1)) (c.dist k)) +
      gap d.nu (c.wU k) (inputAt d z' k) (inputAt d z k) +
      gap d.nu (c.wDu k) (fun a => inputAt d z' k a - before u0.get (inputAt d z') k a) (fun a => inputAt d z k a - before u0.get (inputAt d z) k a) ≤ 4 * ε :=
    fun k hk => le_trans (Finset.single_le_sum (f := fun k => gap d.ny (c.wY k) (outputOf d c (predict d c x0.get (inputAt d z') (k + 1)) (c.dist k)) (outputOf d c (predict d c x0.get (inputAt d z) (k + 1)) (c.dist k)) +
      gap d.nu (c.wU k) (inputAt d z' k) (inputAt d z k) +
      gap d.nu (c.wDu k) (fun a => inputAt d z' k a - before u0.get (inputAt d z') k a) (fun a => inputAt d z k a - before u0.get (inputAt d z) k a))
      (fun k hk => add_nonneg (add_nonneg (nn k (Finset.mem_range.1 hk)).1 (nn k (Finset.mem_range.1 hk)).2.1) (nn k (Finset.mem_range.1 hk)).2.2)
      (Finset.mem_range.2 hk)) hg
  refine ⟨fun a ha => ?_, fun k a hk ha => ?_, fun k a hk ha => ?_⟩
  · rw [hcmd a ha, hcmd' a ha, hU 0 a hph ha, hU' 0 a hph ha]
    have e1 := step 0 hph
    have e2 := gap_term (v := inputAt d z' 0) (v' := inputAt d z 0) (hw.wU 0 · hph) ha
    have e3 := gap_term (v := fun a => inputAt d z' 0 a - before u0.get (inputAt d z') 0 a)
      (v' := fun a => inputAt d z 0 a - before u0.get (inputAt d z) 0 a) (hw.wDu 0 · hph) ha
    have e4 := (nn 0 hph).1
    simp only [before] at e1 e3
    nlinarith
  · rw [hU k a hk ha, hU' k a hk ha]
    have e1 := step k hk
    have e2 := gap_term (v := inputAt d z' k) (v' := inputAt d z k) (hw.wU k · hk) ha
    obtain ⟨n1, n2, n3⟩ := nn k hk
    nlinarith
  · have e1 := step k hk
    have e2 := gap_term (v := outputOf d c (predict d c x0.get (inputAt d z') (k + 1)) (c.dist k))
      (v' := outputOf d c (predict d c x0.get (inputAt d z) (k + 1)) (c.dist k)) (hw.wY k · hk) ha
    obtain ⟨n1, n2, n3⟩ := nn k hk
    have y1 : m'.getOptimalSequence.2.2.get (k + 1) a = outputOf d c (predict d c x0.get (inputAt d z) (k + 1)) (c.dist k) a := by
      rw [hY (k + 1) a (by omega) ha]
      exact outputOf_congr (fun e he => by rw [hS (k + 1) e (by omega) he, t.predict (k + 1) e (by omega) he]) a
    have y2 : m1'.getOptimalSequence.2.2.get (k + 1) a = outputOf d c (predict d c x0.get (inputAt d z') (k + 1)) (c.dist k) a := by
      rw [hY' (k + 1) a (by omega) ha]
      exact outputOf_agree hc (fun e he => by rw [hS' (k + 1) e (by omega) he, t'.predict (k + 1) e (by omega) he]) hk ha
    rw [y1, y2]
    nlinarith

/-- a plan which leaves the target for one step -/
def detour : Nat → Nat → ℚ := fun k _ => if k = 0 then -1 / 10 else if k = 1 then 1 / 10 else 0

/-- C85, non-trivial case: the detour costs 13/200 more than staying. -/
example : ∃ z z' m m' r call m1 m1' r' call',
    Asked (dims1 3 2) restOps restOuts (cvec 1 3) (cvec 1 0) (.answered 2 0 (some (z, fun _ => 0))) m m' r call ∧
    Asked (dims1 3 2) restOps restOuts (cvec 1 3) (cvec 1 0) (.answered 1 0 (some (z', fun _ => 0))) m1 m1' r' call' ∧
    qpNearOptimal (13 / 200) call z ∧ qpOptimal call' z' ∧ r.cmd.get 0 ≠ r'.cmd.get 0 := by
  obtain ⟨m, m', r, call, h⟩ := rest_asked 2 0 (some (lift (dims1 3 2) (configOf restOps restOuts) (cvec 1 3).get (cvec 1 0).get detour, fun _ => 0))
  obtain ⟨m1, m1', r', call', h'⟩ := rest_asked 1 0 (some (lift (dims1 3 2) (configOf restOps restOuts) (cvec 1 3).get (cvec 1 0).get
    fun _ => (cvec 1 0).get, fun _ => 0))
  have ho := rest_optimal h' rfl rest_weights.1 rest_rest
  have e : ∀ k a, k < (dims1 3 2).ph → a < (dims1 3 2).nu → detour k a =
      inputAt (dims1 3 2) (lift (dims1 3 2) (configOf restOps restOuts) (cvec 1 3).get (cvec 1 0).get detour) k a :=
    fun k a hk ha => (inputAt_lift hk ha).symm
  refine ⟨_, _, m, m', r, call, m1, m1', r', call', h, h', (nearOptimal_plan h rfl).2 ⟨lift_trajectory, planCoded_congr e ?_, fun v _ => ?_⟩, ho, ?_⟩
  · refine ⟨?_, ?_, ?_, ?_, ?_⟩
    all_goals simp only [dims1]
    all_goals intro k
    all_goals try intro a
    all_goals intros
    all_goals try interval_cases a
    all_goals try interval_cases k
    all_goals try config_simp [restOps, restOuts, predict, before, detour]
    all_goals norm_num
  · rw [← planCost_congr e]
    have := planCost_nonneg (x0 := (cvec 1 3).get) (u0 := (cvec 1 0).get) rest_weights.1 (fun k => (configOf restOps restOuts).duRef (k - 1)) v
    refine le_trans (le_of_eq ?_) (add_le_add_left this (13 / 200))
    config_simp [restOps, restOuts, planCost, sqErr, predict, before, detour]
    norm_num
  · rw [(c70_keeps_rest h' rfl rest_weights.1 rest_weights.2 rest_rest ho).1 0 (by decide)]
    obtain ⟨-, -, -, -, hU, -, -, -, hcmd⟩ := c18_sequence h
    rw [hcmd 0 (by decide), hU 0 0 (by decide) (by decide), ← e 0 0 (by decide) (by decide)]
    norm_num [detour, cvec]

end Mpc.Props
