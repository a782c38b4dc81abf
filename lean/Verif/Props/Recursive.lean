import Mathlib.Algebra.Order.Archimedean.Basic
import Verif.Proofs.PlanShift
import Verif.Props.LoopBuild

/-
C86, C87: in closed loop the linear controller keeps finding plans, and what it does costs no more than the first plan.
-/
namespace Mpc.Props
open Mpc.Spec Exec
set_option linter.unusedSectionVars false

variable {K : Type} [Field K] [DecidableEq K] [LinearOrder K] [IsStrictOrderedRing K]
variable {d : Dims} {ops : List (LOp K)} {outs : List (LOut K)} {x u : Nat → Vec K} {oc : Nat → OsqpOutcome K}
  {r : Nat → LResult K} {call : Nat → OsqpCall K} {seq : Nat → Mat K × Mat K × Mat K} {N : Nat}

/-- what an exact answer in step `t` says -/
theorem loop_plan (h : ClosedLoop d ops outs x u oc r call seq N) (hms : (configOf ops outs).modelSet = true) {t : Nat} (ht : t < N)
    {st : Int} {obj : K} {z y : Nat → K} (e : oc t = .answered st obj (some (z, y))) (hz : qpOptimal (call t) z) :
    ∃ v, IsBest (PlanCoded d (configOf ops outs) (x t).get (u t).get)
        (planCost d (configOf ops outs) (x t).get (u t).get fun k => (configOf ops outs).duRef (k - 1)) v ∧
      (∀ a, a < d.nx → (x (t + 1)).get a = predict d (configOf ops outs) (x t).get v 1 a) ∧
      ∀ a, a < d.nu → (u (t + 1)).get a = v 0 a := by
  obtain ⟨m, m', ha, hs⟩ := h.asked t ht
  rw [e] at ha
  have hc := h.config t ht.le
  obtain ⟨tr, hb⟩ := (c63_coded_partial ha (by rw [hc]; exact hms) z).1 hz
  rw [hc] at tr hb
  obtain ⟨-, -, -, hS, hU, -, -, -, hcmd⟩ := c18_sequence ha
  have ein : ∀ a, a < d.nu → (r t).cmd.get a = inputAt d z 0 a := fun a ha' => by
    rw [hcmd a ha', hU 0 a ha.valid.ph_pos ha']
  refine ⟨inputAt d z, hb, fun a ha => ?_, fun a ha => ?_⟩
  · rw [h.plant t a ht ha, dot_congr ein]; rfl
  · rw [h.applied t a ht ha, ein a ha]

theorem loop_feasible_iff (h : ClosedLoop d ops outs x u oc r call seq N) (hms : (configOf ops outs).modelSet = true) {t : Nat} (ht : t < N) :
    (∃ z, qpFeasible (call t) z) ↔ ∃ v, PlanCoded d (configOf ops outs) (x t).get (u t).get v := by
  obtain ⟨m, m', ha, -⟩ := h.asked t ht
  obtain ⟨st, obj, sol, -, hs⟩ := asked_solved ha
  have hc := h.config t ht.le
  have hms' : (configOf (loopOps ops x u oc t) (loopOuts outs r call t)).modelSet = true := by rw [hc]; exact hms
  constructor
  · rintro ⟨z, hz⟩
    have := (planOk_iff.1 ((hs.feasible_iff hms' z).1 hz)).2
    rw [hc] at this
    exact ⟨_, this⟩
  · rintro ⟨v, hv⟩
    rw [← hc] at hv
    exact ⟨_, (hs.feasible_iff hms' _).2 (planOk_iff.2 ⟨lift_trajectory, planCoded_congr (fun k a hk ha => (inputAt_lift hk ha).symm) hv⟩)⟩

/-- C86, one step: after an exact answer the next problem can be satisfied. -/
theorem c86_next (h : ClosedLoop d ops outs x u oc r call seq N) (hms : (configOf ops outs).modelSet = true)
    (ht : Tightening d (configOf ops outs)) (he : EndKept d (configOf ops outs)) {t : Nat} (hN : t + 1 < N)
    (hx : ∃ st obj z y, oc t = .answered st obj (some (z, y)) ∧ qpOptimal (call t) z) : ∃ z, qpFeasible (call (t + 1)) z := by
  obtain ⟨st, obj, z, y, e, hz⟩ := hx
  obtain ⟨v, hb, h1, h2⟩ := loop_plan h hms (by omega) e hz
  obtain ⟨m, m', ha, -⟩ := h.asked t (by omega)
  have hph := ha.valid.ph_pos
  obtain ⟨w, hw, hf⟩ := he _ _ (hb.1.endOk hph)
  exact (loop_feasible_iff h hms hN).2 ⟨_, hb.1.shift ht hph h1 h2 hw hf⟩

/-- C86. Recursive feasibility: when the limits do not get looser along the horizon, those of the last step can be kept, and
the solver solves every problem that can be satisfied, then one satisfiable problem at the start is enough: every later
problem of the closed loop can be satisfied and is solved, and the plant respects the limits of the first step for ever. -/
theorem c86_recursive_feasibility (h : ClosedLoop d ops outs x u oc r call seq N) (hms : (configOf ops outs).modelSet = true)
    (ht : Tightening d (configOf ops outs)) (he : EndKept d (configOf ops outs)) (hs : SolvesFeasible oc call N)
    (h0 : ∃ z, qpFeasible (call 0) z) :
    AllExact oc call N ∧ ∀ t, t < N →
      (∃ z, qpFeasible (call t) z) ∧
      (∀ a, a < d.nx → within ((configOf ops outs).xMin 0 a) ((configOf ops outs).xMax 0 a) ((x (t + 1)).get a)) ∧
      (∀ a, a < d.nu → within ((configOf ops outs).uMin 0 a) ((configOf ops outs).uMax 0 a) ((u (t + 1)).get a)) ∧
      ∀ a, a < d.ny → within ((configOf ops outs).yMin 0 a) ((configOf ops outs).yMax 0 a)
        (outputOf d (configOf ops outs) (x (t + 1)).get ((configOf ops outs).dist 0) a) := by
  have hf : ∀ t, t < N → ∃ z, qpFeasible (call t) z := by
    intro t
    induction t with
    | zero => exact fun _ => h0
    | succ t ih => exact fun hN => c86_next h hms ht he hN (hs t (by omega) (ih (by omega)))
  have hx : AllExact oc call N := fun t hN => hs t hN (hf t hN)
  refine ⟨hx, fun t hN => ⟨hf t hN, ?_⟩⟩
  obtain ⟨-, -, h1, h2, h3⟩ := c78_prediction h hms hx hN
  refine ⟨h1, fun a ha => ?_, h2⟩
  have := h3 a ha
  rcases Nat.lt_or_ge 1 d.ph with h4 | h4
  · rw [show min 1 (d.ph - 1) = 0 + 1 by omega] at this
    exact ht.u 0 a _ (by omega) ha this
  · rwa [show min 1 (d.ph - 1) = 0 by omega] at this

/-- C86 with a terminal equality: pinning the state of the last step to an equilibrium which respects all limits is enough. -/
theorem c86_terminal_equality (h : ClosedLoop d ops outs x u oc r call seq N) (hms : (configOf ops outs).modelSet = true)
    (ht : Tightening d (configOf ops outs)) {xe ue : Nat → K} (hp : Pinned d (configOf ops outs) xe ue) (hch : d.ph ≤ d.ch + 1)
    (hs : SolvesFeasible oc call N) (h0 : ∃ z, qpFeasible (call 0) z) : AllExact oc call N :=
  (c86_recursive_feasibility h hms ht (hp.endKept hch) hs h0).1

/-! ### C87 -/

theorem EndFree.kept {c : LinConfig K} (h : EndFree d c) : EndKept d c := fun x v hx => by
  obtain ⟨w, h1, h2, -⟩ := h x v hx
  exact ⟨w, h1, h2⟩

/-- the best cost in step `t`, and how it falls -/
theorem loop_descends (h : ClosedLoop d ops outs x u oc r call seq N) (hms : (configOf ops outs).modelSet = true)
    (ht : Tightening d (configOf ops outs)) (hr : Rising d (configOf ops outs)) (he : EndFree d (configOf ops outs))
    (hw : WeightsNonneg d (configOf ops outs)) (hx : AllExact oc call N) : ∀ n t, t + n = N → ∀ v,
      PlanCoded d (configOf ops outs) (x t).get (u t).get v →
      ∑ i ∈ Finset.range n, stepCost d (configOf ops outs) 0 (x (t + i + 1)).get (u (t + i)).get (u (t + i + 1)).get ≤
        planCost d (configOf ops outs) (x t).get (u t).get (fun k => (configOf ops outs).duRef (k - 1)) v
  | 0, _, _, v, _ => by simpa using planCost_nonneg hw _ v
  | n + 1, t, hn, v, hv => by
    obtain ⟨st, obj, z, y, e, hz⟩ := hx t (by omega)
    obtain ⟨w, hb, h1, h2⟩ := loop_plan h hms (by omega) e hz
    obtain ⟨m, m', ha, -⟩ := h.asked t (by omega)
    have hph := ha.valid.ph_pos
    obtain ⟨q, hq, hf, hz⟩ := he _ _ (hb.1.endOk hph)
    have ih := loop_descends h hms ht hr he hw hx n (t + 1) (by omega) _ (hb.1.shift ht hph h1 h2 hq hf)
    have hd := planCost_shift (u0 := (u t).get) ht hr hph h1 h2 hz
    have hle := hb.2 v hv
    rw [Finset.sum_range_succ']
    have es : ∑ i ∈ Finset.range n, stepCost d (configOf ops outs) 0 (x (t + (i + 1) + 1)).get (u (t + (i + 1))).get (u (t + (i + 1) + 1)).get =
        ∑ i ∈ Finset.range n, stepCost d (configOf ops outs) 0 (x (t + 1 + i + 1)).get (u (t + 1 + i)).get (u (t + 1 + i + 1)).get :=
      Finset.sum_congr rfl fun i _ => by rw [show t + (i + 1) = t + 1 + i by omega]
    have e0 : stepCost d (configOf ops outs) 0 (x (t + 0 + 1)).get (u (t + 0)).get (u (t + 0 + 1)).get =
        stepCost d (configOf ops outs) 0 (predict d (configOf ops outs) (x t).get w 1) (u t).get (w 0) :=
      stepCost_congr h1 (fun _ _ => rfl) h2
    rw [es, e0]
    linarith

/-- C87. What the closed loop costs, over any number of steps, is at most the cost of any plan the first problem allows. -/
theorem c87_closed_loop_cost (h : ClosedLoop d ops outs x u oc r call seq N) (hms : (configOf ops outs).modelSet = true)
    (ht : Tightening d (configOf ops outs)) (hr : Rising d (configOf ops outs)) (he : EndFree d (configOf ops outs))
    (hw : WeightsNonneg d (configOf ops outs)) (hx : AllExact oc call N) (v : Nat → Nat → K)
    (hv : PlanCoded d (configOf ops outs) (x 0).get (u 0).get v) :
    ∑ t ∈ Finset.range N, stepCost d (configOf ops outs) 0 (x (t + 1)).get (u t).get (u (t + 1)).get ≤
      planCost d (configOf ops outs) (x 0).get (u 0).get (configOf ops outs).duRef v := by
  have := loop_descends h hms ht hr he hw hx N 0 (by omega) v hv
  simp only [Nat.zero_add] at this
  refine this.trans (le_of_eq ?_)
  unfold planCost
  congr 1
  refine Finset.sum_congr rfl fun k hk => ?_
  have hk := Finset.mem_range.1 hk
  congr 1
  refine Finset.sum_congr rfl fun a ha => ?_
  have ha := Finset.mem_range.1 ha
  show _ * (_ - (configOf ops outs).duRef (k - 1) a) ^ 2 = _
  rw [hr.duRef (k - 1) a (by omega) ha, hr.duRef k a hk ha]

/-- terms of a bounded series of nonnegative numbers become small -/
theorem terms_small [Archimedean K] {f : Nat → K} {B : K} (h0 : ∀ t, 0 ≤ f t) (hB : ∀ N, ∑ t ∈ Finset.range N, f t ≤ B) {ε : K} (hε : 0 < ε) :
    ∃ T, ∀ t, T ≤ t → f t < ε := by
  by_contra hcon
  push Not at hcon
  have : ∀ n : Nat, ∃ N, n • ε ≤ ∑ t ∈ Finset.range N, f t := by
    intro n
    induction n with
    | zero => exact ⟨0, by simp⟩
    | succ n ih =>
      obtain ⟨N, hN⟩ := ih
      obtain ⟨t, h1, h2⟩ := hcon N
      refine ⟨t + 1, ?_⟩
      rw [Finset.sum_range_succ, succ_nsmul]
      have : ∑ i ∈ Finset.range N, f i ≤ ∑ i ∈ Finset.range t, f i :=
        Finset.sum_le_sum_of_subset_of_nonneg (Finset.range_mono h1) fun i _ _ => h0 i
      linarith
  obtain ⟨n, hn⟩ := Archimedean.arch (B + 1) hε
  obtain ⟨N, hN⟩ := this n
  have := hB N
  linarith

/-- C87. Convergence: in a closed loop that goes on for ever every weighted output approaches its reference, and so does
every weighted command. -/
theorem c87_converges [Archimedean K] (h : ∀ N, ClosedLoop d ops outs x u oc r call seq N) (hms : (configOf ops outs).modelSet = true)
    (ht : Tightening d (configOf ops outs)) (hr : Rising d (configOf ops outs)) (he : EndFree d (configOf ops outs))
    (hw : WeightsNonneg d (configOf ops outs)) (hx : ∀ N, AllExact oc call N) {ε : K} (hε : 0 < ε) :
    ∃ T, ∀ t, T ≤ t →
      (∀ a, a < d.ny → 0 < (configOf ops outs).wY 0 a →
        |outputOf d (configOf ops outs) (x (t + 1)).get ((configOf ops outs).dist 0) a - (configOf ops outs).yRef 0 a| < ε) ∧
      ∀ a, a < d.nu → 0 < (configOf ops outs).wU 0 a → |(u (t + 1)).get a - (configOf ops outs).uRef 0 a| < ε := by
  obtain ⟨m, m', ha, -⟩ := (h 1).asked 0 (by omega)
  have hph := ha.valid.ph_pos
  obtain ⟨st, obj, z, y, e, hz⟩ := hx 1 0 (by omega)
  obtain ⟨v, hb, -, -⟩ := loop_plan (h 1) hms (by omega) e hz
  have hB := fun N => c87_closed_loop_cost (h N) hms ht hr he hw (hx N) v hb.1
  -- a bound below all positive weights
  have small : ∀ {w : K}, 0 < w → ∃ T, ∀ t, T ≤ t →
      stepCost d (configOf ops outs) 0 (x (t + 1)).get (u t).get (u (t + 1)).get < w * ε ^ 2 / 2 := fun hw' =>
    terms_small (fun t => stepCost_nonneg hw hph _ _ _) hB (by positivity)
  have square : ∀ {w p q s : K}, 0 < w → w * (p - q) ^ 2 ≤ 2 * s → s < w * ε ^ 2 / 2 → |p - q| < ε := fun {w p q s} hw' h1 h2 => by
    have h3 : w * (p - q) ^ 2 < w * ε ^ 2 := by linarith
    exact abs_lt_of_sq_lt_sq (lt_of_mul_lt_mul_left h3 hw'.le) hε.le
  -- finitely many signals
  have many : ∀ (P : Nat → Nat → Prop) n, (∀ a, a < n → ∃ T, ∀ t, T ≤ t → P a t) → ∃ T, ∀ t, T ≤ t → ∀ a, a < n → P a t := by
    intro P n
    induction n with
    | zero => exact fun _ => ⟨0, fun t _ a ha => by omega⟩
    | succ n ih =>
      intro hP
      obtain ⟨T, hT⟩ := ih fun a ha => hP a (by omega)
      obtain ⟨T', hT'⟩ := hP n (by omega)
      refine ⟨max T T', fun t ht a ha => ?_⟩
      rcases Nat.lt_or_ge a n with h1 | h1
      · exact hT t (by omega) a h1
      · obtain rfl : a = n := by omega
        exact hT' t (by omega)
  obtain ⟨T, hT⟩ := many (fun a t => 0 < (configOf ops outs).wY 0 a →
      |outputOf d (configOf ops outs) (x (t + 1)).get ((configOf ops outs).dist 0) a - (configOf ops outs).yRef 0 a| < ε) d.ny fun a ha => by
    by_cases hp : 0 < (configOf ops outs).wY 0 a
    · obtain ⟨T, hT⟩ := small hp
      refine ⟨T, fun t ht _ => square hp ?_ (hT t ht)⟩
      have h1 := sqErr_term (v := outputOf d (configOf ops outs) (x (t + 1)).get ((configOf ops outs).dist 0)) (r := (configOf ops outs).yRef 0)
        (fun a ha => hw.wY 0 a hph ha) ha
      have h2 := sqErr_nonneg (v := (u (t + 1)).get) (r := (configOf ops outs).uRef 0) fun a ha => hw.wU 0 a hph ha
      have h3 := sqErr_nonneg (v := fun a => (u (t + 1)).get a - (u t).get a) (r := (configOf ops outs).duRef 0) fun a ha => hw.wDu 0 a hph ha
      unfold stepCost
      linarith
    · exact ⟨0, fun t _ h => absurd h hp⟩
  obtain ⟨T', hT'⟩ := many (fun a t => 0 < (configOf ops outs).wU 0 a → |(u (t + 1)).get a - (configOf ops outs).uRef 0 a| < ε) d.nu fun a ha => by
    by_cases hp : 0 < (configOf ops outs).wU 0 a
    · obtain ⟨T, hT⟩ := small hp
      refine ⟨T, fun t ht _ => square hp ?_ (hT t ht)⟩
      have h1 := sqErr_nonneg (v := outputOf d (configOf ops outs) (x (t + 1)).get ((configOf ops outs).dist 0)) (r := (configOf ops outs).yRef 0)
        fun a ha => hw.wY 0 a hph ha
      have h2 := sqErr_term (v := (u (t + 1)).get) (r := (configOf ops outs).uRef 0) (fun a ha => hw.wU 0 a hph ha) ha
      have h3 := sqErr_nonneg (v := fun a => (u (t + 1)).get a - (u t).get a) (r := (configOf ops outs).duRef 0) fun a ha => hw.wDu 0 a hph ha
      unfold stepCost
      linarith
    · exact ⟨0, fun t _ h => absurd h hp⟩
  exact ⟨max T T', fun t ht => ⟨fun a ha => hT t (by omega) a ha, fun a ha => hT' t (by omega) a ha⟩⟩

/-! ### A case: an integrator driven to the origin, never at rest -/

/-- x+ = x + u, weight on the command, |u| ≤ 1, |x| ≤ 10, and x = 0 at the end of the horizon -/
def homeOps : List (LOp ℚ) :=
  [ plant1 1 1, .setObjectiveWeightsSlice (cvec 1 0) (cvec 1 1) (cvec 1 0) HorizonSlice.all,
    .setInputBoundsSlice (evec 1 (-1)) (evec 1 1) HorizonSlice.all,
    .setStateBounds ⟨1, 3, fun _ k => if k = 2 then .fin 0 else .fin (-10)⟩ ⟨1, 3, fun _ k => if k = 2 then .fin 0 else .fin 10⟩ ]

/-- what its setters return -/
def homeOuts : List (LOut ℚ) := homeOps.map fun _ => .bool true

theorem home_tightening : Tightening (dims1 3 3) (configOf homeOps homeOuts) := by
  refine ⟨?_, ?_, ?_, ?_, ?_⟩ <;> simp only [dims1] <;> intro k <;> intros <;> rcases (show k = 0 ∨ k = 1 ∨ k = 2 by omega) with rfl | rfl | rfl <;>
    simp_all [homeOps, homeOuts, Spec.configOf, Spec.LinConfig.after, Spec.accepted, Spec.LinConfig.apply, Spec.LinConfig.default,
      Spec.upd, Spec.covers, Spec.columns, HorizonSlice.all, plant1, cmat, cvec, evec, Spec.within]
  rename_i h
  constructor <;> linarith [h.1, h.2]

theorem home_rising : Rising (dims1 3 3) (configOf homeOps homeOuts) ∧ WeightsNonneg (dims1 3 3) (configOf homeOps homeOuts) := by
  refine ⟨⟨?_, ?_, ?_, ?_, ?_, ?_⟩, ⟨?_, ?_, ?_⟩⟩ <;> simp only [dims1] <;> intro k <;> intros <;> rcases (show k = 0 ∨ k = 1 ∨ k = 2 by omega) with rfl | rfl | rfl <;>
    config_simp [homeOps, homeOuts]

theorem home_pinned : Pinned (dims1 3 3) (configOf homeOps homeOuts) (fun _ => 0) (fun _ => 0) := by
  refine ⟨?_, ?_, ⟨?_, ?_, ?_, ?_⟩⟩
  · simp only [dims1]; intro a v ha
    config_simp [homeOps, homeOuts]
    intro h1 h2; linarith
  all_goals simp only [dims1]
  all_goals intros
  all_goals config_simp [homeOps, homeOuts, oneStep]

theorem home_free : EndFree (dims1 3 3) (configOf homeOps homeOuts) := by
  intro x v hx
  have e : ∀ a, a < (dims1 3 3).nx → x a = 0 := fun a ha => home_pinned.only a _ ha (hx.state a ha)
  refine ⟨fun _ => 0, home_pinned.ok.congr (fun a ha => ?_) fun _ _ => rfl, fun h => absurd h (by decide), ?_⟩
  · refine Eq.trans ?_ (home_pinned.kept a ha)
    show dot _ _ x + _ + _ = dot _ _ (fun _ => (0 : ℚ)) + _ + _
    rw [dot_congr (w := fun _ => (0 : ℚ)) e]
  · config_simp [homeOps, homeOuts, stepCost, sqErr]

/-- the best plan goes home in three equal steps -/
theorem home_best {p q : ℚ} (hp : |p| ≤ 3) (hq : |q| ≤ 1) :
    IsBest (PlanCoded (dims1 3 3) (configOf homeOps homeOuts) (cvec 1 p).get (cvec 1 q).get)
      (planCost (dims1 3 3) (configOf homeOps homeOuts) (cvec 1 p).get (cvec 1 q).get
        fun k => (configOf homeOps homeOuts).duRef (k - 1)) fun _ _ => -p / 3 := by
  obtain ⟨hp1, hp2⟩ := abs_le.1 hp
  obtain ⟨hq1, hq2⟩ := abs_le.1 hq
  refine ⟨⟨?_, ?_, ?_, ?_, ?_⟩, fun v hv => ?_⟩
  · simp only [dims1]; intro k a hk ha; interval_cases k <;> config_simp [homeOps, homeOuts, predict] <;> (constructor <;> linarith)
  · simp only [dims1]; intro k a hk ha; interval_cases k <;> config_simp [homeOps, homeOuts, before] <;> (constructor <;> linarith)
  · simp only [dims1]; intro k a hk ha; interval_cases k <;> config_simp [homeOps, homeOuts, predict]
  · simp only [dims1]; intro k a h1 h2; omega
  · simp only [dims1]; intro k hk; interval_cases k <;> config_simp [homeOps, homeOuts, predict]
  · have h3 := hv.states 3 0 (by decide) (by decide)
    revert h3
    config_simp [homeOps, homeOuts, predict, planCost, sqErr]
    intro h1 h2
    have e : v 2 0 = - p - v 0 0 - v 1 0 := by linarith
    rw [e]
    nlinarith [sq_nonneg (v 0 0 + p / 3), sq_nonneg (v 1 0 + p / 3), sq_nonneg (v 0 0 + v 1 0 + 2 * p / 3)]

/-- the states of the loop: every step covers a third of the way -/
def homeState (t : Nat) : ℚ := 3 * (2 / 3) ^ t

theorem homeState_bound (t : Nat) : |homeState t| ≤ 3 := by
  have h1 : (0 : ℚ) ≤ (2 / 3) ^ t := by positivity
  have h2 : ((2 / 3 : ℚ)) ^ t ≤ 1 := pow_le_one₀ (by norm_num) (by norm_num)
  rw [homeState, abs_of_nonneg (by positivity)]
  linarith

/-- Non-vacuity of C86 and C87: a loop which starts at 3 and goes on for ever, with all the hypotheses. -/
theorem home_loop : ∃ x u oc r call seq, (∀ t, (x t).get 0 = homeState t) ∧
    ∀ N, ClosedLoop (dims1 3 3) homeOps homeOuts x u oc r call seq N ∧ AllExact oc call N := by
  let x : Nat → Vec ℚ := fun t => cvec 1 (homeState t)
  let u : Nat → Vec ℚ := fun t => match t with
    | 0 => cvec 1 0
    | t + 1 => cvec 1 (-homeState t / 3)
  have hu : ∀ t, ∃ q, |q| ≤ 1 ∧ u t = cvec 1 q := fun t => by
    cases t with
    | zero => exact ⟨0, by norm_num, rfl⟩
    | succ t =>
      refine ⟨_, ?_, rfl⟩
      rw [abs_div, abs_neg, show |(3 : ℚ)| = 3 by norm_num]
      have := homeState_bound t
      linarith
  obtain ⟨oc, r, call, seq, h⟩ := loop_exists (d := dims1 3 3) (ops := homeOps) (dims1_valid (by decide) (by decide) (by decide) (by decide))
    (by decide) (by decide) (by accepts_tac [homeOps]) rfl x u (fun t _ _ => -homeState t / 3) (fun _ => rfl)
    (fun t => by obtain ⟨q, -, e⟩ := hu t; rw [e]; rfl)
    (fun t => by obtain ⟨q, h1, e⟩ := hu t; rw [e]; exact home_best (homeState_bound t) h1)
    (fun t a _ => rfl)
    (fun t a ha => by
      config_simp [homeOps, predict, x, homeState]
      ring)
  exact ⟨x, u, oc, r, call, seq, fun _ => rfl, h⟩

example : ∃ x u oc r call seq, ∀ N, ClosedLoop (dims1 3 3) homeOps homeOuts x u oc r call seq N ∧ SolvesFeasible oc call N ∧
    (0 < N → ∃ z, qpFeasible (call 0) z) ∧ (x 0).get 0 ≠ (x 1).get 0 := by
  obtain ⟨x, u, oc, r, call, seq, hx, h⟩ := home_loop
  refine ⟨x, u, oc, r, call, seq, fun N => ⟨(h N).1, fun t ht _ => (h N).2 t ht, fun hN => ?_, ?_⟩⟩
  · obtain ⟨_, _, z, _, _, hz⟩ := (h N).2 0 hN
    exact ⟨z, hz.1⟩
  · rw [hx, hx, homeState, homeState]; norm_num

end Mpc.Props
