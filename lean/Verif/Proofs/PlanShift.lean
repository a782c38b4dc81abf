import Verif.Spec.Recursive
import Verif.Proofs.PlanRest

/-
The rest of a plan, continued by one step, is a plan for the next step.
-/
namespace Mpc.Spec
set_option linter.unusedSectionVars false
variable {K : Type} [Field K] [LinearOrder K] [IsStrictOrderedRing K] {d : Dims} {c : LinConfig K}
variable {x0 u0 x1 u1 w : Nat → K} {u : Nat → Nat → K}

/-- the plan without its first command, continued with `w` -/
def tailPlan (d : Dims) (u : Nat → Nat → K) (w : Nat → K) : Nat → Nat → K := fun k => if k + 1 < d.ph then u (k + 1) else w

theorem tailPlan_lt {k : Nat} (h : k + 1 < d.ph) : tailPlan d u w k = u (k + 1) := if_pos h

theorem tailPlan_last {k : Nat} (h : d.ph ≤ k + 1) : tailPlan d u w k = w := if_neg (by omega)

theorem dist_dot (ht : Tightening d c) (M : Nat → K) {k l : Nat} (hk : k < d.ph) (hl : l < d.ph) :
    dot d.ndu M (c.dist k) = dot d.ndu M (c.dist l) :=
  dot_congr fun e he => by rw [ht.dist k e hk he, ht.dist l e hl he]

theorem dist_output (ht : Tightening d c) (x : Nat → K) (a : Nat) {k l : Nat} (hk : k < d.ph) (hl : l < d.ph) :
    outputOf d c x (c.dist k) a = outputOf d c x (c.dist l) a := by
  unfold outputOf; rw [dist_dot ht _ hk hl]

theorem predict_tail (ht : Tightening d c) (hx : ∀ a, a < d.nx → x1 a = predict d c x0 u 1 a) : ∀ k a, k < d.ph → a < d.nx →
    predict d c x1 (tailPlan d u w) k a = predict d c x0 u (k + 1) a
  | 0, a, _, ha => hx a ha
  | k + 1, a, hk, ha => by
    show dot d.nx (c.A a) (predict d c x1 (tailPlan d u w) k) + dot d.nu (c.B a) (tailPlan d u w k) + dot d.ndu (c.Bd a) (c.dist k) =
      dot d.nx (c.A a) (predict d c x0 u (k + 1)) + dot d.nu (c.B a) (u (k + 1)) + dot d.ndu (c.Bd a) (c.dist (k + 1))
    rw [dot_congr fun e he => predict_tail ht hx k e (by omega) he, tailPlan_lt hk, dist_dot ht _ (by omega : k < d.ph) hk]

theorem predict_end (ht : Tightening d c) (hx : ∀ a, a < d.nx → x1 a = predict d c x0 u 1 a) (hph : 0 < d.ph) (a : Nat) :
    predict d c x1 (tailPlan d u w) d.ph a = oneStep d c (predict d c x0 u d.ph) w a := by
  obtain ⟨n, hn⟩ : ∃ n, d.ph = n + 1 := ⟨d.ph - 1, by omega⟩
  have e : predict d c x1 (tailPlan d u w) d.ph a = dot d.nx (c.A a) (predict d c x1 (tailPlan d u w) n) +
      dot d.nu (c.B a) (tailPlan d u w n) + dot d.ndu (c.Bd a) (c.dist n) := by rw [hn]; rfl
  rw [e, dot_congr fun e he => predict_tail ht hx n e (by omega) he, tailPlan_last (by omega), dist_dot ht _ (by omega : n < d.ph) hph, ← hn]
  rfl

theorem before_tail (hu : ∀ a, a < d.nu → u1 a = u 0 a) {k a : Nat} (hk : k < d.ph) (ha : a < d.nu) :
    before u1 (tailPlan d u w) k a = u k a := by
  cases k with
  | zero => exact hu a ha
  | succ k => show tailPlan d u w k a = _; rw [tailPlan_lt hk]

theorem before_end (hph : 0 < d.ph) : before u1 (tailPlan d u w) d.ph = w := by
  obtain ⟨n, hn⟩ : ∃ n, d.ph = n + 1 := ⟨d.ph - 1, by omega⟩
  rw [hn]
  show tailPlan d u w n = w
  exact tailPlan_last (by omega)

theorem PlanCoded.endOk (h : PlanCoded d c x0 u0 u) (hph : 0 < d.ph) : EndOk d c (predict d c x0 u d.ph) (u (d.ph - 1)) := by
  have eb : before u0 u d.ph = u (d.ph - 1) := by
    obtain ⟨n, hn⟩ : ∃ n, d.ph = n + 1 := ⟨d.ph - 1, by omega⟩
    rw [hn]; rfl
  refine ⟨fun a ha => h.states d.ph a le_rfl ha, fun a ha => ?_, fun a ha => h.outputs d.ph a le_rfl ha, ?_⟩
  · have := h.held d.ph a le_rfl ha
    rwa [eb, show min d.ph (d.ph - 1) = d.ph - 1 by omega] at this
  · have := h.scalar d.ph le_rfl
    rwa [eb] at this

theorem EndOk.congr {x y v w : Nat → K} (h : EndOk d c x v) (hx : ∀ a, a < d.nx → y a = x a) (hv : ∀ a, a < d.nu → w a = v a) :
    EndOk d c y w := by
  refine ⟨fun a ha => ?_, fun a ha => ?_, fun a ha => ?_, ?_⟩
  · rw [hx a ha]; exact h.state a ha
  · rw [hv a ha]; exact h.input a ha
  · rw [outputOf_congr hx]; exact h.output a ha
  · rw [dot_congr hx, dot_congr hv]; exact h.scalar

/-- the rest of an allowed plan, continued, is allowed in the next step -/
theorem PlanCoded.shift (h : PlanCoded d c x0 u0 u) (ht : Tightening d c) (hph : 0 < d.ph)
    (hx : ∀ a, a < d.nx → x1 a = predict d c x0 u 1 a) (hu : ∀ a, a < d.nu → u1 a = u 0 a)
    (hw : EndOk d c (oneStep d c (predict d c x0 u d.ph) w) w) (hf : d.ch + 1 < d.ph → ∀ a, a < d.nu → w a = u (d.ph - 1) a) :
    PlanCoded d c x1 u1 (tailPlan d u w) := by
  have he : EndOk d c (predict d c x1 (tailPlan d u w) d.ph) (before u1 (tailPlan d u w) d.ph) :=
    hw.congr (fun a _ => predict_end ht hx hph a) (fun a _ => by rw [before_end hph])
  refine ⟨fun k a hk ha => ?_, fun k a hk ha => ?_, fun k a hk ha => ?_, fun k a hk hk' ha => ?_, fun k hk => ?_⟩
  · rcases Nat.lt_or_ge k d.ph with h1 | h1
    · rw [predict_tail ht hx k a h1 ha]
      have := h.states (k + 1) a h1 ha
      cases k with
      | zero => exact this
      | succ k => exact ht.x k a _ h1 ha this
    · obtain rfl : k = d.ph := by omega
      exact he.state a ha
  · rcases Nat.lt_or_ge k d.ph with h1 | h1
    · rw [before_tail hu h1 ha]
      have := h.held (k + 1) a h1 ha
      rw [show min k (d.ph - 1) = k by omega]
      rcases Nat.lt_or_ge (k + 1) d.ph with h2 | h2
      · rw [show min (k + 1) (d.ph - 1) = k + 1 by omega] at this
        exact ht.u k a _ h2 ha this
      · rw [show min (k + 1) (d.ph - 1) = k by omega] at this
        exact this
    · obtain rfl : k = d.ph := by omega
      rw [show min d.ph (d.ph - 1) = d.ph - 1 by omega]
      exact he.input a ha
  · rcases Nat.lt_or_ge k d.ph with h1 | h1
    · rw [outputOf_congr fun e he => predict_tail ht hx k e h1 he]
      have := h.outputs (k + 1) a h1 ha
      cases k with
      | zero => exact this
      | succ k =>
        rw [show k + 1 + 1 - 1 = k + 1 by omega, dist_output ht _ a h1 (by omega : k < d.ph)] at this
        exact ht.y k a _ h1 ha this
    · obtain rfl : k = d.ph := by omega
      exact he.output a ha
  · rw [tailPlan_lt (k := k - 1) (by omega), show k - 1 + 1 = k by omega]
    rcases Nat.lt_or_ge (k + 1) d.ph with h1 | h1
    · rw [tailPlan_lt h1, h.frozen (k + 1) a (by omega) h1 ha, Nat.add_sub_cancel]
    · rw [tailPlan_last h1, hf (by omega) a ha, show d.ph - 1 = k by omega]
  · rcases Nat.lt_or_ge k d.ph with h1 | h1
    · rw [dot_congr fun e he => predict_tail ht hx k e h1 he, dot_congr fun e he => before_tail hu h1 he]
      have := h.scalar (k + 1) h1
      cases k with
      | zero => exact this
      | succ k => exact ht.s k _ h1 this
    · obtain rfl : k = d.ph := by omega
      exact he.scalar

theorem Pinned.endKept {xe ue : Nat → K} (h : Pinned d c xe ue) (hch : d.ph ≤ d.ch + 1) : EndKept d c := by
  intro x v hx
  have e : ∀ a, a < d.nx → x a = xe a := fun a ha => h.only a _ ha (hx.state a ha)
  refine ⟨ue, h.ok.congr (fun a ha => ?_) fun _ _ => rfl, fun hlt => by omega⟩
  rw [← h.kept a ha]
  unfold oneStep
  rw [dot_congr e]

/-- the cost of a plan, step by step -/
theorem planCost_steps (hr : Rising d c) : planCost d c x0 u0 (fun k => c.duRef (k - 1)) u =
    ∑ k ∈ Finset.range d.ph, stepCost d c k (predict d c x0 u (k + 1)) (before u0 u k) (u k) := by
  unfold planCost stepCost
  rw [Finset.sum_div]
  refine Finset.sum_congr rfl fun k hk => ?_
  have hk := Finset.mem_range.1 hk
  congr 2
  refine Finset.sum_congr rfl fun a ha => ?_
  have ha := Finset.mem_range.1 ha
  show _ * (_ - c.duRef (k - 1) a) ^ 2 = _
  rw [hr.duRef (k - 1) a (by omega) ha, hr.duRef k a hk ha]

theorem stepCost_congr {k : Nat} {x y v v' w w' : Nat → K} (hx : ∀ a, a < d.nx → x a = y a) (hv : ∀ a, a < d.nu → v a = v' a)
    (hw : ∀ a, a < d.nu → w a = w' a) : stepCost d c k x v w = stepCost d c k y v' w' := by
  unfold stepCost
  rw [sqErr_congr (v := outputOf d c x (c.dist k)) (v' := outputOf d c y (c.dist k)) fun e _ => outputOf_congr hx e,
    sqErr_congr hw, sqErr_congr (v := fun a => w a - v a) (v' := fun a => w' a - v' a) fun e he => by rw [hw e he, hv e he]]

theorem sqErr_le {n : Nat} {w w' v v' r r' : Nat → K} (hw : ∀ a, a < n → w a ≤ w' a) (hv : ∀ a, a < n → v a = v' a)
    (hr : ∀ a, a < n → r a = r' a) : sqErr n w v r ≤ sqErr n w' v' r' := by
  refine Finset.sum_le_sum fun a ha => ?_
  have ha := Finset.mem_range.1 ha
  rw [hv a ha, hr a ha]
  exact mul_le_mul_of_nonneg_right (hw a ha) (sq_nonneg _)

theorem stepCost_rise (hr : Rising d c) (ht : Tightening d c) {k : Nat} (hk : k + 1 < d.ph) (x v w : Nat → K) :
    stepCost d c k x v w ≤ stepCost d c (k + 1) x v w := by
  unfold stepCost
  have h1 := sqErr_le (n := d.ny) (v := outputOf d c x (c.dist k)) (v' := outputOf d c x (c.dist (k + 1))) (fun a ha => hr.wY k a hk ha)
    (fun a _ => dist_output ht x a (by omega) hk) (fun a ha => (hr.yRef k a (by omega) ha).trans (hr.yRef (k + 1) a hk ha).symm)
  have h2 := sqErr_le (n := d.nu) (v := w) (v' := w) (fun a ha => hr.wU k a hk ha)
    (fun a _ => rfl) (fun a ha => (hr.uRef k a (by omega) ha).trans (hr.uRef (k + 1) a hk ha).symm)
  have h3 := sqErr_le (n := d.nu) (v := fun a => w a - v a) (v' := fun a => w a - v a) (fun a ha => hr.wDu k a hk ha)
    (fun a _ => rfl) (fun a ha => (hr.duRef k a (by omega) ha).trans (hr.duRef (k + 1) a hk ha).symm)
  linarith

/-- the cost of the rest of a plan, continued at no cost -/
theorem planCost_shift (ht : Tightening d c) (hr : Rising d c) (hph : 0 < d.ph)
    (hx : ∀ a, a < d.nx → x1 a = predict d c x0 u 1 a) (hu : ∀ a, a < d.nu → u1 a = u 0 a)
    (hz : stepCost d c (d.ph - 1) (oneStep d c (predict d c x0 u d.ph) w) (u (d.ph - 1)) w = 0) :
    planCost d c x1 u1 (fun k => c.duRef (k - 1)) (tailPlan d u w) ≤
      planCost d c x0 u0 (fun k => c.duRef (k - 1)) u - stepCost d c 0 (predict d c x0 u 1) u0 (u 0) := by
  rw [planCost_steps hr, planCost_steps hr]
  obtain ⟨n, hn⟩ : ∃ n, d.ph = n + 1 := ⟨d.ph - 1, by omega⟩
  have hl : stepCost d c n (predict d c x1 (tailPlan d u w) (n + 1)) (before u1 (tailPlan d u w) n) (tailPlan d u w n) = 0 := by
    rw [← hz, show d.ph - 1 = n by omega]
    refine stepCost_congr (fun a _ => ?_) (fun a ha => before_tail hu (by omega) ha) fun a _ => by rw [tailPlan_last (by omega)]
    rw [← hn]; exact predict_end ht hx hph a
  have hs : ∀ k ∈ Finset.range n, stepCost d c k (predict d c x1 (tailPlan d u w) (k + 1)) (before u1 (tailPlan d u w) k) (tailPlan d u w k) ≤
      stepCost d c (k + 1) (predict d c x0 u (k + 1 + 1)) (before u0 u (k + 1)) (u (k + 1)) := by
    intro k hk
    have hk := Finset.mem_range.1 hk
    refine le_trans (le_of_eq (stepCost_congr (fun a ha => predict_tail ht hx (k + 1) a (by omega) ha)
      (fun a ha => before_tail hu (by omega) ha) fun a _ => by rw [tailPlan_lt (by omega)])) (stepCost_rise hr ht (by omega) _ _ _)
  rw [hn, Finset.sum_range_succ, hl, add_zero, Finset.sum_range_succ' (fun k => stepCost d c k (predict d c x0 u (k + 1)) (before u0 u k) (u k)) n]
  have h0 : stepCost d c 0 (predict d c x0 u (0 + 1)) (before u0 u 0) (u 0) = stepCost d c 0 (predict d c x0 u 1) u0 (u 0) := rfl
  rw [h0, add_sub_cancel_right]
  exact Finset.sum_le_sum hs

theorem sqErr_nonneg {n : Nat} {w v r : Nat → K} (h : ∀ a, a < n → 0 ≤ w a) : 0 ≤ sqErr n w v r :=
  Finset.sum_nonneg fun a ha => mul_nonneg (h a (Finset.mem_range.1 ha)) (sq_nonneg _)

theorem sqErr_term {n : Nat} {w v r : Nat → K} (h : ∀ a, a < n → 0 ≤ w a) {a : Nat} (ha : a < n) : w a * (v a - r a) ^ 2 ≤ sqErr n w v r :=
  Finset.single_le_sum (f := fun a => w a * (v a - r a) ^ 2) (fun i hi => mul_nonneg (h i (Finset.mem_range.1 hi)) (sq_nonneg _))
    (Finset.mem_range.2 ha)

theorem stepCost_nonneg (hw : WeightsNonneg d c) {k : Nat} (hk : k < d.ph) (x v w : Nat → K) : 0 ≤ stepCost d c k x v w := by
  unfold stepCost
  have h1 := sqErr_nonneg (v := outputOf d c x (c.dist k)) (r := c.yRef k) fun a ha => hw.wY k a hk ha
  have h2 := sqErr_nonneg (v := w) (r := c.uRef k) fun a ha => hw.wU k a hk ha
  have h3 := sqErr_nonneg (v := fun a => w a - v a) (r := c.duRef k) fun a ha => hw.wDu k a hk ha
  linarith

theorem stepCost_first (hw : WeightsNonneg d c) (hr : Rising d c) (hph : 0 < d.ph) :
    stepCost d c 0 (predict d c x0 u 1) u0 (u 0) ≤ planCost d c x0 u0 (fun k => c.duRef (k - 1)) u := by
  rw [planCost_steps hr]
  exact Finset.single_le_sum (f := fun k => stepCost d c k (predict d c x0 u (k + 1)) (before u0 u k) (u k))
    (fun k hk => stepCost_nonneg hw (Finset.mem_range.1 hk) _ _ _) (Finset.mem_range.2 hph)

end Mpc.Spec
