import Mathlib.Tactic.Ring
import Mathlib.Tactic.LinearCombination
import Mathlib.Algebra.BigOperators.Field
import Mathlib.Algebra.Order.Field.Basic
import Verif.Proofs.QpLift
import Verif.Spec.Symmetry

/-
Plans, their constraints and their cost under a change of units and of state coordinates.
-/
namespace Mpc.Spec
variable {K : Type} [Field K]

theorem dot_smul {n : Nat} (s : K) (M v : Nat → K) : dot n M (fun e => s * v e) = s * dot n M v := by
  unfold dot
  rw [Finset.mul_sum]
  exact Finset.sum_congr rfl fun e _ => by ring

section units
variable [LinearOrder K] [IsStrictOrderedRing K] {d : Dims} {c : LinConfig K} {s : K} {x0 u0 : Nat → K} {u : Nat → Nat → K}

theorem within_times (hs : s ≠ 0) {lo hi : Ext K} {v : K} :
    within (timesLimit s (if 0 < s then lo else hi)) (timesLimit s (if 0 < s then hi else lo)) (s * v) ↔ within lo hi v := by
  rcases lt_or_gt_of_ne hs with h | h
  · have hn : ¬ 0 < s := not_lt.2 h.le
    simp only [within, if_neg hn]
    rw [and_comm]
    cases lo <;> cases hi <;>
      simp [timesLimit, hn, mul_le_mul_left_of_neg h]
  · simp only [within, if_pos h]
    cases lo <;> cases hi <;> simp [timesLimit, h]

theorem predict_scale : ∀ k a, predict d (c.scaleSignals s) (fun e => s * x0 e) (fun k e => s * u k e) k a =
    s * predict d c x0 u k a
  | 0, _ => rfl
  | k + 1, a => by
    show dot d.nx (c.A a) (predict d (c.scaleSignals s) (fun e => s * x0 e) (fun k e => s * u k e) k) +
      dot d.nu (c.B a) (fun e => s * u k e) + dot d.ndu (c.Bd a) (fun e => s * c.dist k e) = _
    rw [dot_congr fun e _ => predict_scale k e, dot_smul, dot_smul, dot_smul]
    show _ = s * (dot d.nx (c.A a) (predict d c x0 u k) + dot d.nu (c.B a) (u k) + dot d.ndu (c.Bd a) (c.dist k))
    ring

theorem before_scale (k a : Nat) : before (fun e => s * u0 e) (fun k e => s * u k e) k a = s * before u0 u k a := by
  cases k <;> rfl

theorem output_scale (x dist : Nat → K) (a : Nat) :
    outputOf d (c.scaleSignals s) (fun e => s * x e) (fun e => s * dist e) a = s * outputOf d c x dist a := by
  show dot d.nx (c.C a) _ + dot d.ndu (c.Dd a) _ = s * (dot d.nx (c.C a) _ + dot d.ndu (c.Dd a) _)
  rw [dot_smul, dot_smul]; ring

theorem sqErr_scale {n : Nat} (w v ref : Nat → K) :
    sqErr n w (fun a => s * v a) (fun a => s * ref a) = s ^ 2 * sqErr n w v ref := by
  unfold sqErr
  rw [Finset.mul_sum]
  exact Finset.sum_congr rfl fun a _ => by ring

theorem planCost_scale (duRef : Nat → Nat → K) :
    planCost d (c.scaleSignals s) (fun e => s * x0 e) (fun e => s * u0 e) (fun k a => s * duRef k a) (fun k e => s * u k e) =
      s ^ 2 * planCost d c x0 u0 duRef u := by
  unfold planCost
  rw [← mul_div_assoc, Finset.mul_sum]
  congr 1
  refine Finset.sum_congr rfl fun k _ => ?_
  rw [mul_add, mul_add, ← sqErr_scale, ← sqErr_scale, ← sqErr_scale]
  refine congrArg₂ _ (congrArg₂ _ ?_ rfl) ?_
  · refine sqErr_congr fun a _ => ?_
    rw [← output_scale]
    exact outputOf_congr (fun e _ => predict_scale (k + 1) e) a
  · refine sqErr_congr fun a _ => ?_
    rw [before_scale]; ring

theorem planCoded_scale (hs : s ≠ 0) :
    PlanCoded d (c.scaleSignals s) (fun e => s * x0 e) (fun e => s * u0 e) (fun k e => s * u k e) ↔ PlanCoded d c x0 u0 u := by
  have e1 : ∀ k a, within ((c.scaleSignals s).xMin (k - 1) a) ((c.scaleSignals s).xMax (k - 1) a)
      (predict d (c.scaleSignals s) (fun e => s * x0 e) (fun k e => s * u k e) k a) ↔
      within (c.xMin (k - 1) a) (c.xMax (k - 1) a) (predict d c x0 u k a) := fun k a => by
    rw [predict_scale]; exact within_times hs
  have e2 : ∀ k a, within ((c.scaleSignals s).uMin (min k (d.ph - 1)) a) ((c.scaleSignals s).uMax (min k (d.ph - 1)) a)
      (before (fun e => s * u0 e) (fun k e => s * u k e) k a) ↔
      within (c.uMin (min k (d.ph - 1)) a) (c.uMax (min k (d.ph - 1)) a) (before u0 u k a) := fun k a => by
    rw [before_scale]; exact within_times hs
  have e3 : ∀ k a, within ((c.scaleSignals s).yMin (k - 1) a) ((c.scaleSignals s).yMax (k - 1) a)
      (outputOf d (c.scaleSignals s) (predict d (c.scaleSignals s) (fun e => s * x0 e) (fun k e => s * u k e) k)
        ((c.scaleSignals s).dist (k - 1)) a) ↔
      within (c.yMin (k - 1) a) (c.yMax (k - 1) a) (outputOf d c (predict d c x0 u k) (c.dist (k - 1)) a) := fun k a => by
    rw [outputOf_congr (x' := fun e => s * predict d c x0 u k e) (fun e _ => predict_scale k e),
      show (c.scaleSignals s).dist (k - 1) = fun e => s * c.dist (k - 1) e from rfl, output_scale]
    exact within_times hs
  have e4 : ∀ k, within ((c.scaleSignals s).sMin (k - 1)) ((c.scaleSignals s).sMax (k - 1))
      (dot d.nx (c.scaleSignals s).sX (predict d (c.scaleSignals s) (fun e => s * x0 e) (fun k e => s * u k e) k) +
        dot d.nu (c.scaleSignals s).sU (before (fun e => s * u0 e) (fun k e => s * u k e) k)) ↔
      within (c.sMin (k - 1)) (c.sMax (k - 1)) (dot d.nx c.sX (predict d c x0 u k) + dot d.nu c.sU (before u0 u k)) := fun k => by
    rw [dot_congr (w := fun e => s * predict d c x0 u k e) (fun e _ => predict_scale k e),
      dot_congr (v := before _ _ k) (w := fun e => s * before u0 u k e) (fun e _ => before_scale k e), dot_smul, dot_smul, ← mul_add]
    exact within_times hs
  have e5 : ∀ k a, s * u k a = s * u (k - 1) a ↔ u k a = u (k - 1) a := fun k a => mul_right_inj' hs
  constructor
  · rintro ⟨h1, h2, h3, h4, h5⟩
    exact ⟨fun k a hk ha => (e1 k a).1 (h1 k a hk ha), fun k a hk ha => (e2 k a).1 (h2 k a hk ha),
      fun k a hk ha => (e3 k a).1 (h3 k a hk ha), fun k a hk hk' ha => (e5 k a).1 (h4 k a hk hk' ha), fun k hk => (e4 k).1 (h5 k hk)⟩
  · rintro ⟨h1, h2, h3, h4, h5⟩
    exact ⟨fun k a hk ha => (e1 k a).2 (h1 k a hk ha), fun k a hk ha => (e2 k a).2 (h2 k a hk ha),
      fun k a hk ha => (e3 k a).2 (h3 k a hk ha), fun k a hk hk' ha => (e5 k a).2 (h4 k a hk hk' ha), fun k hk => (e4 k).2 (h5 k hk)⟩

theorem trajectory_scale (hs : s ≠ 0) {z : Nat → K} :
    Trajectory d (c.scaleSignals s) (fun e => s * x0 e) (fun e => s * u0 e) (fun p => s * z p) ↔ Trajectory d c x0 u0 z := by
  have e : ∀ k a, dot d.nx (c.A a) (fun e => s * stateAt d z k e) + dot d.nu (c.B a) (fun e => s * inputAt d z k e) +
      dot d.ndu (c.Bd a) (fun e => s * c.dist k e) = s * (dot d.nx (c.A a) (stateAt d z k) + dot d.nu (c.B a) (inputAt d z k) +
        dot d.ndu (c.Bd a) (c.dist k)) := fun k a => by rw [dot_smul, dot_smul, dot_smul]; ring
  constructor
  · rintro ⟨h1, h2, h3, h4⟩
    refine ⟨fun a ha => mul_left_cancel₀ hs (h1 a ha), fun a ha => mul_left_cancel₀ hs (h2 a ha), fun k a hk ha => ?_, fun k a hk ha => ?_⟩
    · have : s * inputAt d z k a = s * heldAt d z k a + s * incrementAt d z k a := h3 k a hk ha
      exact mul_left_cancel₀ hs (by rw [this]; ring)
    · have := h4 k a hk ha
      exact mul_left_cancel₀ hs (this.trans (e k a))
  · rintro ⟨h1, h2, h3, h4⟩
    refine ⟨fun a ha => congrArg (s * ·) (h1 a ha), fun a ha => congrArg (s * ·) (h2 a ha), fun k a hk ha => ?_, fun k a hk ha => ?_⟩
    · show s * inputAt d z k a = s * heldAt d z k a + s * incrementAt d z k a
      rw [h3 k a hk ha]; ring
    · exact (congrArg (s * ·) (h4 k a hk ha)).trans (e k a).symm

theorem best_scale (hs : s ≠ 0) {duRef : Nat → Nat → K} :
    IsBest (PlanCoded d (c.scaleSignals s) (fun e => s * x0 e) (fun e => s * u0 e))
      (planCost d (c.scaleSignals s) (fun e => s * x0 e) (fun e => s * u0 e) fun k a => s * duRef k a) (fun k e => s * u k e) ↔
    IsBest (PlanCoded d c x0 u0) (planCost d c x0 u0 duRef) u := by
  have hp : 0 < s ^ 2 := pow_pos_of_ne hs
  unfold IsBest
  rw [planCoded_scale hs]
  refine and_congr_right fun _ => ?_
  constructor
  · intro h v hv
    have := h _ ((planCoded_scale hs).2 hv)
    rw [planCost_scale, planCost_scale] at this
    exact le_of_mul_le_mul_left this hp
  · intro h v hv
    have ev : v = fun k e => s * (s⁻¹ * v k e) := by
      funext k e; rw [← mul_assoc, mul_inv_cancel₀ hs, one_mul]
    rw [ev] at hv ⊢
    rw [planCost_scale, planCost_scale]
    exact mul_le_mul_of_nonneg_left (h _ ((planCoded_scale hs).1 hv)) hp.le
where
  pow_pos_of_ne {s : K} (hs : s ≠ 0) : 0 < s ^ 2 := by
    rw [pow_two]; exact mul_self_pos.2 hs

end units

/-! ### state coordinates -/

section coordinates
variable {d : Dims} {n : Nat} {T : Nat → Nat → K} {c c' : LinConfig K} {x0 x0' u0 : Nat → K} {u : Nat → Nat → K}

/-- the dimensions with another number of states -/
abbrev withStates (d : Dims) (n : Nat) : Dims := { d with nx := n }

theorem dot_assoc {m : Nat} (M : Nat → K) (x : Nat → K) :
    dot n M (fun i => dot m (T i) x) = dot m (fun e => dot n M (fun j => T j e)) x := by
  unfold dot
  simp only [Finset.mul_sum, Finset.sum_mul]
  rw [Finset.sum_comm]
  exact Finset.sum_congr rfl fun e _ => Finset.sum_congr rfl fun j _ => by ring

theorem dot_congr_left {n : Nat} {M M' v : Nat → K} (h : ∀ e, e < n → M e = M' e) : dot n M v = dot n M' v :=
  Finset.sum_congr rfl fun e he => by rw [h e (Finset.mem_range.1 he)]

theorem dot_add_right {n : Nat} (M v w : Nat → K) : dot n M (fun e => v e + w e) = dot n M v + dot n M w := by
  unfold dot
  rw [← Finset.sum_add_distrib]
  exact Finset.sum_congr rfl fun e _ => by ring

theorem SameBehaviour.predict (h : SameBehaviour d n T c c') (hx : ∀ i, i < n → x0' i = dot d.nx (T i) x0) :
    ∀ k i, i < n → Spec.predict (withStates d n) c' x0' u k i = dot d.nx (T i) (Spec.predict d c x0 u k)
  | 0, i, hi => hx i hi
  | k + 1, i, hi => by
    have hdist : c'.dist = c.dist := by rw [h.same]
    show dot n (c'.A i) (Spec.predict (withStates d n) c' x0' u k) + dot d.nu (c'.B i) (u k) + dot d.ndu (c'.Bd i) (c'.dist k) = _
    rw [dot_congr (w := fun i => dot d.nx (T i) (Spec.predict d c x0 u k)) (fun e he => h.predict hx k e he), dot_assoc, hdist,
      dot_congr_left (M' := fun e => dot d.nx (T i) (fun j => c.A j e)) (fun e he => h.A i e hi he),
      dot_congr_left (M' := fun e => dot d.nx (T i) (fun j => c.B j e)) (fun e he => h.B i e hi he),
      dot_congr_left (M' := fun e => dot d.nx (T i) (fun j => c.Bd j e)) (fun e he => h.Bd i e hi he),
      ← dot_assoc (T := c.A), ← dot_assoc (T := c.B), ← dot_assoc (T := c.Bd), ← dot_add_right, ← dot_add_right]
    rfl

theorem SameBehaviour.output (h : SameBehaviour d n T c c') {x x' : Nat → K} (hx : ∀ i, i < n → x' i = dot d.nx (T i) x)
    (dist : Nat → K) {a : Nat} (ha : a < d.ny) : outputOf (withStates d n) c' x' dist a = outputOf d c x dist a := by
  have hD : c'.Dd = c.Dd := by rw [h.same]
  show dot n (c'.C a) x' + dot d.ndu (c'.Dd a) dist = dot d.nx (c.C a) x + dot d.ndu (c.Dd a) dist
  rw [dot_congr hx, dot_assoc, dot_congr_left fun e he => h.C a e ha he, hD]

theorem SameBehaviour.cost (h : SameBehaviour d n T c c') (hx : ∀ i, i < n → x0' i = dot d.nx (T i) x0) (duRef : Nat → Nat → K) :
    planCost (withStates d n) c' x0' u0 duRef u = planCost d c x0 u0 duRef u := by
  unfold planCost
  congr 1
  refine Finset.sum_congr rfl fun k _ => ?_
  refine congrArg₂ _ (congrArg₂ _ ?_ ?_) ?_
  · rw [show c'.wY = c.wY by rw [h.same], show c'.yRef = c.yRef by rw [h.same], show c'.dist = c.dist by rw [h.same]]
    exact sqErr_congr fun a ha => h.output (h.predict hx (k + 1)) _ ha
  · rw [show c'.wU = c.wU by rw [h.same], show c'.uRef = c.uRef by rw [h.same]]
  · rw [show c'.wDu = c.wDu by rw [h.same]]

theorem SameBehaviour.coded [LE K] (h : SameBehaviour d n T c c') (hx : ∀ i, i < n → x0' i = dot d.nx (T i) x0) :
    PlanCoded (withStates d n) c' x0' u0 u ↔ PlanCoded d c x0 u0 u := by
  have eo : ∀ k a, a < d.ny → (within (c'.yMin (k - 1) a) (c'.yMax (k - 1) a)
      (outputOf (withStates d n) c' (Spec.predict (withStates d n) c' x0' u k) (c'.dist (k - 1)) a) ↔
      within (c.yMin (k - 1) a) (c.yMax (k - 1) a) (outputOf d c (Spec.predict d c x0 u k) (c.dist (k - 1)) a)) := fun k a ha => by
    rw [h.output (h.predict hx k) _ ha, show c'.yMin = c.yMin by rw [h.same], show c'.yMax = c.yMax by rw [h.same],
      show c'.dist = c.dist by rw [h.same]]
  have es : ∀ k, (within (c'.sMin (k - 1)) (c'.sMax (k - 1))
      (dot n c'.sX (Spec.predict (withStates d n) c' x0' u k) + dot d.nu c'.sU (Spec.before u0 u k)) ↔
      within (c.sMin (k - 1)) (c.sMax (k - 1)) (dot d.nx c.sX (Spec.predict d c x0 u k) + dot d.nu c.sU (Spec.before u0 u k))) :=
    fun k => by
    rw [dot_congr (h.predict hx k), dot_assoc, dot_congr_left fun e he => h.sX e he,
      show c'.sMin = c.sMin by rw [h.same], show c'.sMax = c.sMax by rw [h.same], show c'.sU = c.sU by rw [h.same]]
  have eu1 : c'.uMin = c.uMin := by rw [h.same]
  have eu2 : c'.uMax = c.uMax := by rw [h.same]
  have free : ∀ k a v, within (c.xMin k a) (c.xMax k a) v := fun k a v => by
    rw [h.xMin, h.xMax]; exact ⟨Ext.negInf_le _, Ext.le_posInf _⟩
  have free' : ∀ k a v, within (c'.xMin k a) (c'.xMax k a) v := fun k a v => by
    rw [show c'.xMin = c.xMin by rw [h.same], show c'.xMax = c.xMax by rw [h.same]]; exact free k a v
  constructor
  · rintro ⟨h1, h2, h3, h4, h5⟩
    exact ⟨fun k a _ _ => free _ _ _, fun k a hk ha => by rw [← eu1, ← eu2]; exact h2 k a hk ha,
      fun k a hk ha => (eo k a ha).1 (h3 k a hk ha), h4, fun k hk => (es k).1 (h5 k hk)⟩
  · rintro ⟨h1, h2, h3, h4, h5⟩
    exact ⟨fun k a _ _ => free' _ _ _, fun k a hk ha => by rw [eu1, eu2]; exact h2 k a hk ha,
      fun k a hk ha => (eo k a ha).2 (h3 k a hk ha), h4, fun k hk => (es k).2 (h5 k hk)⟩

theorem SameBehaviour.best [LE K] (h : SameBehaviour d n T c c') (hx : ∀ i, i < n → x0' i = dot d.nx (T i) x0)
    {duRef : Nat → Nat → K} :
    IsBest (PlanCoded (withStates d n) c' x0' u0) (planCost (withStates d n) c' x0' u0 duRef) u ↔
    IsBest (PlanCoded d c x0 u0) (planCost d c x0 u0 duRef) u := by
  unfold IsBest
  rw [h.coded hx, h.cost hx]
  exact and_congr_right fun _ => forall_congr' fun v => by rw [h.coded hx, h.cost hx]

end coordinates
end Mpc.Spec
