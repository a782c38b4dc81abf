import Verif.Proofs.PlanConvex

/-
Plans at rest; problems with the same coefficients have the same solutions.
-/
namespace Mpc.Spec
set_option linter.unusedSectionVars false
variable {K : Type} [Field K] [LinearOrder K] [IsStrictOrderedRing K] {d : Dims} {c : LinConfig K} {call call' : OsqpCall K}

/-- the objective only reads the coefficients of the problem -/
theorem same_optimal (h : SameProblem call call') (z : Nat → K) : qpOptimal call' z ↔ qpOptimal call z := by
  have hr : ∀ z ρ, ρ < call.m → rowValue call' z ρ = rowValue call z ρ := fun z ρ hρ => by
    unfold rowValue
    rw [h.n]
    exact Finset.sum_congr rfl fun i hi => by rw [h.A ρ i hρ (Finset.mem_range.1 hi)]
  have hf : ∀ z, qpFeasible call' z ↔ qpFeasible call z := fun z => by
    unfold qpFeasible rowOk
    rw [h.m]
    exact forall_congr' fun ρ => forall_congr' fun hρ => by rw [hr z ρ hρ, h.l ρ hρ, h.u ρ hρ]
  have ho : ∀ z, qpObjective call' z = qpObjective call z := fun z => by
    unfold qpObjective hessian
    rw [h.n]
    congr 1
    · congr 1
      refine Finset.sum_congr rfl fun i hi => Finset.sum_congr rfl fun j hj => ?_
      have hi := Finset.mem_range.1 hi
      have hj := Finset.mem_range.1 hj
      rw [h.P _ _ (by omega) (by omega)]
    · exact Finset.sum_congr rfl fun i hi => by rw [h.q i (Finset.mem_range.1 hi)]
  unfold qpOptimal IsBest
  rw [hf, ho]
  exact and_congr_right fun _ => forall_congr' fun v => by rw [hf, ho]

theorem AtRest.predict {x0 u0 : Nat → K} (h : AtRest d c x0 u0) : ∀ k a, k ≤ d.ph → a < d.nx →
    Spec.predict d c x0 (fun _ => u0) k a = x0 a
  | 0, _, _, _ => rfl
  | k + 1, a, hk, ha => by
    show dot d.nx (c.A a) (Spec.predict d c x0 (fun _ => u0) k) + dot d.nu (c.B a) u0 + dot d.ndu (c.Bd a) (c.dist k) = _
    rw [dot_congr fun e he => AtRest.predict h k e (by omega) he]
    exact h.rest k a hk ha

theorem AtRest.before {u0 : Nat → K} (k a : Nat) : Spec.before u0 (fun _ => u0) k a = u0 a := by cases k <;> rfl

theorem AtRest.coded {x0 u0 : Nat → K} (h : AtRest d c x0 u0) (hph : 0 < d.ph) : PlanCoded d c x0 u0 fun _ => u0 := by
  refine ⟨fun k a hk ha => ?_, fun k a hk ha => ?_, fun k a hk ha => ?_, fun k a hk hk' ha => rfl, fun k hk => ?_⟩
  · rw [h.predict k a hk ha]; exact h.states _ a (by omega) ha
  · rw [AtRest.before]; exact h.inputs _ a (by omega) ha
  · rw [outputOf_congr fun e he => h.predict k e hk he]; exact h.outputs _ a (by omega) ha
  · rw [dot_congr fun e he => h.predict k e hk he, dot_congr fun e _ => AtRest.before k e]; exact h.scalar _ (by omega)

theorem AtRest.cost {x0 u0 : Nat → K} (h : AtRest d c x0 u0) :
    planCost d c x0 u0 (fun k => c.duRef (k - 1)) (fun _ => u0) = 0 := by
  unfold planCost
  rw [Finset.sum_eq_zero, zero_div]
  intro k hk
  have hk := Finset.mem_range.1 hk
  have z1 : sqErr d.ny (c.wY k) (outputOf d c (Spec.predict d c x0 (fun _ => u0) (k + 1)) (c.dist k)) (c.yRef k) = 0 := by
    refine Finset.sum_eq_zero fun a ha => ?_
    have ha := Finset.mem_range.1 ha
    rw [outputOf_congr fun e he => h.predict (k + 1) e hk he]
    rcases h.yRef k a hk ha with e | e
    · rw [e, zero_mul]
    · rw [e, sub_self]; ring
  have z2 : sqErr d.nu (c.wU k) u0 (c.uRef k) = 0 := by
    refine Finset.sum_eq_zero fun a ha => ?_
    have ha := Finset.mem_range.1 ha
    rcases h.uRef k a hk ha with e | e
    · rw [e, zero_mul]
    · rw [e, sub_self]; ring
  have z3 : sqErr d.nu (c.wDu k) (fun a => u0 a - Spec.before u0 (fun _ => u0) k a) (c.duRef (k - 1)) = 0 := by
    refine Finset.sum_eq_zero fun a ha => ?_
    have ha := Finset.mem_range.1 ha
    show c.wDu k a * (u0 a - Spec.before u0 (fun _ => u0) k a - c.duRef (k - 1) a) ^ 2 = 0
    rw [h.duRef (k - 1) a (by omega) ha, AtRest.before]; ring
  rw [z1, z2, z3]; ring

theorem planCost_nonneg {x0 u0 : Nat → K} (hw : WeightsNonneg d c) (duRef u : Nat → Nat → K) : 0 ≤ planCost d c x0 u0 duRef u := by
  unfold planCost
  refine div_nonneg (Finset.sum_nonneg fun k hk => ?_) zero_le_two
  have hk := Finset.mem_range.1 hk
  refine add_nonneg (add_nonneg ?_ ?_) ?_ <;> refine Finset.sum_nonneg fun a ha => mul_nonneg ?_ (sq_nonneg _)
  · exact hw.wY k a hk (Finset.mem_range.1 ha)
  · exact hw.wU k a hk (Finset.mem_range.1 ha)
  · exact hw.wDu k a hk (Finset.mem_range.1 ha)

/-- relaxing limits keeps plans -/
theorem LinConfig.Relaxes.coded {c' : LinConfig K} (h : c.Relaxes c') {x0 u0 : Nat → K} {u : Nat → Nat → K}
    (hp : PlanCoded d c x0 u0 u) : PlanCoded d c' x0 u0 u := by
  obtain ⟨e, hx, hu, hy, hs⟩ := h
  generalize c'.xMin = a1 at *
  generalize c'.xMax = a2 at *
  generalize c'.uMin = a3 at *
  generalize c'.uMax = a4 at *
  generalize c'.yMin = a5 at *
  generalize c'.yMax = a6 at *
  generalize c'.sMin = a7 at *
  generalize c'.sMax = a8 at *
  subst e
  have e : ∀ k, Spec.predict d { c with xMin := a1, xMax := a2, uMin := a3, uMax := a4, yMin := a5, yMax := a6, sMin := a7, sMax := a8 }
      x0 u k = Spec.predict d c x0 u k := by
    intro k
    induction k with
    | zero => rfl
    | succ k ih => funext a; unfold Spec.predict; rw [ih]
  refine ⟨fun k a hk ha => ?_, fun k a hk ha => hu _ _ _ (hp.held k a hk ha), fun k a hk ha => ?_, hp.frozen, fun k hk => ?_⟩
  · rw [e]; exact hx _ _ _ (hp.states k a hk ha)
  · rw [e]; exact hy _ _ _ (hp.outputs k a hk ha)
  · rw [e]; exact hs _ _ (hp.scalar k hk)

theorem LinConfig.Relaxes.cost {c' : LinConfig K} (h : c.Relaxes c') (x0 u0 : Nat → K) (duRef u : Nat → Nat → K) :
    planCost d c' x0 u0 duRef u = planCost d c x0 u0 duRef u := by
  obtain ⟨e, -, -, -, -⟩ := h
  generalize c'.xMin = a1 at *
  generalize c'.xMax = a2 at *
  generalize c'.uMin = a3 at *
  generalize c'.uMax = a4 at *
  generalize c'.yMin = a5 at *
  generalize c'.yMax = a6 at *
  generalize c'.sMin = a7 at *
  generalize c'.sMax = a8 at *
  subst e
  have e : ∀ k, Spec.predict d { c with xMin := a1, xMax := a2, uMin := a3, uMax := a4, yMin := a5, yMax := a6, sMin := a7, sMax := a8 }
      x0 u k = Spec.predict d c x0 u k := by
    intro k
    induction k with
    | zero => rfl
    | succ k ih => funext a; unfold Spec.predict; rw [ih]
  unfold planCost
  congr 1
  refine Finset.sum_congr rfl fun k _ => ?_
  rw [e]
  rfl

end Mpc.Spec
