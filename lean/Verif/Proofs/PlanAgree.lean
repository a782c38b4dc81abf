import Verif.Proofs.QpLift
import Verif.Spec.Superposition

/-
Plans under two configurations which agree on everything a problem of the given dimensions uses.
-/
namespace Mpc.Spec
variable {K : Type} [Field K] {d : Dims} {c c' : LinConfig K} {x0 u0 x0' u0' : Nat → K} {u : Nat → Nat → K}

theorem dot_congr' {n : Nat} {M M' v w : Nat → K} (hM : ∀ e, e < n → M e = M' e) (h : ∀ e, e < n → v e = w e) :
    dot n M v = dot n M' w :=
  Finset.sum_congr rfl fun e he => by rw [h e (Finset.mem_range.1 he), hM e (Finset.mem_range.1 he)]

theorem sqErr_congr' {n : Nat} {w w' v v' r r' : Nat → K} (hw : ∀ e, e < n → w e = w' e) (hv : ∀ e, e < n → v e = v' e)
    (hr : ∀ e, e < n → r e = r' e) : sqErr n w v r = sqErr n w' v' r' :=
  Finset.sum_congr rfl fun e he => by
    have he := Finset.mem_range.1 he
    rw [hw e he, hv e he, hr e he]

variable (hc : c.Agree d c') (hx : ∀ a, a < d.nx → x0' a = x0 a) (hu : ∀ a, a < d.nu → u0' a = u0 a)
include hc

theorem LinConfig.Agree.symm : c'.Agree d c where
  modelSet := hc.modelSet.symm
  A a e h h' := (hc.A a e h h').symm
  B a e h h' := (hc.B a e h h').symm
  C a e h h' := (hc.C a e h h').symm
  Bd a e h h' := (hc.Bd a e h h').symm
  Dd a e h h' := (hc.Dd a e h h').symm
  wY a e h h' := (hc.wY a e h h').symm
  wU a e h h' := (hc.wU a e h h').symm
  wDu a e h h' := (hc.wDu a e h h').symm
  xMin a e h h' := (hc.xMin a e h h').symm
  xMax a e h h' := (hc.xMax a e h h').symm
  uMin a e h h' := (hc.uMin a e h h').symm
  uMax a e h h' := (hc.uMax a e h h').symm
  yMin a e h h' := (hc.yMin a e h h').symm
  yMax a e h h' := (hc.yMax a e h h').symm
  sMin a h := (hc.sMin a h).symm
  sMax a h := (hc.sMax a h).symm
  sX a h := (hc.sX a h).symm
  sU a h := (hc.sU a h).symm
  yRef a e h h' := (hc.yRef a e h h').symm
  uRef a e h h' := (hc.uRef a e h h').symm
  duRef a e h h' := (hc.duRef a e h h').symm
  dist a e h h' := (hc.dist a e h h').symm

include hx in
theorem predict_agree : ∀ k a, k ≤ d.ph → a < d.nx → predict d c' x0' u k a = predict d c x0 u k a
  | 0, a, _, ha => hx a ha
  | k + 1, a, hk, ha => by
    show dot d.nx (c'.A a) (predict d c' x0' u k) + dot d.nu (c'.B a) (u k) + dot d.ndu (c'.Bd a) (c'.dist k) =
      dot d.nx (c.A a) (predict d c x0 u k) + dot d.nu (c.B a) (u k) + dot d.ndu (c.Bd a) (c.dist k)
    rw [dot_congr' (fun e he => hc.A a e ha he) fun e he => predict_agree k e (by omega) he,
      dot_congr' (fun e he => hc.B a e ha he) fun _ _ => rfl,
      dot_congr' (fun e he => hc.Bd a e ha he) fun e he => hc.dist k e (by omega) he]

theorem outputOf_agree {x x' : Nat → K} (h : ∀ e, e < d.nx → x' e = x e) {k a : Nat} (hk : k < d.ph) (ha : a < d.ny) :
    outputOf d c' x' (c'.dist k) a = outputOf d c x (c.dist k) a := by
  unfold outputOf
  rw [dot_congr' (fun e he => hc.C a e ha he) h, dot_congr' (fun e he => hc.Dd a e ha he) fun e he => hc.dist k e hk he]

omit [Field K] hc in
include hu in
theorem before_agree (k : Nat) {a : Nat} (ha : a < d.nu) : before u0' u k a = before u0 u k a := by
  cases k with
  | zero => exact hu a ha
  | succ k => rfl

include hx hu

theorem planCost_agree {f f' : Nat → Nat → K} (hf : ∀ k a, k < d.ph → a < d.nu → f' k a = f k a) :
    planCost d c' x0' u0' f' u = planCost d c x0 u0 f u := by
  unfold planCost
  congr 1
  refine Finset.sum_congr rfl fun k hk => ?_
  have hk := Finset.mem_range.1 hk
  refine congrArg₂ _ (congrArg₂ _ ?_ ?_) ?_
  · exact sqErr_congr' (fun e he => hc.wY k e hk he)
      (fun e he => outputOf_agree hc (fun a ha => predict_agree hc hx (k + 1) a hk ha) hk he) fun e he => hc.yRef k e hk he
  · exact sqErr_congr' (fun e he => hc.wU k e hk he) (fun _ _ => rfl) fun e he => hc.uRef k e hk he
  · exact sqErr_congr' (fun e he => hc.wDu k e hk he) (fun e he => by rw [before_agree hu k he]) fun e he => hf k e hk he

theorem planCoded_agree [LE K] (hph : 0 < d.ph) : PlanCoded d c' x0' u0' u ↔ PlanCoded d c x0 u0 u := by
  have e1 := predict_agree (u := u) hc hx
  have e2 := fun k a (ha : a < d.nu) => before_agree (u := u) hu k ha
  have q : ∀ k, k ≤ d.ph → k - 1 < d.ph := fun k hk => by omega
  have e3 : ∀ k a, k ≤ d.ph → a < d.ny → outputOf d c' (predict d c' x0' u k) (c'.dist (k - 1)) a =
      outputOf d c (predict d c x0 u k) (c.dist (k - 1)) a := fun k a hk ha =>
    outputOf_agree hc (fun e he => e1 k e hk he) (q k hk) ha
  have e4 : ∀ k, k ≤ d.ph → dot d.nx c'.sX (predict d c' x0' u k) + dot d.nu c'.sU (before u0' u k) =
      dot d.nx c.sX (predict d c x0 u k) + dot d.nu c.sU (before u0 u k) := fun k hk => by
    rw [dot_congr' (fun e he => hc.sX e he) fun e he => e1 k e hk he, dot_congr' (fun e he => hc.sU e he) fun e he => e2 k e he]
  constructor
  · rintro ⟨h1, h2, h3, h4, h5⟩
    refine ⟨fun k a hk ha => ?_, fun k a hk ha => ?_, fun k a hk ha => ?_, h4, fun k hk => ?_⟩
    · rw [← hc.xMin _ a (q k hk) ha, ← hc.xMax _ a (q k hk) ha, ← e1 k a hk ha]; exact h1 k a hk ha
    · rw [← hc.uMin _ a (by omega) ha, ← hc.uMax _ a (by omega) ha, ← e2 k a ha]; exact h2 k a hk ha
    · rw [← hc.yMin _ a (q k hk) ha, ← hc.yMax _ a (q k hk) ha, ← e3 k a hk ha]; exact h3 k a hk ha
    · rw [← hc.sMin _ (q k hk), ← hc.sMax _ (q k hk), ← e4 k hk]; exact h5 k hk
  · rintro ⟨h1, h2, h3, h4, h5⟩
    refine ⟨fun k a hk ha => ?_, fun k a hk ha => ?_, fun k a hk ha => ?_, h4, fun k hk => ?_⟩
    · rw [hc.xMin _ a (q k hk) ha, hc.xMax _ a (q k hk) ha, e1 k a hk ha]; exact h1 k a hk ha
    · rw [hc.uMin _ a (by omega) ha, hc.uMax _ a (by omega) ha, e2 k a ha]; exact h2 k a hk ha
    · rw [hc.yMin _ a (q k hk) ha, hc.yMax _ a (q k hk) ha, e3 k a hk ha]; exact h3 k a hk ha
    · rw [hc.sMin _ (q k hk), hc.sMax _ (q k hk), e4 k hk]; exact h5 k hk

theorem best_agree [LE K] (hph : 0 < d.ph) {f f' : Nat → Nat → K} (hf : ∀ k a, k < d.ph → a < d.nu → f' k a = f k a) :
    IsBest (PlanCoded d c' x0' u0') (planCost d c' x0' u0' f') u ↔ IsBest (PlanCoded d c x0 u0) (planCost d c x0 u0 f) u := by
  unfold IsBest
  rw [planCoded_agree hc hx hu hph, planCost_agree hc hx hu hf]
  exact and_congr_right fun _ => forall_congr' fun v => by rw [planCoded_agree hc hx hu hph, planCost_agree hc hx hu hf]

end Mpc.Spec
