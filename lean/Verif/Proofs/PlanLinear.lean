import Mathlib.Tactic.Ring
import Mathlib.Tactic.Linarith
import Mathlib.Tactic.LinearCombination
import Mathlib.Tactic.FieldSimp
import Mathlib.Algebra.BigOperators.Field
import Mathlib.LinearAlgebra.Dual.Lemmas
import Mathlib.LinearAlgebra.FiniteDimensional.Basic
import Verif.Proofs.PlanConvex
import Verif.Proofs.PlanRest
import Verif.Proofs.PlanAgree

/-
Without limits the best plan depends linearly on the signals: the cost is a quadratic form in signals and commands.
-/
namespace Mpc.Spec
set_option linter.unusedSectionVars false
variable {K : Type} [Field K]

theorem dot_comb {n : Nat} (s t : K) (M v w : Nat → K) : dot n M (fun e => s * v e + t * w e) = s * dot n M v + t * dot n M w := by
  unfold dot
  rw [Finset.mul_sum, Finset.mul_sum, ← Finset.sum_add_distrib]
  exact Finset.sum_congr rfl fun e _ => by ring

/-- signals and commands together -/
abbrev Scene (K : Type) := Signals K × (Nat → Nat → K)

/-- weighted product of two vectors -/
def wdot (n : Nat) (w v v' : Nat → K) : K := ∑ a ∈ Finset.range n, w a * v a * v' a

theorem wdot_comm (n : Nat) (w v v' : Nat → K) : wdot n w v v' = wdot n w v' v :=
  Finset.sum_congr rfl fun a _ => by ring

theorem wdot_comb {n : Nat} (s t : K) (w v v' r : Nat → K) :
    wdot n w (fun a => s * v a + t * v' a) r = s * wdot n w v r + t * wdot n w v' r := by
  unfold wdot
  rw [Finset.mul_sum, Finset.mul_sum, ← Finset.sum_add_distrib]
  exact Finset.sum_congr rfl fun e _ => by ring

section
variable (d : Dims) (c : LinConfig K)

/-- predicted state -/
def pX (p : Scene K) (k a : Nat) : K := predict d (c.withSignals p.1) (p.1 .state) p.2 k a
/-- error of the output after step `k` -/
def rY (p : Scene K) (k a : Nat) : K := outputOf d (c.withSignals p.1) (pX d c p (k + 1)) (p.1 (.dist k)) a - p.1 (.yRef k) a
/-- error of the command -/
def rU (p : Scene K) (k a : Nat) : K := p.2 k a - p.1 (.uRef k) a
/-- error of the increment, with the reference the code takes -/
def rD (p : Scene K) (k a : Nat) : K := p.2 k a - before (p.1 .command) p.2 k a - p.1 (.duRef (k - 1)) a

/-- the bilinear form of the cost -/
def form (p q : Scene K) : K :=
  ∑ k ∈ Finset.range d.ph, (wdot d.ny (c.wY k) (rY d c p k) (rY d c q k) + wdot d.nu (c.wU k) (rU p k) (rU q k) +
    wdot d.nu (c.wDu k) (rD p k) (rD q k))

variable {d c} {p q r : Scene K} (s t : K)

theorem pX_comb : ∀ k a, pX d c (s • p + t • q) k a = s * pX d c p k a + t * pX d c q k a
  | 0, _ => rfl
  | k + 1, a => by
    show dot d.nx (c.A a) (pX d c (s • p + t • q) k) + dot d.nu (c.B a) (fun e => s * p.2 k e + t * q.2 k e) +
      dot d.ndu (c.Bd a) (fun e => s * p.1 (.dist k) e + t * q.1 (.dist k) e) = _
    rw [dot_congr fun e _ => pX_comb k e, dot_comb, dot_comb, dot_comb]
    show _ = s * (dot d.nx (c.A a) (pX d c p k) + dot d.nu (c.B a) (p.2 k) + dot d.ndu (c.Bd a) (p.1 (.dist k))) +
      t * (dot d.nx (c.A a) (pX d c q k) + dot d.nu (c.B a) (q.2 k) + dot d.ndu (c.Bd a) (q.1 (.dist k)))
    ring

theorem rY_comb (k a : Nat) : rY d c (s • p + t • q) k a = s * rY d c p k a + t * rY d c q k a := by
  show dot d.nx (c.C a) (pX d c (s • p + t • q) (k + 1)) + dot d.ndu (c.Dd a) (fun e => s * p.1 (.dist k) e + t * q.1 (.dist k) e) -
    (s * p.1 (.yRef k) a + t * q.1 (.yRef k) a) =
    s * (dot d.nx (c.C a) (pX d c p (k + 1)) + dot d.ndu (c.Dd a) (p.1 (.dist k)) - p.1 (.yRef k) a) +
    t * (dot d.nx (c.C a) (pX d c q (k + 1)) + dot d.ndu (c.Dd a) (q.1 (.dist k)) - q.1 (.yRef k) a)
  rw [dot_congr fun e _ => pX_comb s t (k + 1) e, dot_comb, dot_comb]
  ring

theorem rU_comb (k a : Nat) : rU (s • p + t • q) k a = s * rU p k a + t * rU q k a := by
  show s * p.2 k a + t * q.2 k a - (s * p.1 (.uRef k) a + t * q.1 (.uRef k) a) = s * (p.2 k a - _) + t * (q.2 k a - _)
  ring

theorem rD_comb (k a : Nat) : rD (s • p + t • q) k a = s * rD p k a + t * rD q k a := by
  have e : before ((s • p + t • q).1 .command) (s • p + t • q).2 k a =
      s * before (p.1 .command) p.2 k a + t * before (q.1 .command) q.2 k a := by
    cases k <;> rfl
  unfold rD
  rw [e]
  show s * p.2 k a + t * q.2 k a - _ - (s * p.1 (.duRef (k - 1)) a + t * q.1 (.duRef (k - 1)) a) = _
  ring

theorem form_comm : form d c p q = form d c q p := by
  unfold form
  exact Finset.sum_congr rfl fun k _ => by rw [wdot_comm, wdot_comm d.nu (c.wU k), wdot_comm d.nu (c.wDu k)]

theorem form_comb : form d c (s • p + t • q) r = s * form d c p r + t * form d c q r := by
  unfold form
  rw [Finset.mul_sum, Finset.mul_sum, ← Finset.sum_add_distrib]
  refine Finset.sum_congr rfl fun k _ => ?_
  rw [show rY d c (s • p + t • q) k = fun a => s * rY d c p k a + t * rY d c q k a from funext (rY_comb s t k),
    show rU (s • p + t • q) k = fun a => s * rU p k a + t * rU q k a from funext (rU_comb s t k),
    show rD (s • p + t • q) k = fun a => s * rD p k a + t * rD q k a from funext (rD_comb s t k),
    wdot_comb, wdot_comb, wdot_comb]
  ring

theorem form_comb_right : form d c r (s • p + t • q) = s * form d c r p + t * form d c r q := by
  rw [form_comm, form_comb, form_comm, form_comm (p := q)]

/-- the form as a bilinear map -/
def formL (d : Dims) (c : LinConfig K) : Scene K →ₗ[K] Scene K →ₗ[K] K :=
  LinearMap.mk₂ K (form d c)
    (fun p q r => by have := form_comb (d := d) (c := c) (p := p) (q := q) (r := r) 1 1; simpa using this)
    (fun s p r => by have := form_comb (d := d) (c := c) (p := p) (q := 0) (r := r) s 0; simpa using this)
    (fun r p q => by have := form_comb_right (d := d) (c := c) (p := p) (q := q) (r := r) 1 1; simpa using this)
    (fun s r p => by have := form_comb_right (d := d) (c := c) (p := p) (q := 0) (r := r) s 0; simpa using this)

theorem formL_apply : formL d c p q = form d c p q := rfl

/-- cost of a plan for given signals -/
def costOf (d : Dims) (c : LinConfig K) (σ : Signals K) (u : Nat → Nat → K) : K :=
  planCost d (c.withSignals σ) (σ .state) (σ .command) (fun k => σ (.duRef (k - 1))) u

theorem costOf_eq (σ : Signals K) (u : Nat → Nat → K) : costOf d c σ u = form d c (σ, u) (σ, u) / 2 := by
  unfold costOf planCost form
  congr 1
  refine Finset.sum_congr rfl fun k _ => ?_
  refine congrArg₂ _ (congrArg₂ _ ?_ ?_) ?_
  · refine Finset.sum_congr rfl fun a _ => ?_
    rw [mul_assoc, ← sq]; rfl
  · refine Finset.sum_congr rfl fun a _ => ?_
    rw [mul_assoc, ← sq]; rfl
  · refine Finset.sum_congr rfl fun a _ => ?_
    rw [mul_assoc, ← sq]; rfl

theorem costOf_add [NeZero (2 : K)] (σ : Signals K) (u v : Nat → Nat → K) :
    costOf d c σ (u + v) = costOf d c σ u + form d c (σ, u) (0, v) + form d c (0, v) (0, v) / 2 := by
  have two : (2 : K) ≠ 0 := NeZero.ne _
  have e : ((σ, u + v) : Scene K) = (σ, u) + (0, v) := by simp
  rw [costOf_eq, costOf_eq, e, ← formL_apply, map_add, map_add, LinearMap.add_apply, LinearMap.add_apply, formL_apply, formL_apply,
    formL_apply, formL_apply, form_comm (p := (0, v)) (q := (σ, u))]
  field_simp
  ring

/-- the commands are frozen where the code freezes them -/
def Frozen (d : Dims) (u : Nat → Nat → K) : Prop := ∀ k a, d.ch < k → k < d.ph → a < d.nu → u k a = u (k - 1) a

theorem pX_congr {u v : Nat → Nat → K} (σ : Signals K) (h : ∀ k a, k < d.ph → a < d.nu → u k a = v k a) {k a : Nat} (hk : k ≤ d.ph)
    (ha : a < d.nx) : pX d c (σ, u) k a = pX d c (σ, v) k a := predict_congr h k a hk ha

theorem form_congr {u v : Nat → Nat → K} (σ : Signals K) (h : ∀ k a, k < d.ph → a < d.nu → u k a = v k a) :
    form d c p (σ, u) = form d c p (σ, v) := by
  unfold form
  refine Finset.sum_congr rfl fun k hk => ?_
  have hk := Finset.mem_range.1 hk
  refine congrArg₂ _ (congrArg₂ _ ?_ ?_) ?_
  · refine Finset.sum_congr rfl fun a _ => ?_
    congr 1
    unfold rY
    rw [outputOf_congr (fun e he => pX_congr σ h (by omega) he)]
  · refine Finset.sum_congr rfl fun a ha => ?_
    congr 1
    unfold rU
    rw [show (σ, u).2 k a = (σ, v).2 k a from h k a hk (Finset.mem_range.1 ha)]
  · refine Finset.sum_congr rfl fun a ha => ?_
    congr 1
    unfold rD
    have ha := Finset.mem_range.1 ha
    rw [show (σ, u).2 k a = (σ, v).2 k a from h k a hk ha]
    show v k a - before (σ .command) u k a - _ = v k a - before (σ .command) v k a - _
    rw [before_congr h (by omega) ha]

end

section order
variable [LinearOrder K] [IsStrictOrderedRing K] {d : Dims} {c : LinConfig K}

theorem form_self_nonneg (hw : WeightsNonneg d c) (p : Scene K) : 0 ≤ form d c p p := by
  have h2 : (0 : K) < 2 := by norm_num
  have := planCost_nonneg (c := c.withSignals p.1) (d := d) (x0 := p.1 .state) (u0 := p.1 .command) ⟨hw.wY, hw.wU, hw.wDu⟩
    (fun k => p.1 (.duRef (k - 1))) p.2
  have e := costOf_eq (d := d) (c := c) p.1 p.2
  unfold costOf at e
  rw [e] at this
  have := mul_nonneg this h2.le
  rwa [div_mul_cancel₀ _ h2.ne'] at this

/-- best plan for given signals -/
def BestFor (d : Dims) (c : LinConfig K) (σ : Signals K) (u : Nat → Nat → K) : Prop :=
  IsBest (PlanCoded d (c.withSignals σ) (σ .state) (σ .command)) (costOf d c σ) u

theorem Unlimited.coded (hl : Unlimited d c) (hph : 0 < d.ph) {x0 u0 : Nat → K} {u : Nat → Nat → K} :
    PlanCoded d c x0 u0 u ↔ Frozen d u := by
  refine ⟨fun h => h.frozen, fun h => ?_⟩
  have w : ∀ {lo hi : Ext K} {v : K}, lo = .negInf → hi = .posInf → within lo hi v := by
    rintro lo hi v rfl rfl; exact ⟨trivial, trivial⟩
  exact ⟨fun k a hk ha => w (hl.xMin _ _ (by omega) ha) (hl.xMax _ _ (by omega) ha),
    fun k a hk ha => w (hl.uMin _ _ (by omega) ha) (hl.uMax _ _ (by omega) ha),
    fun k a hk ha => w (hl.yMin _ _ (by omega) ha) (hl.yMax _ _ (by omega) ha), h,
    fun k hk => w (hl.sMin _ (by omega)) (hl.sMax _ (by omega))⟩

theorem Unlimited.withSignals (hl : Unlimited d c) (σ : Signals K) : Unlimited d (c.withSignals σ) :=
  ⟨hl.xMin, hl.xMax, hl.uMin, hl.uMax, hl.yMin, hl.yMax, hl.sMin, hl.sMax⟩

theorem Frozen.comb {u v : Nat → Nat → K} (hu : Frozen d u) (hv : Frozen d v) (s t : K) : Frozen d (s • u + t • v) :=
  fun k a h h' ha => by
    show s * u k a + t * v k a = s * u (k - 1) a + t * v (k - 1) a
    rw [hu k a h h' ha, hv k a h h' ha]

theorem slope_zero {a b : K} (h : ∀ t : K, 0 ≤ t * b + t ^ 2 * a) : b = 0 := by
  by_contra hb
  have hp : 0 < |a| + 1 := by have := abs_nonneg a; linarith
  have h1 := h (-(b / (|a| + 1)))
  have e : -(b / (|a| + 1)) * b + (-(b / (|a| + 1))) ^ 2 * a = b ^ 2 / (|a| + 1) ^ 2 * (a - |a| - 1) := by
    have : |a| + 1 ≠ 0 := hp.ne'
    field_simp
    ring
  rw [e] at h1
  have h2 : 0 < b ^ 2 / (|a| + 1) ^ 2 := div_pos (lt_of_le_of_ne (sq_nonneg b) (Ne.symm (pow_ne_zero 2 hb))) (pow_pos hp 2)
  have h3 : a - |a| - 1 < 0 := by have := le_abs_self a; linarith
  exact absurd h1 (not_le.2 (mul_neg_of_pos_of_neg h2 h3))

/-- a plan is best exactly if no direction changes its cost to first order -/
theorem best_iff (hl : Unlimited d c) (hw : WeightsNonneg d c) (hph : 0 < d.ph) (σ : Signals K) (u : Nat → Nat → K) :
    BestFor d c σ u ↔ Frozen d u ∧ ∀ v, Frozen d v → form d c (σ, u) (0, v) = 0 := by
  unfold BestFor IsBest
  rw [(hl.withSignals σ).coded hph]
  refine and_congr_right fun hu => ⟨fun h v hv => ?_, fun h v hv => ?_⟩
  · refine slope_zero (a := form d c (0, v) (0, v) / 2) fun t => ?_
    have e1 : form d c (σ, u) (0, t • v) = t * form d c (σ, u) (0, v) := by
      have := (formL d c (σ, u)).map_smul t (0, v)
      simpa [formL_apply] using this
    have e2 : form d c (0, t • v) (0, t • v) = t ^ 2 * form d c (0, v) (0, v) := by
      have q : ((0, t • v) : Scene K) = t • (0, v) := by simp
      rw [q, ← formL_apply, map_smul, map_smul, LinearMap.smul_apply, smul_eq_mul, smul_eq_mul, formL_apply]; ring
    have f : Frozen d (u + t • v) := by
      have := hu.comb hv 1 t
      rwa [one_smul] at this
    have := h _ (((hl.withSignals σ).coded hph).2 f)
    rw [costOf_add, e1, e2] at this
    linarith [mul_div_assoc (t ^ 2) (form d c (0, v) (0, v)) 2]
  · have hv := ((hl.withSignals σ).coded hph).1 hv
    have e : v = u + (v - u) := by simp
    rw [e, costOf_add, h _ (by
      have := hv.comb hu 1 (-1)
      rwa [one_smul, neg_one_smul, ← sub_eq_add_neg] at this)]
    have := form_self_nonneg hw (0, v - u)
    have : 0 ≤ form d c (0, v - u) (0, v - u) / 2 := div_nonneg this (by norm_num)
    linarith

/-- best plans of two sets of signals combine to a best plan of the combined signals -/
theorem best_comb (hl : Unlimited d c) (hw : WeightsNonneg d c) (hph : 0 < d.ph) {σ τ : Signals K} {u v : Nat → Nat → K}
    (hu : BestFor d c σ u) (hv : BestFor d c τ v) (s t : K) : BestFor d c (s • σ + t • τ) (s • u + t • v) := by
  rw [best_iff hl hw hph] at hu hv ⊢
  refine ⟨hu.1.comb hv.1 s t, fun w hwF => ?_⟩
  have : ((s • σ + t • τ, s • u + t • v) : Scene K) = s • (σ, u) + t • (τ, v) := by simp
  rw [this, form_comb, hu.2 w hwF, hv.2 w hwF]; ring

/-! ### Existence -/

/-- extension of a finite plan by zero -/
def extPlan (d : Dims) : (Fin d.ph → Fin d.nu → K) →ₗ[K] (Nat → Nat → K) where
  toFun f := fun k a => if h : k < d.ph ∧ a < d.nu then f ⟨k, h.1⟩ ⟨a, h.2⟩ else 0
  map_add' f g := by
    funext k a
    by_cases h : k < d.ph ∧ a < d.nu <;> simp [h]
  map_smul' t f := by
    funext k a
    by_cases h : k < d.ph ∧ a < d.nu <;> simp [h]

theorem extPlan_apply (f : Fin d.ph → Fin d.nu → K) {k a : Nat} (hk : k < d.ph) (ha : a < d.nu) :
    extPlan d f k a = f ⟨k, hk⟩ ⟨a, ha⟩ := by simp [extPlan, hk, ha]

/-- the finite plans whose commands are frozen -/
def frozenSpace (K : Type) [Field K] (d : Dims) : Submodule K (Fin d.ph → Fin d.nu → K) where
  carrier := {f | Frozen d (extPlan d f)}
  zero_mem' := by intro k a _ _ _; simp
  add_mem' {f g} hf hg := by
    intro k a h h' ha
    rw [map_add]
    show extPlan d f k a + extPlan d g k a = extPlan d f (k - 1) a + extPlan d g (k - 1) a
    rw [hf k a h h' ha, hg k a h h' ha]
  smul_mem' t f hf := by
    intro k a h h' ha
    rw [map_smul]
    show t * extPlan d f k a = t * extPlan d f (k - 1) a
    rw [hf k a h h' ha]

/-- scene of a finite frozen plan -/
def sceneOf (K : Type) [Field K] (d : Dims) : frozenSpace K d →ₗ[K] Scene K :=
  (LinearMap.inr K (Signals K) (Nat → Nat → K)) ∘ₗ (extPlan d) ∘ₗ (frozenSpace K d).subtype

/-- the form on the finite frozen plans -/
def frozenForm (d : Dims) (c : LinConfig K) : frozenSpace K d →ₗ[K] Module.Dual K (frozenSpace K d) :=
  ((formL d c).compl₁₂ (sceneOf K d) (sceneOf K d))

theorem frozenForm_apply (f g : frozenSpace K d) :
    frozenForm d c f g = form d c (0, extPlan d f.1) (0, extPlan d g.1) := rfl

/-- the influence of the signals -/
def signalForm (d : Dims) (c : LinConfig K) : Signals K →ₗ[K] Module.Dual K (frozenSpace K d) :=
  ((formL d c).compl₁₂ (LinearMap.inl K (Signals K) (Nat → Nat → K)) (sceneOf K d))

theorem signalForm_apply (σ : Signals K) (g : frozenSpace K d) :
    signalForm d c σ g = form d c (σ, 0) (0, extPlan d g.1) := rfl

theorem frozenForm_injective (hl : Unlimited d c) (hw : WeightsNonneg d c) (hcw : CommandsWeighted d c) (hph : 0 < d.ph) :
    Function.Injective (frozenForm d c) := by
  rw [← LinearMap.ker_eq_bot, LinearMap.ker_eq_bot']
  intro f hf
  have h0 : form d c (0, extPlan d f.1) (0, extPlan d f.1) = 0 := by
    rw [← frozenForm_apply, hf]; rfl
  have b0 : BestFor d c 0 (0 : Nat → Nat → K) := by
    rw [best_iff hl hw hph]
    refine ⟨fun k a _ _ _ => rfl, fun v _ => ?_⟩
    show formL d c 0 (0, v) = 0
    rw [map_zero]; rfl
  have bf : BestFor d c 0 (extPlan d f.1) := by
    refine ⟨((hl.withSignals 0).coded hph).2 f.2, fun v hv => ?_⟩
    have e : costOf d c 0 (extPlan d f.1) = 0 := by rw [costOf_eq]; rw [h0]; simp
    rw [e, costOf_eq]
    exact div_nonneg (form_self_nonneg hw _) (by norm_num)
  have := best_unique (c := c.withSignals 0) ⟨hw.wY, hw.wU, hw.wDu⟩ hcw bf b0
  apply Subtype.ext
  funext k a
  have e := this k a k.2 a.2
  rw [extPlan_apply _ k.2 a.2] at e
  exact e

/-- the form is nondegenerate -/
noncomputable def frozenEquiv (hl : Unlimited d c) (hw : WeightsNonneg d c) (hcw : CommandsWeighted d c) (hph : 0 < d.ph) :
    frozenSpace K d ≃ₗ[K] Module.Dual K (frozenSpace K d) :=
  LinearEquiv.ofBijective (frozenForm d c) ⟨frozenForm_injective hl hw hcw hph,
    (LinearMap.injective_iff_surjective_of_finrank_eq_finrank Subspace.dual_finrank_eq.symm).1 (frozenForm_injective hl hw hcw hph)⟩

/-- the best plan as a linear function of the signals -/
noncomputable def bestPlan (hl : Unlimited d c) (hw : WeightsNonneg d c) (hcw : CommandsWeighted d c) (hph : 0 < d.ph) :
    Signals K →ₗ[K] (Nat → Nat → K) :=
  (extPlan d) ∘ₗ (frozenSpace K d).subtype ∘ₗ (-((frozenEquiv hl hw hcw hph).symm.toLinearMap ∘ₗ signalForm d c))

theorem bestPlan_best (hl : Unlimited d c) (hw : WeightsNonneg d c) (hcw : CommandsWeighted d c) (hph : 0 < d.ph) (σ : Signals K) :
    BestFor d c σ (bestPlan hl hw hcw hph σ) := by
  rw [best_iff hl hw hph]
  set f : frozenSpace K d := -((frozenEquiv hl hw hcw hph).symm (signalForm d c σ)) with hf
  have ef : bestPlan hl hw hcw hph σ = extPlan d f.1 := rfl
  refine ⟨by rw [ef]; exact f.2, fun v hv => ?_⟩
  have hg : Frozen d (extPlan d fun (k : Fin d.ph) (a : Fin d.nu) => v k a) := fun k a h h' ha => by
    rw [extPlan_apply _ h' ha, extPlan_apply _ (by omega) ha]; exact hv k a h h' ha
  have e : form d c (σ, extPlan d f.1) (0, v) =
      form d c (σ, extPlan d f.1) (0, extPlan d fun (k : Fin d.ph) (a : Fin d.nu) => v k a) :=
    form_congr 0 fun k a hk ha => (extPlan_apply (fun (k : Fin d.ph) (a : Fin d.nu) => v k a) hk ha).symm
  rw [ef, e]
  set g : frozenSpace K d := ⟨_, hg⟩
  show form d c (σ, extPlan d f.1) (0, extPlan d g.1) = 0
  have e2 : ((σ, extPlan d f.1) : Scene K) = (σ, 0) + (0, extPlan d f.1) := by simp
  rw [e2, ← formL_apply, map_add, LinearMap.add_apply, formL_apply, formL_apply, ← frozenForm_apply, ← signalForm_apply]
  have e3 : frozenForm d c f = - signalForm d c σ := by
    rw [hf, map_neg]
    congr 1
    exact (frozenEquiv hl hw hcw hph).apply_symm_apply _
  rw [e3, LinearMap.neg_apply]; ring

end order
end Mpc.Spec
