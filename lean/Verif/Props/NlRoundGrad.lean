import Verif.Proofs.NlRoundVary
import Verif.Props.NlRounding

/-
C112 and C113: gradients of the nonlinear controller in floating-point arithmetic, zeros of the gradient of the objective and accuracy.
-/
namespace Mpc.Props
open Mpc Exec
set_option linter.unusedSectionVars false

section
variable {d : Dims} {K : Type} [Field K] [LinearOrder K] [IsStrictOrderedRing K] {R : Rounding K} {dyn : Bool}
  {ops : List (NlCall d K)} {outs : List (NlOut K)} {m : NlMpc d K} {x0 : Vec K} {s : NlState d K}

/-! ### C112 -/

/-- C112 as claimed: the derivative of the objective with respect to a variable on which it does not depend is exactly zero. -/
def C112Claim (R : Rounding K) : Prop :=
  ∀ (d : Dims) (dyn : Bool) (ops : List (NlCall d K)) (outs : List (NlOut K)) (m : NlMpc d K) (x0 : Vec K) (s : NlState d K),
    InRounded R d dyn ops outs m x0 s → ∀ f, NlSpec.last NlSpec.objectiveOf ops = some f → ∀ z : Vec K, z.size = d.nZ →
    ∃ r s1 G, s.evalObjR R.rnd z true = .ok (r, s1) ∧ r.grad = some G ∧ G.size = d.nZ ∧
      NlSpec.ZeroWhereIgnored d (NlSpec.costOf f (NlSpec.last NlSpec.outputOf ops)) G.get

theorem micro_pos : (0 : K) < 1 / 1000000 := by norm_num

theorem micro_le : (1 / 1000000 : K) ≤ 1 / 16 := by norm_num

theorem dv_le : (Constraints.dv : K) ≤ 1 / 16 := by unfold Constraints.dv; norm_num

/-- C112, proved part: zero for the slack; for the states and inputs at most the change of the objective under perturbations of
`7 eps M` (which is what perturbing and restoring the other entries leaves behind), divided by the difference step. Missing: exactly zero
(see `c112_objective_violated`). -/
theorem c112_objective_partial (he : R.eps ≤ 1 / 8) (h : InRounded R d dyn ops outs m x0 s) (f : ObjFn d K)
    (hf : NlSpec.last NlSpec.objectiveOf ops = some f) (z : Vec K) (hz : z.size = d.nZ) :
    ∃ r s1 G X U, s.evalObjR R.rnd z true = .ok (r, s1) ∧ r.grad = some G ∧ G.size = d.nZ ∧
      NlSpec.Decoded R d (NlSpec.stScale ops) (NlSpec.inScale ops) x0.get z.get X U ∧
      ∀ M E, NlSpec.Bounded M X U (z.get (NlSpec.slackIx d)) →
        NlSpec.VariesAtMost (NlSpec.costOf f (NlSpec.last NlSpec.outputOf ops)) X U (z.get (NlSpec.slackIx d)) (7 * R.eps * M) E →
        NlSpec.SmallWhereIgnored R d (1 / 1000000) E (NlSpec.inScale ops) (NlSpec.costOf f (NlSpec.last NlSpec.outputOf ops)) G.get := by
  obtain ⟨c, hs, e1, e2, e3, e4, -, -, -, -, -, ex, -⟩ := h.config he
  obtain ⟨⟨r, s1⟩, hr, hp⟩ := NlState.evalObjR_post he hs h.hor (e4.trans hf) z hz true rfl rfl
  obtain ⟨-, -, hg⟩ := hp
  rw [if_pos rfl] at hg
  obtain ⟨G, gx, gu, ge, h1, h2, h3, h4⟩ := hg
  refine ⟨r, s1, G, _, _, hr, h1, h2, NlSpec.decoded (lt_of_le_of_lt he (by norm_num)) _ _ _ _, ?_⟩
  rw [← ex, ← e1, ← e2, ← e3]
  intro M E hb hv
  have b1 := fun a => NlSpec.stepR_bounds (R := R) he (t := 1 / 1000000) micro_pos hb.one (hb.entryX (a % (d.ph + 1)) (a / (d.ph + 1)))
  have b2 := fun a => NlSpec.stepR_bounds (R := R) he (t := 1 / 1000000) micro_pos hb.one (hb.entryU (a % (d.ph + 1)) (a / (d.ph + 1)))
  have hE : 0 ≤ E := by
    have hh : 0 ≤ 7 * R.eps * M := mul_nonneg (mul_nonneg (by norm_num) R.eps_nonneg) (by linarith [hb.one])
    refine (abs_nonneg _).trans (hv (NlSpec.codeStatesR R.rnd d c.stScale s.obj.x0.get z.get)
      (NlSpec.inputsR R.rnd d c.inScale z.get) (fun k a => ?_) fun k b => ?_)
    · show |_| ≤ if (k : Nat) = 0 then 0 else _
      rw [sub_self, abs_zero]; split_ifs; exacts [le_rfl, hh]
    · rw [sub_self, abs_zero]; exact hh
  exact NlSpec.SmallWhereIgnored.of hE micro_pos h.dims.1 h.dims.2 h4
    (h3.small he hb micro_pos micro_le (fun a => (b1 a).1) (fun a => (b1 a).2) (fun b => (b2 b).1) (fun b => (b2 b).2)
      h.dims.1 h.dims.2 hv)

/-! ### C113 -/

/-- C113 as claimed, for the slack and a constraint which is the correctly rounded value of an affine function: the derivative handed to
the solver is the coefficient of the slack, up to one half of it. -/
def C113Claim (R : Rounding K) : Prop :=
  ∀ (d : Dims) (dyn : Bool) (ops : List (NlCall d K)) (outs : List (NlOut K)) (m : NlMpc d K) (x0 : Vec K) (s : NlState d K),
    InRounded R d dyn ops outs m x0 s → ∀ F tol, NlSpec.last NlSpec.ineqConOf ops = some (F, tol) →
    ∀ (i : Fin d.ineq) (c0 : K) (α β : Nat → Nat → K) (γ : K),
    (∀ X U e, NlSpec.ineqOf F (NlSpec.last NlSpec.outputOf ops) X U e i = R.rnd (NlSpec.affine c0 α β γ X U e)) →
    ∀ (z : Vec K) (junk : Nat → K), z.size = d.nZ →
    ∃ r s1, s.evalIneqR R.rnd z junk = .ok (r, s1) ∧ |r.grad.get (i * d.nZ + NlSpec.slackIx d) - γ| ≤ |γ| / 2

/-- C113, proved part, inequality constraints: where a constraint is affine up to `η` (rounding errors inside it included), its derivatives are
right up to `(6 η + 48 eps |coefficient| M) / t`, then scaled, with `t = 2^-26` for states and inputs and `t = 2^-52` for the slack. Missing:
any accuracy for the slack in `double`, as `η` is at least of the order `2^-53 |value|` (see `c113_slack_violated`); constraints which
depend on the last input (C39). -/
theorem c113_inequality_partial (he : R.eps ≤ 1 / 8) (h : InRounded R d dyn ops outs m x0 s)
    (F : Traj (d.ph + 1) d.nx K → Traj (d.ph + 1) d.ny K → Traj (d.ph + 1) d.nu K → K → FVec d.ineq K) (tol : K)
    (hF : NlSpec.last NlSpec.ineqConOf ops = some (F, tol)) (z : Vec K) (hz : z.size = d.nZ) (junk : Nat → K) :
    ∃ r s1 X U, s.evalIneqR R.rnd z junk = .ok (r, s1) ∧
      NlSpec.Decoded R d (NlSpec.stScale ops) (NlSpec.inScale ops) x0.get z.get X U ∧
      ∀ (i : Fin d.ineq) (M η c0 : K) (α β : Nat → Nat → K) (γ : K), NlSpec.Bounded M X U (z.get (NlSpec.slackIx d)) →
        NlSpec.NearlyAffine (fun X U e => NlSpec.ineqOf F (NlSpec.last NlSpec.outputOf ops) X U e i) c0 α β γ X U (z.get (NlSpec.slackIx d))
          ((2 * (1 / 2 ^ 26) + 7 * R.eps) * M) η → (∀ b, b < d.nu → β d.ph b = 0) →
        NlSpec.ConAccurate R d (1 / 2 ^ 26) M η (NlSpec.stScale ops) (NlSpec.inScale ops) α β γ (fun v => r.grad.get (i * d.nZ + v)) := by
  obtain ⟨c, hs, e1, e2, e3, -, -, e6, -, -, -, -, ex⟩ := h.config he
  obtain ⟨⟨r, s1⟩, hr, hp⟩ := NlState.evalIneqR_post he hs h.hor (e6 F tol hF) z hz junk rfl rfl
  obtain ⟨-, -, -, -, gx, gu, ge, hd, hrow⟩ := hp
  refine ⟨r, s1, _, _, hr, NlSpec.decoded (lt_of_le_of_lt he (by norm_num)) _ _ _ _, ?_⟩
  rw [← ex, ← e1, ← e2, ← e3]
  have edv : (1 / 2 ^ 26 : K) = Constraints.dv := by unfold Constraints.dv; norm_num
  rw [edv]
  intro i M η c0 α β γ hb hφ hβ
  have b1 := fun a => NlSpec.stepR_bounds (R := R) he (t := Constraints.dv) Constraints.dv_pos hb.one (hb.entryX (a % (d.ph + 1)) (a / (d.ph + 1)))
  have b2 := fun a => NlSpec.stepR_bounds (R := R) he (t := Constraints.dv) Constraints.dv_pos hb.one (hb.entryU (a % (d.ph + 1)) (a / (d.ph + 1)))
  have b3 := NlSpec.slackR_bounds (R := R) he (t := Constraints.dv) Constraints.dv_pos dv_le hb.one hb.slack
  obtain ⟨k1, k2, k3⟩ := hd.accurate he hb Constraints.dv_pos dv_le (fun _ a => (b1 a).1) (fun _ a => (b1 a).2) (fun b => (b2 b).1) (fun b => (b2 b).2)
    (by have := h.dims; omega) i hφ (.inr hβ)
  exact NlSpec.ConAccurate.of Constraints.dv_pos hb.one (hφ.nonneg (NlSpec.radius_nonneg Constraints.dv_pos hb.one)) h.dims.1 h.dims.2 (hrow i i.2) k1 k2
    (k3 b3.1 b3.2)

/-- C113, equality constraints (they do not depend on the slack). -/
theorem c113_equality_partial (he : R.eps ≤ 1 / 8) (h : InRounded R d dyn ops outs m x0 s)
    (F : Traj (d.ph + 1) d.nx K → Traj (d.ph + 1) d.nu K → FVec d.eq K) (tol : K)
    (hF : NlSpec.last NlSpec.eqConOf ops = some (F, tol)) (z : Vec K) (hz : z.size = d.nZ) (junk : Nat → K) :
    ∃ r s1 X U, s.evalEqR R.rnd z junk = .ok (r, s1) ∧
      NlSpec.Decoded R d (NlSpec.stScale ops) (NlSpec.inScale ops) x0.get z.get X U ∧
      ∀ (i : Fin d.eq) (M η c0 : K) (α β : Nat → Nat → K), NlSpec.Bounded M X U (z.get (NlSpec.slackIx d)) →
        NlSpec.NearlyAffine (fun X U (_ : K) => F X U i) c0 α β 0 X U (z.get (NlSpec.slackIx d)) ((2 * (1 / 2 ^ 26) + 7 * R.eps) * M) η →
        NlSpec.ConAccurate R d (1 / 2 ^ 26) M η (NlSpec.stScale ops) (NlSpec.inScale ops) α β 0 (fun v => r.grad.get (i * d.nZ + v)) := by
  obtain ⟨c, hs, e1, e2, -, -, -, -, e7, -, -, -, ex⟩ := h.config he
  obtain ⟨⟨r, s1⟩, hr, hp⟩ := NlState.evalEqR_post he hs (e7 F tol hF) z hz junk rfl rfl
  obtain ⟨-, -, -, -, gx, gu, hd, hrow⟩ := hp
  refine ⟨r, s1, _, _, hr, NlSpec.decoded (lt_of_le_of_lt he (by norm_num)) _ _ _ _, ?_⟩
  rw [← ex, ← e1, ← e2]
  have edv : (1 / 2 ^ 26 : K) = Constraints.dv := by unfold Constraints.dv; norm_num
  rw [edv]
  intro i M η c0 α β hb hφ
  have b1 := fun k a => NlSpec.stepR_bounds (R := R) he (t := Constraints.dv) Constraints.dv_pos hb.one (hb.entryX (k + 1) a)
  have b2 := fun a => NlSpec.stepR_bounds (R := R) he (t := Constraints.dv) Constraints.dv_pos hb.one (hb.entryU (d.ph - 1) a)
  have hη := hφ.nonneg (NlSpec.radius_nonneg Constraints.dv_pos hb.one)
  obtain ⟨k1, k2, k3⟩ := hd.accurate he hb Constraints.dv_pos dv_le (fun k a => (b1 k a).1) (fun k a => (b1 k a).2) (fun b => (b2 b).1)
    (fun b => (b2 b).2) (by have := h.dims; omega) i hφ (.inl rfl)
  refine NlSpec.ConAccurate.of Constraints.dv_pos hb.one hη h.dims.1 h.dims.2 (hrow i i.2) k1 k2 ?_
  rw [sub_self, abs_zero]
  unfold NlSpec.derivErr
  rw [mul_zero, zero_mul, add_zero]
  exact div_nonneg (by linarith) (mul_nonneg Constraints.dv_pos.le Constraints.dv_pos.le)

/-- C113, objective, with `t = 1e-6`; the state part as handed over, without scaling (C39). -/
theorem c113_objective_partial (he : R.eps ≤ 1 / 8) (h : InRounded R d dyn ops outs m x0 s) (f : ObjFn d K)
    (hf : NlSpec.last NlSpec.objectiveOf ops = some f) (z : Vec K) (hz : z.size = d.nZ) :
    ∃ r s1 G X U, s.evalObjR R.rnd z true = .ok (r, s1) ∧ r.grad = some G ∧ G.size = d.nZ ∧
      NlSpec.Decoded R d (NlSpec.stScale ops) (NlSpec.inScale ops) x0.get z.get X U ∧
      ∀ (M η c0 : K) (α β : Nat → Nat → K) (γ : K), NlSpec.Bounded M X U (z.get (NlSpec.slackIx d)) →
        NlSpec.NearlyAffine (NlSpec.costOf f (NlSpec.last NlSpec.outputOf ops)) c0 α β γ X U (z.get (NlSpec.slackIx d))
          ((2 * (1 / 1000000) + 7 * R.eps) * M) η →
        NlSpec.ObjAccurate R d (1 / 1000000) M η (NlSpec.inScale ops) α β γ G.get := by
  obtain ⟨c, hs, e1, e2, e3, e4, -, -, -, -, -, ex, -⟩ := h.config he
  obtain ⟨⟨r, s1⟩, hr, hp⟩ := NlState.evalObjR_post he hs h.hor (e4.trans hf) z hz true rfl rfl
  obtain ⟨-, -, hg⟩ := hp
  rw [if_pos rfl] at hg
  obtain ⟨G, gx, gu, ge, h1, h2, h3, h4⟩ := hg
  refine ⟨r, s1, G, _, _, hr, h1, h2, NlSpec.decoded (lt_of_le_of_lt he (by norm_num)) _ _ _ _, ?_⟩
  rw [← ex, ← e1, ← e2, ← e3]
  intro M η c0 α β γ hb hφ
  have b1 := fun a => NlSpec.stepR_bounds (R := R) he (t := 1 / 1000000) micro_pos hb.one (hb.entryX (a % (d.ph + 1)) (a / (d.ph + 1)))
  have b2 := fun a => NlSpec.stepR_bounds (R := R) he (t := 1 / 1000000) micro_pos hb.one (hb.entryU (a % (d.ph + 1)) (a / (d.ph + 1)))
  have b3 := NlSpec.slackR_bounds (R := R) he (t := 1 / 1000000) micro_pos micro_le hb.one hb.slack
  obtain ⟨k1, k2, k3⟩ := h3.accurate he hb micro_pos micro_le (fun a => (b1 a).1) (fun a => (b1 a).2) (fun b => (b2 b).1)
    (fun b => (b2 b).2) (by have := h.dims; omega) hφ
  exact NlSpec.ObjAccurate.of h.dims.1 h.dims.2 h4 k1 k2 (k3 b3.1 b3.2)

end
end Mpc.Props

/-! ### `double` -/

namespace Mpc.Props
open Mpc Exec

theorem roundEven_near {y : ℚ} {n : ℤ} (h : |y - n| < 1 / 2) : roundEven y = n := by
  obtain ⟨h1, h2⟩ := abs_lt.1 h
  have f1 := Int.floor_le y
  have f2 := Int.lt_floor_add_one y
  have hf : ⌊y⌋ = n ∨ ⌊y⌋ = n - 1 := by
    have a : ((⌊y⌋ : ℤ) : ℚ) < n + 1 := by linarith
    have b : (n : ℚ) - 2 < ⌊y⌋ := by linarith
    have a' : ⌊y⌋ < n + 1 := by exact_mod_cast a
    have b' : n - 2 < ⌊y⌋ := by exact_mod_cast b
    omega
  unfold roundEven
  rcases hf with hf | hf
  · rw [hf]
    split_ifs <;> first | rfl | (exfalso; linarith)
  · rw [hf]
    push_cast
    split_ifs <;> first | omega | (exfalso; linarith)

/-- evaluating a rounding: the exponent and the nearest significand -/
theorem double_eval {x : ℚ} {e n : ℤ} (hlo : (2 : ℚ) ^ e ≤ x) (hhi : x < 2 ^ (e + 1)) (h : |x / 2 ^ (e - 52) - n| < 1 / 2) :
    double.rnd x = n * 2 ^ (e - 52) := by
  have hx : 0 < x := lt_of_lt_of_le (zpow_pos (by norm_num) _) hlo
  have hl : Int.log 2 |x| = e := by
    rw [abs_of_pos hx]
    apply le_antisymm
    · rw [← Int.lt_add_one_iff, ← Int.lt_zpow_iff_log_lt (by norm_num) hx]
      exact_mod_cast hhi
    · rw [← Int.zpow_le_iff_le_log (by norm_num) hx]
      exact_mod_cast hlo
  have hu : ulp 53 x = 2 ^ (e - 52) := by
    unfold ulp; rw [hl]; congr 1; norm_num; ring
  show roundBits 53 x = _
  unfold roundBits
  rw [hu, roundEven_near h]

theorem double_fixed (n k : ℤ) (h : |n| ≤ 2 ^ 53) : double.rnd (n * 2 ^ k) = n * 2 ^ k := roundBits_fixed (by norm_num) h

theorem double_zero_iff {x : ℚ} : double.rnd x = 0 ↔ x = 0 := Rounding.rnd_eq_zero (lt_of_le_of_lt double_eps (by norm_num))

/-- the `double` nearest to `1e-6` -/
theorem double_micro : double.rnd (1 / 1000000) = 4722366482869645 / 2 ^ 72 := by
  rw [double_eval (e := -20) (n := 4722366482869645) (by norm_num) (by norm_num) (by rw [abs_lt]; constructor <;> norm_num)]
  norm_num

/-- zeros, but for entry `i` -/
def spikeN (i : Nat) (v : ℚ) : Vec ℚ := ⟨9, fun p => if p = i then v else 0⟩

theorem noScale {ops : List (NlCall dN ℚ)} (h1 : NlSpec.stScale ops = fun _ => 1) (h2 : NlSpec.inScale ops = fun _ => 1) (z : Vec ℚ) :
    NlSpec.codeStatesR double.rnd dN (NlSpec.stScale ops) (nvec 2 fun _ => 0).get z.get
      = (fun (k : Fin (dN.ph + 1)) (a : Fin dN.nx) => if (k : Nat) = 0 then 0 else double.rnd (z.get (NlSpec.stateIx dN (k - 1) a))) ∧
    NlSpec.inputsR double.rnd dN (NlSpec.inScale ops) z.get = (fun (k : Fin (dN.ph + 1)) (b : Fin dN.nu) => double.rnd (NlSpec.inputAt dN (fun _ => 1) z.get k b)) := by
  rw [h1, h2]
  constructor
  · funext k a
    unfold NlSpec.codeStatesR
    rw [div_one, double.one]
    split_ifs
    · show double.rnd (0 / 1) = 0
      rw [zero_div, double.zero]
    · rw [div_one]
  · rfl

theorem step_micro : NlSpec.stepOfR double.rnd (1 / 1000000) 0 = 4722366482869645 / 2 ^ 72 := by
  unfold NlSpec.stepOfR NlSpec.stepOf
  rw [abs_zero, if_pos one_pos, mul_one, double.idem, double_micro]

theorem double_tiny : double.rnd (1 / 2 ^ 80) = 1 / 2 ^ 80 := by
  have := double_fixed 1 (-80) (by norm_num)
  rw [Int.cast_one, one_mul] at this
  have e : (2 : ℚ) ^ (-80 : ℤ) = 1 / 2 ^ 80 := by norm_num
  rwa [e] at this

/-- a small number is lost when the difference step is added and subtracted -/
theorem tiny_lost : double.rnd (double.rnd (1 / 2 ^ 80 + 4722366482869645 / 2 ^ 72) - 4722366482869645 / 2 ^ 72) = 0 := by
  have h : double.rnd (1 / 2 ^ 80 + 4722366482869645 / 2 ^ 72) = (4722366482869645 : ℤ) * 2 ^ (-20 - 52 : ℤ) :=
    double_eval (by norm_num) (by norm_num) (by norm_num [abs_lt])
  rw [h, show ((4722366482869645 : ℤ) : ℚ) * 2 ^ (-20 - 52 : ℤ) - 4722366482869645 / 2 ^ 72 = 0 by norm_num, double.zero]

/-- C112 is violated: objective `2^80 X(1,0)` at `X(1,0) = 2^-80`. Adding and subtracting the difference step `1e-6` leaves `0` there,
and the derivative with respect to the first input is computed from these two values. -/
theorem c112_objective_violated : ¬ C112Claim double := by
  intro hc
  obtain ⟨outs, m, s, h⟩ := rounded_of (ops := [.setObjectiveFunction (fun X _ _ _ => 2 ^ 80 * X 1 0) true]) 0
    (by simp [NlSpec.CallFits]) (by simp [AdmFrom, NlSpec.Admissible])
  obtain ⟨r, s1, G, hr, hG, -, hz⟩ := hc dN false _ outs m _ s h _ rfl (spikeN 0 (1 / 2 ^ 80)) rfl
  have hz := hz.inputs 0 0 (by decide) (by decide) (by intro X U U' e _; rfl)
  obtain ⟨c, hs, e1, e2, e3, e4, -, -, -, -, -, ex, -⟩ := h.config double_eps
  obtain ⟨⟨r', s1'⟩, hr', hp⟩ := NlState.evalObjR_post double_eps hs h.hor (e4.trans rfl) (spikeN 0 (1 / 2 ^ 80)) rfl true rfl rfl
  rw [hr] at hr'
  obtain ⟨rfl, rfl⟩ := Prod.mk.inj (Except.ok.inj hr')
  obtain ⟨-, -, hg⟩ := hp
  rw [if_pos rfl] at hg
  obtain ⟨G', gx, gu, ge, h1, -, h3, h4⟩ := hg
  dsimp only at h1
  obtain rfl := Option.some.inj (hG.symm.trans h1)
  rw [e1, e2, e3, ex] at h3
  obtain ⟨t1, t2⟩ := noScale (ops := [.setObjectiveFunction (fun X _ _ _ => 2 ^ 80 * X 1 0) true]) rfl rfl (spikeN 0 (1 / 2 ^ 80))
  rw [t1, t2] at h3
  obtain ⟨U', -, hu⟩ := h3.inputs 0 0 (by decide) (by decide)
  have hne : gu 0 0 ≠ 0 := by
    rw [hu]
    intro h0
    have h5 := double_zero_iff.1 h0
    rcases div_eq_zero_iff.1 h5 with h6 | h6
    · have h7 := double_zero_iff.1 h6
      change 2 ^ 80 * double.rnd (double.rnd (double.rnd (1 / 2 ^ 80) + NlSpec.stepOfR double.rnd (1 / 1000000) 0)
          - NlSpec.stepOfR double.rnd (1 / 1000000) 0) - 2 ^ 80 * double.rnd (1 / 2 ^ 80) = 0 at h7
      rw [step_micro, double_tiny, tiny_lost] at h7
      norm_num at h7
    · exact absurd h6 (stepR_pos double_eps micro_pos _).ne'
  have key := h4.inputs 0 0 (by decide) (by decide)
  rw [hz, e1] at key
  change 0 = double.rnd (double.rnd (double.rnd (0 + double.rnd (1 * gu 0 0)) + 0) + 0) at key
  rw [zero_add, add_zero, add_zero, one_mul] at key
  exact hne (double_zero_iff.1 (double_zero_iff.1 (double_zero_iff.1 (double_zero_iff.1 key.symm))))

/-- the constraint `X(1,0) - e <= 0`, computed in `double` -/
def softOps : List (NlCall dN ℚ) := [.setIneqConFunction (fun X _ _ e _ => double.rnd (X 1 0 - e)) 0 true]

/-- its coefficients -/
def softCoeff (k a : Nat) : ℚ := if k = 1 ∧ a = 0 then 1 else 0

theorem soft_affine (X : Traj (dN.ph + 1) dN.nx ℚ) (U : Traj (dN.ph + 1) dN.nu ℚ) (e : ℚ) :
    X 1 0 - e = NlSpec.affine 0 softCoeff (fun _ _ => 0) (-1) X U e := by
  unfold NlSpec.affine softCoeff
  show X 1 0 - e = 0 + ∑ k : Fin 4, ∑ a : Fin 2, (if (k : Nat) = 1 ∧ (a : Nat) = 0 then 1 else 0) * X k a + ∑ k : Fin 4, ∑ b : Fin 1, 0 * U k b + -1 * e
  simp [Fin.sum_univ_succ]
  ring

theorem soft_rounded (x0 : ℚ) : ∃ outs m s, InRounded double dN false softOps outs m (nvec 2 fun _ => x0) s :=
  rounded_of x0 (by simp [NlSpec.CallFits, softOps]) (by simp [AdmFrom, NlSpec.Admissible, softOps])

theorem double_dv : double.rnd Constraints.dv = Constraints.dv := by
  have := double_fixed 1 (-26) (by norm_num)
  rw [Int.cast_one, one_mul] at this
  have e : (2 : ℚ) ^ (-26 : ℤ) = Constraints.dv := by unfold Constraints.dv; norm_num
  rwa [e] at this

theorem step_dv : NlSpec.stepOfR double.rnd Constraints.dv 0 = Constraints.dv := by
  unfold NlSpec.stepOfR NlSpec.stepOf
  rw [abs_zero, if_pos one_pos, mul_one, double.idem, double_dv]

theorem slack_dv : NlSpec.slackStepR double.rnd Constraints.dv 0 = 1 / 2 ^ 52 := by
  unfold NlSpec.slackStepR
  rw [double_dv, abs_zero, max_eq_left Constraints.dv_pos.le]
  have := double_fixed 1 (-52) (by norm_num)
  rw [Int.cast_one, one_mul] at this
  have e : (2 : ℚ) ^ (-52 : ℤ) = Constraints.dv * Constraints.dv := by unfold Constraints.dv; norm_num
  have e' : (1 : ℚ) / 2 ^ 52 = Constraints.dv * Constraints.dv := by unfold Constraints.dv; norm_num
  rw [e] at this
  rw [e', this]

theorem eight_back : double.rnd (double.rnd (double.rnd (8 + Constraints.dv) - double.rnd (2 * Constraints.dv)) + Constraints.dv) = 8 := by
  have fx : ∀ (n : ℤ) (x : ℚ), x = n * 2 ^ (-26 : ℤ) → |n| ≤ 2 ^ 53 → double.rnd x = x := fun n x e h => by rw [e, double_fixed n _ h]
  rw [fx (2 ^ 29 + 1) (8 + Constraints.dv) (by unfold Constraints.dv; norm_num) (by norm_num),
    fx 2 (2 * Constraints.dv) (by unfold Constraints.dv; norm_num) (by norm_num),
    fx (2 ^ 29 - 1) (8 + Constraints.dv - 2 * Constraints.dv) (by unfold Constraints.dv; norm_num) (by norm_num),
    fx (2 ^ 29) (8 + Constraints.dv - 2 * Constraints.dv + Constraints.dv) (by unfold Constraints.dv; norm_num) (by norm_num)]
  ring

theorem double_eight : double.rnd 8 = 8 := by
  have := double_fixed 8 0 (by norm_num)
  norm_num at this
  exact this

/-- the perturbations of the slack disappear in the value of the constraint -/
theorem soft_absorbed : double.rnd (8 - double.rnd (1 / 2 ^ 52)) = 8 ∧ double.rnd (8 - double.rnd (-(1 / 2 ^ 52))) = 8 := by
  have h : double.rnd (1 / 2 ^ 52) = 1 / 2 ^ 52 := by
    have := double_fixed 1 (-52) (by norm_num)
    rw [Int.cast_one, one_mul] at this
    have e : (2 : ℚ) ^ (-52 : ℤ) = 1 / 2 ^ 52 := by norm_num
    rwa [e] at this
  rw [double.odd, h]
  constructor
  · have : double.rnd (8 - 1 / 2 ^ 52) = (2 ^ 53 : ℤ) * 2 ^ (2 - 52 : ℤ) := double_eval (by norm_num) (by norm_num) (by norm_num [abs_lt])
    rw [this]; norm_num
  · have : double.rnd (8 - -(1 / 2 ^ 52)) = (2 ^ 52 : ℤ) * 2 ^ (3 - 52 : ℤ) := double_eval (by norm_num) (by norm_num) (by norm_num [abs_lt])
    rw [this]; norm_num

/-- C113 is violated: the soft constraint `X(1,0) - e <= 0` at `X(1,0) = 8`, `e = 0`: the derivative with respect to the slack which the
solver gets is 0 instead of -1, so that the solver does not know that the slack helps. -/
theorem c113_slack_violated : ¬ C113Claim double := by
  intro hc
  obtain ⟨outs, m, s, h⟩ := soft_rounded 0
  obtain ⟨r, s1, hr, hz⟩ := hc dN false softOps outs m _ s h _ _ rfl 0 0 softCoeff (fun _ _ => 0) (-1)
    (fun X U e => by rw [← soft_affine]; rfl) (spikeN 0 8) (fun _ => 0) rfl
  obtain ⟨c, hs, e1, e2, e3, -, -, e6, -, -, -, -, ex⟩ := h.config double_eps
  obtain ⟨⟨r', s1'⟩, hr', hp⟩ := NlState.evalIneqR_post double_eps hs h.hor (e6 _ _ rfl) (spikeN 0 8) rfl (fun _ => 0) rfl rfl
  rw [hr] at hr'
  obtain ⟨rfl, rfl⟩ := Prod.mk.inj (Except.ok.inj hr')
  obtain ⟨-, -, -, -, gx, gu, ge, hd, hrow⟩ := hp
  have hrow := (hrow 0 (by decide)).slack
  dsimp only at hrow
  rw [e1, e2, e3, ex] at hd
  obtain ⟨t1, t2⟩ := noScale (ops := softOps) rfl rfl (spikeN 0 8)
  rw [t1, t2] at hd
  obtain ⟨U', -, hu⟩ := hd.slack
  have hu := hu 0
  change ge 0 = double.rnd (double.rnd (
    double.rnd (double.rnd (double.rnd (double.rnd (double.rnd 8 + NlSpec.stepOfR double.rnd Constraints.dv 0)
      - double.rnd (2 * NlSpec.stepOfR double.rnd Constraints.dv 0)) + NlSpec.stepOfR double.rnd Constraints.dv 0)
      - double.rnd (0 + NlSpec.slackStepR double.rnd Constraints.dv 0))
    - double.rnd (double.rnd (double.rnd (double.rnd (double.rnd 8 + NlSpec.stepOfR double.rnd Constraints.dv 0)
      - double.rnd (2 * NlSpec.stepOfR double.rnd Constraints.dv 0)) + NlSpec.stepOfR double.rnd Constraints.dv 0)
      - double.rnd (0 - NlSpec.slackStepR double.rnd Constraints.dv 0)))
    / double.rnd (2 * NlSpec.slackStepR double.rnd Constraints.dv 0)) at hu
  rw [double_eight, step_dv, eight_back, slack_dv, zero_add, zero_sub, soft_absorbed.1, soft_absorbed.2, sub_self, double.zero, zero_div,
    double.zero] at hu
  have e0 : r.grad.get (((0 : Fin dN.ineq) : Nat) * dN.nZ + NlSpec.slackIx dN) = 0 := hrow.trans hu
  rw [e0] at hz
  norm_num at hz

theorem double_eps_eq : double.eps = 1 / 2 ^ 53 := by
  show (1 / 2 : ℚ) ^ 53 = _
  norm_num

/-- non-vacuity of `c113_inequality_partial`: for the soft constraint at `X(1,0) = 8` the hypotheses hold with `M = 16`, `η = 18 eps` -/
example : ∃ outs m s, InRounded double dN false softOps outs m (nvec 2 fun _ => 0) s ∧
    ∃ F tol, NlSpec.last NlSpec.ineqConOf softOps = some (F, tol) ∧
    ∀ X U, NlSpec.Decoded double dN (NlSpec.stScale softOps) (NlSpec.inScale softOps) (nvec 2 fun _ => 0).get (spikeN 0 8).get X U →
      NlSpec.Bounded 16 X U ((spikeN 0 8).get (NlSpec.slackIx dN)) ∧
      NlSpec.NearlyAffine (fun X U e => NlSpec.ineqOf F (NlSpec.last NlSpec.outputOf softOps) X U e 0) 0 softCoeff (fun _ _ => 0) (-1) X U
        ((spikeN 0 8).get (NlSpec.slackIx dN)) ((2 * (1 / 2 ^ 26) + 7 * double.eps) * 16) (18 * double.eps) := by
  obtain ⟨outs, m, s, h⟩ := soft_rounded 0
  refine ⟨outs, m, s, h, _, _, rfl, fun X U hD => ?_⟩
  have hz : ∀ p, |(spikeN 0 8).get p| ≤ 8 := by
    intro p
    show |if p = 0 then (8 : ℚ) else 0| ≤ 8
    split_ifs <;> norm_num
  have hb : NlSpec.Bounded 16 X U ((spikeN 0 8).get (NlSpec.slackIx dN)) := by
    refine ⟨by norm_num, fun k a => ?_, fun k b => ?_, (hz _).trans (by norm_num)⟩
    · have h1 := hD.states k a
      have h2 : |NlSpec.codeStates dN (NlSpec.stScale softOps) (nvec 2 fun _ => 0).get (spikeN 0 8).get k a| ≤ 8 := by
        unfold NlSpec.codeStates
        split_ifs
        · show |(1 : ℚ) * 0| ≤ 8
          norm_num
        · show |(1 : ℚ) * _| ≤ 8
          rw [one_mul]; exact hz _
      have h3 := abs_add_le (X k a - NlSpec.codeStates dN (NlSpec.stScale softOps) (nvec 2 fun _ => 0).get (spikeN 0 8).get k a)
        (NlSpec.codeStates dN (NlSpec.stScale softOps) (nvec 2 fun _ => 0).get (spikeN 0 8).get k a)
      rw [sub_add_cancel] at h3
      have h4 : 2 * double.eps / (1 - double.eps) ≤ 1 := by rw [double_eps_eq]; norm_num
      have h5 := mul_le_mul h4 h2 (abs_nonneg _) zero_le_one
      linarith
    · have h1 := hD.inputs k b
      have h2 : |NlSpec.inputs dN (NlSpec.inScale softOps) (spikeN 0 8).get k b| ≤ 8 := by
        unfold NlSpec.inputs NlSpec.inputAt
        show |(1 : ℚ) * _| ≤ 8
        rw [one_mul]; exact hz _
      have h3 := abs_add_le (U k b - NlSpec.inputs dN (NlSpec.inScale softOps) (spikeN 0 8).get k b)
        (NlSpec.inputs dN (NlSpec.inScale softOps) (spikeN 0 8).get k b)
      rw [sub_add_cancel] at h3
      have h4 : double.eps ≤ 1 := double_eps.trans (by norm_num)
      have h5 := mul_le_mul h4 h2 (abs_nonneg _) zero_le_one
      linarith
  refine ⟨hb, fun X' U' e' h1 _ h3 => ?_⟩
  rw [← soft_affine]
  show |double.rnd (X' 1 0 - e') - (X' 1 0 - e')| ≤ _
  refine (double.err_le (M := 18) ?_).trans (le_of_eq (mul_comm _ _))
  have h4 := h1 1 0
  have h5 := hb.states 1 0
  have e0 : (spikeN 0 8).get (NlSpec.slackIx dN) = 0 := rfl
  rw [e0, sub_zero] at h3
  have h6 := abs_add_le (X' 1 0 - X 1 0) (X 1 0)
  rw [sub_add_cancel] at h6
  have h7 := abs_sub (X' 1 0) e'
  have h8 : (2 * (1 / 2 ^ 26) + 7 * double.eps) * 16 ≤ 1 := by rw [double_eps_eq]; norm_num
  linarith

/-- non-vacuity of `c112_objective_partial`: `c X(1,0)` varies by at most `|c| ρ`, and ignores inputs and slack -/
example (c : ℚ) (X : Traj (dN.ph + 1) dN.nx ℚ) (U : Traj (dN.ph + 1) dN.nu ℚ) (e ρ : ℚ) :
    NlSpec.VariesAtMost (NlSpec.costOf (d := dN) (fun X _ _ _ => c * X 1 0) none) X U e ρ (|c| * ρ) ∧
    NlSpec.IgnoresInput dN (NlSpec.costOf (d := dN) (fun X _ _ _ => c * X 1 0) none) 1 0 ∧
    NlSpec.IgnoresState (NlSpec.costOf (d := dN) (fun X _ _ _ => c * X 1 0) none) 1 1 := by
  refine ⟨fun X' U' h _ => ?_, fun _ _ _ _ _ => rfl, fun X X' U e h => ?_⟩
  · show |c * X' 1 0 - c * X 1 0| ≤ _
    rw [← mul_sub, abs_mul]
    exact mul_le_mul_of_nonneg_left (h 1 0) (abs_nonneg _)
  · show c * X 1 0 = c * X' 1 0
    rw [h 1 0 (by rintro ⟨-, h⟩; exact absurd h (by decide))]

/-- non-vacuity of `c113_objective_partial` and `c113_equality_partial`: an affine function is nearly affine, with `η = 0` -/
example (c0 γ : ℚ) (α β : Nat → Nat → ℚ) (X : Traj (dN.ph + 1) dN.nx ℚ) (U : Traj (dN.ph + 1) dN.nu ℚ) (e ρ : ℚ) :
    NlSpec.NearlyAffine (NlSpec.affine c0 α β γ) c0 α β γ X U e ρ 0 :=
  fun _ _ _ _ _ _ => by rw [sub_self, abs_zero]

end Mpc.Props
