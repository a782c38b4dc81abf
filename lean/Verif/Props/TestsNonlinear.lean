import Mathlib.Tactic.NormNum
import Mathlib.Tactic.FieldSimp
import Mathlib.Algebra.BigOperators.Fin
import Mathlib.Data.Rat.Defs
import Verif.Proofs.NlDynEval
import Verif.Proofs.NlDetermined
import Verif.Proofs.NlGuess
import Verif.Proofs.Setters2

/-
C122, nonlinear part: what the project's own tests of the nonlinear components (/repo/test/NLMPC) assert for a few
sizes and one choice of numbers holds for all sizes and numbers.
-/
namespace Mpc.Props
open Exec NlSpec

set_option linter.unusedSectionVars false
variable {K : Type} [Field K] [LinearOrder K] [IsStrictOrderedRing K]

/-! ### test_common.cpp -/

/-- "Checking mapping dim" (test_common.cpp:9-45) for every size with `0 < ch ≤ ph`. -/
theorem c122_mapping_dim {d : Dims} (h0 : 0 < d.ch) (hle : d.ch ≤ d.ph) (hp : d.ph < 2 ^ 31) :
    ∃ m : Mapping K, Mapping.init d = .ok m ∧
      m.Iz2u.rows = d.ph * d.nu ∧ m.Iz2u.cols = d.ch * d.nu ∧ m.Iu2z.rows = d.ch * d.nu ∧ m.Iu2z.cols = d.ph * d.nu ∧
      m.Sz2u.rows = d.nu ∧ m.Sz2u.cols = d.nu ∧ m.Su2z.rows = d.nu ∧ m.Su2z.cols = d.nu ∧
      m.inputScaling.size = d.nu ∧ m.stateScaling.size = d.nx ∧ m.invStateScaling.size = d.nx := by
  obtain ⟨m, hm, g, hd, -, -⟩ := Mapping.init_post (K := K) d h0 hle hp
  subst hd
  exact ⟨m, hm, g.iz_rows, by rw [g.iz_cols, Nat.mul_comm], by rw [g.iu_rows, Nat.mul_comm], g.iu_cols, g.szr, g.szc,
    g.sur, g.suc, g.insz, g.stsz, g.invsz⟩

/-- The last line of the test's table: (5, 3, 7, 4). -/
example : ∃ m : Mapping ℚ, Mapping.init ⟨5, 3, 0, 1, 7, 4, 1, 1⟩ = .ok m ∧ m.Iz2u.rows = 21 ∧ m.Iz2u.cols = 12 := by
  obtain ⟨m, h, h1, h2, -⟩ := c122_mapping_dim (K := ℚ) (d := ⟨5, 3, 0, 1, 7, 4, 1, 1⟩) (by decide) (by decide) (by decide)
  exact ⟨m, h, h1, h2⟩

/-- "Checking vector unwrapping" (test_common.cpp:47-109) for every size with `0 < ch ≤ ph`, every decision vector and
every current state: row 0 of the states is the current state, row `i` the `i`-th block of the vector; row `i` of the
inputs is the `i`-th block of commands, the last one repeated after the control horizon; the slack is the last entry.
`Xb`, `Ub` are the matrices the results are written into. -/
theorem c122_unwrap {d : Dims} (h0 : 0 < d.ch) (hle : d.ch ≤ d.ph) (hp : d.ph < 2 ^ 31) (x x0 : Vec K) (Xb Ub : Mat K)
    (hx : x.size = d.ph * d.nx + d.nu * d.ch + 1) (hx0 : x0.size = d.nx)
    (hX : Xb.rows = d.ph + 1 ∧ Xb.cols = d.nx) (hU : Ub.rows = d.ph + 1 ∧ Ub.cols = d.nu) :
    ∃ (m : Mapping K) (X U : Mat K) (e : K), Mapping.init d = .ok m ∧ m.unwrapVector x x0 Xb Ub = .ok (X, U, e) ∧
      (X.rows = d.ph + 1 ∧ X.cols = d.nx) ∧ (U.rows = d.ph + 1 ∧ U.cols = d.nu) ∧
      (∀ a, a < d.nx → X.get 0 a = x0.get a) ∧
      (∀ i a, 1 ≤ i → i < d.ph + 1 → a < d.nx → X.get i a = x.get ((i - 1) * d.nx + a)) ∧
      (∀ i b, i < d.ph + 1 → b < d.nu →
        U.get i b = x.get (d.ph * d.nx + (if i < d.ch then i else d.ch - 1) * d.nu + b)) ∧
      e = x.get (x.size - 1) := by
  obtain ⟨m, hm, g, hd, hi, hs⟩ := Mapping.init_post (K := K) d h0 hle hp
  subst hd
  obtain ⟨⟨X, U, e⟩, hr, w⟩ := Mapping.unwrapVector_post m g x x0 Xb Ub hx hx0 hX.1 hX.2 hU.1 hU.2
  refine ⟨m, X, U, e, hm, hr, ⟨w.xr, w.xc⟩, ⟨w.ur, w.uc⟩, ?_, ?_, ?_, ?_⟩
  · intro a ha
    have := w.x_zero a ha
    rwa [hs, one_mul] at this
  · intro i a h1 h2 ha
    obtain ⟨k, rfl⟩ : ∃ k, i = k + 1 := ⟨i - 1, by omega⟩
    have := w.x_succ k a (by omega) ha
    rwa [hs, one_mul] at this
  · intro i b h1 hb
    have := w.u i b h1 hb
    rw [inputAt, hi, one_mul, inputIx] at this
    rw [this]
    congr 1
    rw [show min i (m.dims.ch - 1) = if i < m.dims.ch then i else m.dims.ch - 1 by split <;> omega]
    omega
  · have := w.e
    dsimp only at this
    rw [this, slackIx, hx, Nat.mul_comm m.dims.ch]
    rfl

/-- The test's table line (5, 3, 7, 4) with the test's numbers `x[i] = i`, `x0[i] = -i - 1`: the state of step 2 is
`5 6 7 8 9`, the commands of the steps 4, 5, … repeat those of step 3, `44 45 46`, and the slack is 47. -/
example : ∃ (m : Mapping ℚ) (X U : Mat ℚ) (e : ℚ), Mapping.init ⟨5, 3, 0, 1, 7, 4, 1, 1⟩ = .ok m ∧
    m.unwrapVector ⟨48, fun i => i⟩ ⟨5, fun i => -i - 1⟩ (Mat.const 8 5 0) (Mat.const 8 3 0) = .ok (X, U, e) ∧
    X.get 0 1 = -2 ∧ X.get 2 3 = 8 ∧ U.get 3 0 = 44 ∧ U.get 7 2 = 46 ∧ e = 47 := by
  obtain ⟨m, X, U, e, h1, h2, -, -, h3, h4, h5, h6⟩ := c122_unwrap (K := ℚ) (d := ⟨5, 3, 0, 1, 7, 4, 1, 1⟩)
    (by decide) (by decide) (by decide) ⟨48, fun i => i⟩ ⟨5, fun i => -i - 1⟩ (Mat.const 8 5 0) (Mat.const 8 3 0)
    rfl rfl ⟨rfl, rfl⟩ ⟨rfl, rfl⟩
  refine ⟨m, X, U, e, h1, h2, ?_, ?_, ?_, ?_, ?_⟩
  · rw [h3 1 (by decide)]; norm_num
  · rw [h4 2 3 (by decide) (by decide) (by decide)]; norm_num
  · rw [h5 3 0 (by decide) (by decide)]; norm_num
  · rw [h5 7 2 (by decide) (by decide)]; norm_num
  · rw [h6]; norm_num

/-- "Checking horizon slicing validation" (test_common.cpp:111-168) for every horizon: `all()` is the unset slice and
not a valid one, `{0, k}` is set, valid for `0 < k ≤ h` and invalid for `k > h`. (The test concerns slices starting
at 0 only; C16 is about the others.) -/
theorem c122_slices {h : Nat} (hh : h < 2 ^ 30) :
    isSliceUnset ⟨-1, -1⟩ = true ∧ isSliceValid h ⟨-1, -1⟩ = .ok false ∧
    ∀ k : Nat, isSliceUnset ⟨0, k⟩ = false ∧
      (0 < k → k ≤ h → isSliceValid h ⟨0, k⟩ = .ok true) ∧ (h < k → isSliceValid h ⟨0, k⟩ = .ok false) := by
  refine ⟨rfl, rfl, fun k => ⟨rfl, fun h0 h1 => ?_, fun h1 => ?_⟩⟩
  · rw [isSliceValid_eq (by simp) hh]
    congr 1
    simp only [decide_eq_true_eq]
    omega
  · rw [isSliceValid_eq (by simp) hh]
    congr 1
    simp only [decide_eq_false_iff_not]
    omega

/-- (5, 3, 7, 4): `{0, 4}` is valid for both horizons, `{0, 8}` for neither. -/
example : isSliceValid 7 ⟨0, 4⟩ = .ok true ∧ isSliceValid 4 ⟨0, 4⟩ = .ok true ∧ isSliceValid 7 ⟨0, 8⟩ = .ok false ∧
    isSliceValid 4 ⟨0, 8⟩ = .ok false :=
  ⟨((c122_slices (h := 7) (by decide)).2.2 4).2.1 (by decide) (by decide),
    ((c122_slices (h := 4) (by decide)).2.2 4).2.1 (by decide) (by decide),
    ((c122_slices (h := 7) (by decide)).2.2 8).2.2 (by decide),
    ((c122_slices (h := 4) (by decide)).2.2 8).2.2 (by decide)⟩

/-! ### test_constraints.cpp -/

/-- "Checking missing user constraints" (test_constraints.cpp:9-25): new constraints have no user functions, whatever
is in memory. -/
theorem c122_no_user_constraints (d : Dims) (junk : Nat → K) :
    (Constraints.init (d := d) junk).ieqUser = none ∧ (Constraints.init (d := d) junk).eqUser = none := ⟨rfl, rfl⟩

/-- The state sequence of a decision vector `z` and a current state, without scaling: the current state, then the
blocks of `nx` entries of `z`. -/
def planned {α : Type} (d : Dims) (x0 z : Nat → α) (k a : Nat) : α :=
  if k = 0 then x0 a else z ((k - 1) * d.nx + a)

private theorem codeStates_one {d : Dims} (x0 z : Nat → K) (k : Fin (d.ph + 1)) (a : Fin d.nx) :
    codeStates d (fun _ => 1) x0 z k a = planned d x0 z k a := by
  unfold codeStates planned stateIx
  split <;> rw [one_mul]

private theorem evalDyn_nograd {d : Dims} {s : NlState d K} {c : Cfg d K} (h : s.Holds c) (hp : d.ph < 2 ^ 31)
    {F : FVec d.nx K → FVec d.nu K → Nat → FVec d.nx K} (hf : c.field = some F) (z : Vec K) (hz : z.size = d.nZ)
    (junk : Nat → K) : Post (s.evalDyn z false junk) (fun r => ∀ v, r.1.grad.get v = 0) := by
  unfold NlState.evalDyn Constraints.evaluateStateModelEq
  have hf' : s.M.vectorField = some fun _ => F := by rw [h.field, hf]; rfl
  have hd := h.dims
  have ho := h.csz
  refine Post.bind ?_ (Q := fun r => ∀ v, r.1.grad.get v = 0) (fun r hr => post_pure hr)
  refine Post.bind (Mapping.unwrapVector_post s.mp h.good z s.con.x0 s.con.Xmat s.con.Umat (by rw [hd]; exact hz)
    (by rw [hd]; exact ho.x0) (by rw [hd]; exact ho.X.1) (by rw [hd]; exact ho.X.2) (by rw [hd]; exact ho.U.1)
    (by rw [hd]; exact ho.U.2)) ?_
  rintro ⟨X, U, e⟩ hw
  refine Post.bind (Constraints.getStateEqConstraints_post s.mp h.good hd s.M _ hf' F (fun _ _ _ _ => rfl) junk X U
    ⟨by rw [← hd]; exact hw.xr, by rw [← hd]; exact hw.xc⟩ ⟨by rw [← hd]; exact hw.ur, by rw [← hd]; exact hw.uc⟩
    s.con.ceq s.con.Jceq ho.ceq ho.Jceq hp false) ?_
  rintro ⟨c', J⟩ ⟨-, -, -, h4⟩
  simp only [Bool.false_eq_true, if_false] at h4
  exact post_pure fun v => h4 _ _

/-- "Checking model equality constraints" (test_constraints.cpp:27-80) for every size with `0 < ch ≤ ph`, every model
function, current state and decision vector: after `setContinuous(true)`, whose sample time defaults to 0, the value of
the model equations is the difference between consecutive planned states, and the gradient is zero when it is not asked
for. -/
theorem c122_model_equations {d : Dims} (h0 : 0 < d.ch) (hle : d.ch ≤ d.ph) (hp : d.ph < 2 ^ 31) (junk junk' : Nat → K)
    (cont : Bool) (Ts : K) (F : FVec d.nx K → FVec d.nu K → Nat → FVec d.nx K) (x0 z : Vec K) (hx0 : x0.size = d.nx)
    (hz : z.size = d.ph * d.nx + d.nu * d.ch + 1) :
    ∃ s r s', NlState.run d junk cont Ts [.continuous true 0, .stateFn F, .measure x0] = .ok s ∧
      s.evalDyn z false junk' = .ok (r, s') ∧ r.value.size = d.ph * d.nx ∧
      (∀ k a, k < d.ph → a < d.nx → r.value.get (k * d.nx + a)
        = planned d x0.get z.get k a - planned d x0.get z.get (k + 1) a) ∧
      ∀ v, r.grad.get v = 0 := by
  obtain ⟨s, hs⟩ := NlState.run_setters h0 hle hp junk cont Ts [.continuous true 0, .stateFn F, .measure x0]
    (by simp [OpFits, hx0]) (by simp [NlOp.IsSetter])
  have hh := NlState.run_holds h0 hle hp junk cont Ts _ (by simp [OpFits, hx0]) hs
  have hc : cfgOf d cont Ts [.continuous true 0, .stateFn F, .measure x0]
      = ⟨fun _ => 1, fun _ => 1, true, 0, some F, none, none, none, none, some x0.get⟩ := rfl
  rw [hc] at hh
  obtain ⟨⟨r, s'⟩, e1, h1, -, X, U, hX, hU, vX, vU, hv, -⟩ := NlState.evalDyn_post hh hp rfl z hz false junk'
  have e2 := (evalDyn_nograd hh hp rfl z hz junk').of_eq e1
  refine ⟨s, r, s', hs, e1, h1, ?_, e2⟩
  have hxs : ∀ k a, k < d.ph + 1 → a < d.nx → X.get k a = planned d x0.get z.get k a := by
    intro k a hk ha
    have := congrFun (congrFun vX ⟨k, hk⟩) ⟨a, ha⟩
    rw [codeStates_one, hh.cx0 _ rfl] at this
    exact this
  intro k a hk ha
  have := hv k a hk ha
  dsimp only at this
  rw [this, Constraints.resid, if_pos rfl]
  simp only [zero_div, zero_mul, add_zero, div_one]
  rw [hxs k a (by omega) ha, hxs (k + 1) a (by omega) ha]

/-- The numbers of the test: nx=2, nu=1, ph=ch=5, the van der Pol model, `x0 = 0`, `x[i] = i`: the expected value is
`0, -1, -2, -2, …`. -/
example : ∃ s r s', NlState.run (K := ℚ) ⟨2, 1, 0, 1, 5, 5, 0, 0⟩ (fun i => i) false 0 [.continuous true 0,
      .stateFn (fun x u _ a => if a = 0 then (1 - x 1 * x 1) * x 0 - x 1 + u 0 else x 0), .measure (Vec.const 2 0)] = .ok s ∧
    s.evalDyn ⟨16, fun i => i⟩ false (fun i => i) = .ok (r, s') ∧ r.value.size = 10 ∧
    r.value.get 0 = 0 ∧ r.value.get 1 = -1 ∧ (∀ k, 2 ≤ k → k < 10 → r.value.get k = -2) ∧ ∀ v, r.grad.get v = 0 := by
  obtain ⟨s, r, s', h1, h2, h3, h4, h5⟩ := c122_model_equations (K := ℚ) (d := ⟨2, 1, 0, 1, 5, 5, 0, 0⟩) (by decide)
    (by decide) (by decide) (fun i => i) (fun i => i) false 0
    (fun x u _ a => if a = 0 then (1 - x 1 * x 1) * x 0 - x 1 + u 0 else x 0) (Vec.const 2 0) ⟨16, fun i => i⟩ rfl rfl
  refine ⟨s, r, s', h1, h2, h3, ?_, ?_, ?_, h5⟩
  · have := h4 0 0 (by decide) (by decide)
    simpa [planned, Vec.const] using this
  · have := h4 0 1 (by decide) (by decide)
    simpa [planned, Vec.const] using this
  · intro k h2 h10
    obtain ⟨i, a, hi, ha, rfl⟩ := exists_block (s := 2) (n := 5) (k := k) (by omega)
    have := h4 i a hi ha
    dsimp only at this
    rw [this, planned, planned, if_neg (by omega), if_neg (by omega)]
    obtain ⟨i, rfl⟩ : ∃ j, i = j + 1 := ⟨i - 1, by omega⟩
    push_cast [Nat.add_sub_cancel]
    ring

/-- "Checking user inequality constraints" (test_constraints.cpp:82-148) for every size, every function of the current
state only, every current state and decision vector: the value is that of the function at the current state, and the
gradient is zero. (The gradient is computed although `false` is passed.) -/
theorem c122_user_inequalities {d : Dims} (h0 : 0 < d.ch) (hle : d.ch ≤ d.ph) (hp : d.ph < 2 ^ 31)
    (junk junk' : Nat → K) (cont : Bool) (Ts : K) (F : FVec d.nx K → FVec d.nu K → Nat → FVec d.nx K)
    (G : FVec d.nx K → FVec d.ineq K) (tol : K) (x0 z : Vec K) (hx0 : x0.size = d.nx)
    (hz : z.size = d.ph * d.nx + d.nu * d.ch + 1) :
    ∃ s r s', NlState.run d junk cont Ts [.continuous true 0, .stateFn F, .ineqFn (fun X _ _ _ => G (X 0)) tol,
        .measure x0] = .ok s ∧
      s.evalIneq z junk' = .ok (r, s') ∧ r.value.size = d.ineq ∧
      (∀ i : Fin d.ineq, r.value.get i = G (fun a => x0.get a) i) ∧
      r.grad.size = (d.ph * d.nx + d.nu * d.ch + 1) * d.ineq ∧ ∀ v, v < r.grad.size → r.grad.get v = 0 := by
  have hf : ∀ o ∈ ([.continuous true 0, .stateFn F, .ineqFn (fun X _ _ _ => G (X 0)) tol, .measure x0] :
      List (NlOp d K)), OpFits d o := by simp [OpFits, hx0]
  obtain ⟨s, hs⟩ := NlState.run_setters h0 hle hp junk cont Ts _ hf (by simp [NlOp.IsSetter])
  have hh := NlState.run_holds h0 hle hp junk cont Ts _ hf hs
  have hc : cfgOf d cont Ts [.continuous true 0, .stateFn F, .ineqFn (fun X _ _ _ => G (X 0)) tol, .measure x0]
      = ⟨fun _ => 1, fun _ => 1, true, 0, some F, none, none, some (fun X _ _ _ => G (X 0)), none, some x0.get⟩ := rfl
  rw [hc] at hh
  obtain ⟨⟨r, s'⟩, e1, h1, h2, hv, gx, gu, ge, hdiff, hrow⟩ := NlState.evalIneq_post hh hp rfl z hz junk'
  dsimp only at h1 h2 hv hrow
  refine ⟨s, r, s', hs, e1, h1, ?_, h2, ?_⟩
  · intro i
    rw [hv i]
    dsimp only [ineqOf]
    congr 1
    funext a
    rw [codeStates_one, hh.cx0 _ rfl]
    rfl
  · intro v hvlt
    rw [h2] at hvlt
    obtain ⟨i, w, hi, hw, rfl⟩ := exists_block (s := d.nZ) (n := d.ineq) (k := v) (by rw [Nat.mul_comm]; exact hvlt)
    have hr := hrow i hi
    have e0 : ∀ (X : Traj (d.ph + 1) d.nx K) (k a : Nat) (t : K), bump X (k + 1) a t 0 = X 0 := by
      intro X k a t
      funext b
      rw [bump, if_neg (by simp)]
    have z1 : ∀ k a, k < d.ph → a < d.nx → gx i k a = 0 := by
      intro k a hk ha
      have := hdiff.states ⟨i, hi⟩ k a hk ha
      rw [this, ineqOf, ineqOf, e0, e0, sub_self, zero_div]
    have z2 : ∀ k b, k < d.ph → b < d.nu → gu i k b = 0 := by
      intro k b hk hb
      by_cases hl : k + 1 < d.ph
      · have := hdiff.inputs ⟨i, hi⟩ k b hl hb
        rw [this, ineqOf, ineqOf, sub_self, zero_div]
      · obtain rfl : k = d.ph - 1 := by omega
        have := hdiff.lastInput ⟨i, hi⟩ b hb
        rw [this, if_neg (by decide), ineqOf, ineqOf, sub_self, zero_div]
    have z3 : ge i = 0 := by
      have := hdiff.slack ⟨i, hi⟩
      rw [this, ineqOf, ineqOf, sub_self, zero_div]
    rcases nZ_cases d hw with ⟨k, a, hk, ha, rfl⟩ | ⟨j, b, hj, hb, rfl⟩ | rfl
    · rw [hr.states k a hk ha, z1 k a hk ha, zero_mul]
    · rw [hr.inputs j b hj hb, Finset.sum_eq_zero, mul_zero]
      intro k hk
      split
      · exact z2 k b (Finset.mem_range.1 hk) hb
      · rfl
    · rw [hr.slack, z3]

/-- The numbers of the test: nx=2, nu=1, ph=ch=5, one inequality `x(0,0)`, `x0 = (10, 0)`, `x[i] = i`: the value is 10. -/
example : ∃ s r s', NlState.run (K := ℚ) ⟨2, 1, 0, 1, 5, 5, 1, 0⟩ (fun i => i) false 0 [.continuous true 0,
      .stateFn (fun x u _ a => if a = 0 then (1 - x 1 * x 1) * x 0 - x 1 + u 0 else x 0),
      .ineqFn (fun X _ _ _ _ => X 0 0) (1 / 10 ^ 10), .measure ⟨2, fun i => if i = 0 then 10 else 0⟩] = .ok s ∧
    s.evalIneq ⟨16, fun i => i⟩ (fun i => i) = .ok (r, s') ∧ r.value.size = 1 ∧ r.value.get 0 = 10 ∧
    r.grad.size = 16 ∧ ∀ v, v < 16 → r.grad.get v = 0 := by
  obtain ⟨s, r, s', h1, h2, h3, h4, h5, h6⟩ := c122_user_inequalities (K := ℚ) (d := ⟨2, 1, 0, 1, 5, 5, 1, 0⟩) (by decide)
    (by decide) (by decide) (fun i => i) (fun i => i) false 0
    (fun x u _ a => if a = 0 then (1 - x 1 * x 1) * x 0 - x 1 + u 0 else x 0) (fun x _ => x 0) (1 / 10 ^ 10)
    ⟨2, fun i => if i = 0 then 10 else 0⟩ ⟨16, fun i => i⟩ rfl rfl
  exact ⟨s, r, s', h1, h2, h3, h4 0, h5, fun v hv => h6 v (by rw [h5]; exact hv)⟩

/-- "Checking user equality constraints" (test_constraints.cpp:150-210), likewise. -/
theorem c122_user_equalities {d : Dims} (h0 : 0 < d.ch) (hle : d.ch ≤ d.ph) (hp : d.ph < 2 ^ 31)
    (junk junk' : Nat → K) (cont : Bool) (Ts : K) (F : FVec d.nx K → FVec d.nu K → Nat → FVec d.nx K)
    (G : FVec d.nx K → FVec d.eq K) (tol : K) (x0 z : Vec K) (hx0 : x0.size = d.nx)
    (hz : z.size = d.ph * d.nx + d.nu * d.ch + 1) :
    ∃ s r s', NlState.run d junk cont Ts [.continuous true 0, .stateFn F, .eqFn (fun X _ => G (X 0)) tol,
        .measure x0] = .ok s ∧
      s.evalEq z junk' = .ok (r, s') ∧ r.value.size = d.eq ∧
      (∀ i : Fin d.eq, r.value.get i = G (fun a => x0.get a) i) ∧
      r.grad.size = (d.ph * d.nx + d.nu * d.ch + 1) * d.eq ∧ ∀ v, v < r.grad.size → r.grad.get v = 0 := by
  have hf : ∀ o ∈ ([.continuous true 0, .stateFn F, .eqFn (fun X _ => G (X 0)) tol, .measure x0] :
      List (NlOp d K)), OpFits d o := by simp [OpFits, hx0]
  obtain ⟨s, hs⟩ := NlState.run_setters h0 hle hp junk cont Ts _ hf (by simp [NlOp.IsSetter])
  have hh := NlState.run_holds h0 hle hp junk cont Ts _ hf hs
  have hc : cfgOf d cont Ts [.continuous true 0, .stateFn F, .eqFn (fun X _ => G (X 0)) tol, .measure x0]
      = ⟨fun _ => 1, fun _ => 1, true, 0, some F, none, none, none, some (fun X _ => G (X 0)), some x0.get⟩ := rfl
  rw [hc] at hh
  obtain ⟨⟨r, s'⟩, e1, h1, h2, hv, gx, gu, hdiff, hrow⟩ := NlState.evalEq_post hh rfl z hz junk'
  dsimp only at h1 h2 hv hrow
  refine ⟨s, r, s', hs, e1, h1, ?_, h2, ?_⟩
  · intro i
    rw [hv i]
    congr 1
    funext a
    rw [codeStates_one, hh.cx0 _ rfl]
    rfl
  · intro v hvlt
    rw [h2] at hvlt
    obtain ⟨i, w, hi, hw, rfl⟩ := exists_block (s := d.nZ) (n := d.eq) (k := v) (by rw [Nat.mul_comm]; exact hvlt)
    have hr := hrow i hi
    have e0 : ∀ (X : Traj (d.ph + 1) d.nx K) (k a : Nat) (t : K), bump X (k + 1) a t 0 = X 0 := by
      intro X k a t
      funext b
      rw [bump, if_neg (by simp)]
    have z1 : ∀ k a, k < d.ph → a < d.nx → gx i k a = 0 := by
      intro k a hk ha
      have := hdiff.states ⟨i, hi⟩ k a hk ha
      rw [this, e0, e0, sub_self, zero_div]
    have z2 : ∀ k b, k < d.ph → b < d.nu → gu i k b = 0 := by
      intro k b hk hb
      by_cases hl : k + 1 < d.ph
      · have := hdiff.inputs ⟨i, hi⟩ k b hl hb
        rw [this, sub_self, zero_div]
      · obtain rfl : k = d.ph - 1 := by omega
        have := hdiff.lastInput ⟨i, hi⟩ b hb
        rw [this, if_pos rfl, sub_self, zero_div]
    rcases nZ_cases d hw with ⟨k, a, hk, ha, rfl⟩ | ⟨j, b, hj, hb, rfl⟩ | rfl
    · rw [hr.states k a hk ha, z1 k a hk ha, zero_mul]
    · rw [hr.inputs j b hj hb, Finset.sum_eq_zero, mul_zero]
      intro k hk
      split
      · exact z2 k b (Finset.mem_range.1 hk) hb
      · rfl
    · rw [hr.slack]

/-- The numbers of the test: one equality `x(0,0)`, `x0 = (10, 0)`: the value is 10. -/
example : ∃ s r s', NlState.run (K := ℚ) ⟨2, 1, 0, 1, 5, 5, 0, 1⟩ (fun i => i) false 0 [.continuous true 0,
      .stateFn (fun x u _ a => if a = 0 then (1 - x 1 * x 1) * x 0 - x 1 + u 0 else x 0),
      .eqFn (fun X _ _ => X 0 0) (1 / 10 ^ 10), .measure ⟨2, fun i => if i = 0 then 10 else 0⟩] = .ok s ∧
    s.evalEq ⟨16, fun i => i⟩ (fun i => i) = .ok (r, s') ∧ r.value.size = 1 ∧ r.value.get 0 = 10 ∧
    r.grad.size = 16 ∧ ∀ v, v < 16 → r.grad.get v = 0 := by
  obtain ⟨s, r, s', h1, h2, h3, h4, h5, h6⟩ := c122_user_equalities (K := ℚ) (d := ⟨2, 1, 0, 1, 5, 5, 0, 1⟩) (by decide)
    (by decide) (by decide) (fun i => i) (fun i => i) false 0
    (fun x u _ a => if a = 0 then (1 - x 1 * x 1) * x 0 - x 1 + u 0 else x 0) (fun x _ => x 0) (1 / 10 ^ 10)
    ⟨2, fun i => if i = 0 then 10 else 0⟩ ⟨16, fun i => i⟩ rfl rfl
  exact ⟨s, r, s', h1, h2, h3, h4 0, h5, fun v hv => h6 v (by rw [h5]; exact hv)⟩

/-! ### test_objective.cpp -/

/-- "Checking objective function" (test_objective.cpp:9-63) for every size with `0 < ch ≤ ph`, current state and
decision vector: with the sum of the squares of the states and inputs as objective, the value is the sum of the squares
of the planned states (current state included) and of the planned commands, the last one counted once for each step it
is held; no gradient is returned when none is asked for. -/
theorem c122_sum_of_squares {d : Dims} (h0 : 0 < d.ch) (hle : d.ch ≤ d.ph) (hp : d.ph < 2 ^ 31) (junk : Nat → K)
    (cont : Bool) (Ts : K) (x0 z : Vec K) (hx0 : x0.size = d.nx) (hz : z.size = d.ph * d.nx + d.nu * d.ch + 1) :
    ∃ s r s', NlState.run d junk cont Ts [.objFn (fun X _ U _ => (∑ k, ∑ a, X k a * X k a) + ∑ k, ∑ b, U k b * U k b),
        .measure x0] = .ok s ∧
      s.evalObj z false = .ok (r, s') ∧ r.grad = none ∧
      r.value = (∑ k : Fin (d.ph + 1), ∑ a : Fin d.nx, planned d x0.get z.get k a * planned d x0.get z.get k a) +
        ∑ k : Fin (d.ph + 1), ∑ b : Fin d.nu,
          z.get (d.ph * d.nx + (min k.1 (d.ch - 1) * d.nu + b)) * z.get (d.ph * d.nx + (min k.1 (d.ch - 1) * d.nu + b)) := by
  have hf : ∀ o ∈ ([.objFn (fun X _ U _ => (∑ k, ∑ a, X k a * X k a) + ∑ k, ∑ b, U k b * U k b), .measure x0] :
      List (NlOp d K)), OpFits d o := by simp [OpFits, hx0]
  obtain ⟨s, hs⟩ := NlState.run_setters h0 hle hp junk cont Ts _ hf (by simp [NlOp.IsSetter])
  have hh := NlState.run_holds h0 hle hp junk cont Ts _ hf hs
  have hc : cfgOf d cont Ts [.objFn (fun X _ U _ => (∑ k, ∑ a, X k a * X k a) + ∑ k, ∑ b, U k b * U k b), .measure x0]
      = ⟨fun _ => 1, fun _ => 1, cont, Ts, none, none,
          some (fun X _ U _ => (∑ k, ∑ a, X k a * X k a) + ∑ k, ∑ b, U k b * U k b), none, none, some x0.get⟩ := rfl
  rw [hc] at hh
  obtain ⟨⟨r, s'⟩, e1, h1, h2⟩ := NlState.evalObj_post hh hp rfl z hz false
  refine ⟨s, r, s', hs, e1, by simpa using h2, ?_⟩
  dsimp only at h1
  rw [h1, costOf]
  congr 1
  · refine Finset.sum_congr rfl fun k _ => Finset.sum_congr rfl fun a _ => ?_
    rw [codeStates_one, hh.ox0 _ rfl]
  · refine Finset.sum_congr rfl fun k _ => Finset.sum_congr rfl fun b _ => ?_
    rw [inputs, inputAt, one_mul, inputIx]

/-- The numbers of the test: nx=5, nu=3, ph=ch=7, `x0 = 0`, `x[i] = i`: the expected value is 65730. -/
example : ∃ s r s', NlState.run (K := ℚ) ⟨5, 3, 0, 1, 7, 7, 0, 0⟩ (fun i => i) false 0
      [.objFn (fun X _ U _ => (∑ k, ∑ a, X k a * X k a) + ∑ k, ∑ b, U k b * U k b), .measure (Vec.const 5 0)] = .ok s ∧
    s.evalObj ⟨57, fun i => i⟩ false = .ok (r, s') ∧ r.value = 65730 := by
  obtain ⟨s, r, s', h1, h2, -, h3⟩ := c122_sum_of_squares (K := ℚ) (d := ⟨5, 3, 0, 1, 7, 7, 0, 0⟩) (by decide)
    (by decide) (by decide) (fun i => i) false 0 (Vec.const 5 0) ⟨57, fun i => i⟩ rfl rfl
  refine ⟨s, r, s', h1, h2, ?_⟩
  rw [h3]
  simp [planned, Vec.const, Fin.sum_univ_succ]
  norm_num

/-! ### test_nloptimizer.cpp -/

/-- "Checking default state and input bounds" (test_nloptimizer.cpp:73-120) for every size: all states and inputs of a
new optimizer are free. -/
theorem c122_default_nl_bounds (d : Dims) :
    ∃ o : NlOpt K, NlOpt.init d = .ok o ∧ o.lb.size = d.ph * d.nx + d.nu * d.ch + 1 ∧
      o.ub.size = d.ph * d.nx + d.nu * d.ch + 1 ∧
      (∀ i j, i < d.ph → j < d.nx → o.lb.get (i * d.nx + j) = .negInf ∧ o.ub.get (i * d.nx + j) = .posInf) ∧
      ∀ i j, i < d.ch → j < d.nu → o.lb.get (d.ph * d.nx + (i * d.nu + j)) = .negInf ∧
        o.ub.get (d.ph * d.nx + (i * d.nu + j)) = .posInf := by
  have hi : Post (NlOpt.init (K := K) d) (fun o =>
      o.lb = (Vec.const (d.ph * d.nx + d.nu * d.ch + 1) .negInf).setRaw (d.ph * d.nx + d.nu * d.ch) (.fin 0) ∧
      o.ub = (Vec.const (d.ph * d.nx + d.nu * d.ch + 1) .posInf).setRaw (d.ph * d.nx + d.nu * d.ch) (.fin 0)) := by
    unfold NlOpt.init NlOpt.setParameters NlOpt.pinSlack
    dsimp only
    rw [if_pos rfl, Vec.set_ok (by simp [Vec.const]), Vec.set_ok (by simp [Vec.const])]
    exact post_ok ⟨rfl, rfl⟩
  obtain ⟨o, ho, e1, e2⟩ := hi
  refine ⟨o, ho, by rw [e1]; rfl, by rw [e2]; rfl, ?_, ?_⟩ <;> rw [e1, e2]
  · intro i j hi hj
    have := block_lt (s := d.nx) (n := d.ph) hj hi
    constructor <;> exact if_neg (by omega)
  · intro i j hi hj
    have := block_lt (s := d.nu) (n := d.ch) hj hi
    rw [Nat.mul_comm d.ch] at this
    constructor <;> exact if_neg (by omega)

/-- "Checking state and input bounds" (test_nloptimizer.cpp:9-71) for every size and bounds: after `setStateBounds` and
`setInputBounds` over the whole horizon (`{-1, -1}`) on a new optimizer, every state and every input of the decision
vector has the bounds given for its component. The decision vector has less than 2^64 entries. -/
theorem c122_nl_bounds (d : Dims) (hn : d.ph * d.nx + d.nu * d.ch + 1 ≤ 2 ^ 64) {xlo xup ulo uup : Vec (Ext K)}
    (h1 : xlo.size = d.nx) (h2 : xup.size = d.nx) (h3 : ulo.size = d.nu) (h4 : uup.size = d.nu) :
    ∃ o o1 o2 : NlOpt K, NlOpt.init d = .ok o ∧ o.setStateBounds d xlo xup ⟨-1, -1⟩ = .ok (o1, true) ∧
      o1.setInputBounds d ulo uup ⟨-1, -1⟩ = .ok (o2, true) ∧
      (∀ i j, i < d.ph → j < d.nx → o2.lb.get (i * d.nx + j) = xlo.get j ∧ o2.ub.get (i * d.nx + j) = xup.get j) ∧
      ∀ i j, i < d.ch → j < d.nu → o2.lb.get (d.ph * d.nx + (i * d.nu + j)) = ulo.get j ∧
        o2.ub.get (d.ph * d.nx + (i * d.nu + j)) = uup.get j := by
  obtain ⟨o, ho, hs1, hs2, -, -⟩ := c122_default_nl_bounds (K := K) d
  have hc : d.nu * d.ch = d.ch * d.nu := Nat.mul_comm _ _
  obtain ⟨b, hb, b1, b2⟩ := NlOpt.fillBounds_total (lo := xlo) (up := xup) (off := 0) (n := d.nx) (start := 0)
    (stop := d.ph) (b := (o.lb, o.ub)) h1 h2 hs1 hs2 (by omega)
  obtain ⟨b', hb', c1, c2⟩ := NlOpt.fillBounds_total (lo := ulo) (up := uup) (off := d.ph * d.nx) (n := d.nu) (start := 0)
    (stop := d.ch) (b := (b.1, b.2)) h3 h4 b1 b2 (by omega)
  obtain ⟨f1, f2⟩ := NlOpt.fillBounds_inv (by omega) hb
  obtain ⟨g1, g2⟩ := NlOpt.fillBounds_inv (by omega) hb'
  have e1 : o.setStateBounds d xlo xup ⟨-1, -1⟩
      = .ok (NlOpt.updateBounds { o with lb := b.1, ub := b.2 }, true) := by
    unfold NlOpt.setStateBounds
    rw [show NlOpt.sliceStart ⟨-1, -1⟩ = 0 from rfl, show NlOpt.sliceStop d.ph ⟨-1, -1⟩ = d.ph from rfl, hb]
    rfl
  have e2 : (NlOpt.updateBounds { o with lb := b.1, ub := b.2 }).setInputBounds d ulo uup ⟨-1, -1⟩
      = .ok (NlOpt.updateBounds { NlOpt.updateBounds { o with lb := b.1, ub := b.2 } with lb := b'.1, ub := b'.2 }, true) := by
    unfold NlOpt.setInputBounds
    rw [show NlOpt.sliceStart ⟨-1, -1⟩ = 0 from rfl, show NlOpt.sliceStop d.ch ⟨-1, -1⟩ = d.ch from rfl]
    change (NlOpt.fillBounds ulo uup (d.ph * d.nx) d.nu 0 d.ch (b.1, b.2) >>= _) = _
    rw [hb']
    rfl
  refine ⟨o, _, _, ho, e1, e2, ?_, ?_⟩
  · intro i j hi hj
    have hlt := block_lt (s := d.nx) (n := d.ph) hj hi
    have na : ¬ NlOpt.Addressed (d.ph * d.nx) d.nu 0 d.ch (i * d.nx + j) := by
      rintro ⟨q, -⟩; omega
    have ad : NlOpt.Addressed 0 d.nx 0 d.ph (i * d.nx + j) := NlOpt.addressed_iff.2 ⟨i, j, by omega, hi, hj, by omega⟩
    constructor
    · change b'.1.get _ = _
      rw [g1.2, if_neg na, f1.2, if_pos ad, Nat.sub_zero, block_mod i hj]
    · change b'.2.get _ = _
      rw [g2.2, if_neg na, f2.2, if_pos ad, Nat.sub_zero, block_mod i hj]
  · intro i j hi hj
    have ad : NlOpt.Addressed (d.ph * d.nx) d.nu 0 d.ch (d.ph * d.nx + (i * d.nu + j)) :=
      NlOpt.addressed_iff.2 ⟨i, j, by omega, hi, hj, rfl⟩
    constructor
    · change b'.1.get _ = _
      rw [g1.2, if_pos ad, Nat.add_sub_cancel_left, block_mod i hj]
    · change b'.2.get _ = _
      rw [g2.2, if_pos ad, Nat.add_sub_cancel_left, block_mod i hj]

/-- The table line (5, 3, 7, 4) with the bounds ±1. -/
example : ∃ o o1 o2 : NlOpt ℚ, NlOpt.init ⟨5, 3, 0, 0, 7, 4, 0, 0⟩ = .ok o ∧
    o.setStateBounds ⟨5, 3, 0, 0, 7, 4, 0, 0⟩ (Vec.const 5 (.fin (-1))) (Vec.const 5 (.fin 1)) ⟨-1, -1⟩ = .ok (o1, true) ∧
    o1.setInputBounds ⟨5, 3, 0, 0, 7, 4, 0, 0⟩ (Vec.const 3 (.fin (-1))) (Vec.const 3 (.fin 1)) ⟨-1, -1⟩ = .ok (o2, true) ∧
    o2.lb.get 34 = .fin (-1) ∧ o2.ub.get 46 = .fin 1 := by
  obtain ⟨o, o1, o2, h0, h1, h2, h3, h4⟩ := c122_nl_bounds (K := ℚ) ⟨5, 3, 0, 0, 7, 4, 0, 0⟩ (by decide)
    (xlo := Vec.const 5 (.fin (-1))) (xup := Vec.const 5 (.fin 1)) (ulo := Vec.const 3 (.fin (-1)))
    (uup := Vec.const 3 (.fin 1)) rfl rfl rfl rfl
  exact ⟨o, o1, o2, h0, h1, h2, (h3 6 4 (by decide) (by decide)).1, (h4 3 2 (by decide) (by decide)).2⟩

end Mpc.Props
