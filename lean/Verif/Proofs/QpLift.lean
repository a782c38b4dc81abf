import Mathlib.Tactic.Ring
import Mathlib.Tactic.Linarith
import Verif.Spec.Optimal

/-
Decision vectors that are trajectories correspond to command sequences.
-/
namespace Mpc.Spec
variable {K : Type} [Field K]

theorem dot_congr {n : Nat} {M v w : Nat → K} (h : ∀ e, e < n → v e = w e) : dot n M v = dot n M w :=
  Finset.sum_congr rfl fun e he => by rw [h e (Finset.mem_range.1 he)]

theorem sqErr_congr {n : Nat} {w v v' ref : Nat → K} (h : ∀ e, e < n → v e = v' e) : sqErr n w v ref = sqErr n w v' ref :=
  Finset.sum_congr rfl fun e he => by rw [h e (Finset.mem_range.1 he)]

theorem outputOf_congr {d : Dims} {c : LinConfig K} {x x' dist : Nat → K} (h : ∀ e, e < d.nx → x e = x' e) (a : Nat) :
    outputOf d c x dist a = outputOf d c x' dist a := by unfold outputOf; rw [dot_congr h]

variable {d : Dims} {c : LinConfig K} {x0 u0 z : Nat → K} {u : Nat → Nat → K}

/-- the decision vector of a command sequence -/
def lift (d : Dims) (c : LinConfig K) (x0 u0 : Nat → K) (u : Nat → Nat → K) (i : Nat) : K :=
  let s := d.nx + d.nu
  if i < (d.ph + 1) * s then
    if i % s < d.nx then predict d c x0 u (i / s) (i % s) else before u0 u (i / s) (i % s - d.nx)
  else
    let j := i - (d.ph + 1) * s
    u (j / d.nu) (j % d.nu) - before u0 u (j / d.nu) (j % d.nu)

theorem stateAt_lift {k a : Nat} (hk : k ≤ d.ph) (ha : a < d.nx) : stateAt d (lift d c x0 u0 u) k a = predict d c x0 u k a := by
  have hs : a < d.nx + d.nu := by omega
  have h1 : k * (d.nx + d.nu) + a < (d.ph + 1) * (d.nx + d.nu) := by
    calc k * (d.nx + d.nu) + a < k * (d.nx + d.nu) + (d.nx + d.nu) := by omega
      _ = (k + 1) * (d.nx + d.nu) := by ring
      _ ≤ _ := Nat.mul_le_mul_right _ (by omega)
  have h2 : (k * (d.nx + d.nu) + a) % (d.nx + d.nu) = a := by rw [Nat.mul_add_mod_self_right, Nat.mod_eq_of_lt hs]
  have h3 : (k * (d.nx + d.nu) + a) / (d.nx + d.nu) = k := by
    rw [Nat.mul_comm, Nat.mul_add_div (by omega), Nat.div_eq_of_lt hs, Nat.add_zero]
  simp only [stateAt, lift, h1, if_true, h2, h3, ha]

theorem heldAt_lift {k a : Nat} (hk : k ≤ d.ph) (ha : a < d.nu) : heldAt d (lift d c x0 u0 u) k a = before u0 u k a := by
  have hs : d.nx + a < d.nx + d.nu := by omega
  have h1 : k * (d.nx + d.nu) + (d.nx + a) < (d.ph + 1) * (d.nx + d.nu) := by
    calc k * (d.nx + d.nu) + (d.nx + a) < k * (d.nx + d.nu) + (d.nx + d.nu) := by omega
      _ = (k + 1) * (d.nx + d.nu) := by ring
      _ ≤ _ := Nat.mul_le_mul_right _ (by omega)
  have h2 : (k * (d.nx + d.nu) + (d.nx + a)) % (d.nx + d.nu) = d.nx + a := by
    rw [Nat.mul_add_mod_self_right, Nat.mod_eq_of_lt hs]
  have h3 : (k * (d.nx + d.nu) + (d.nx + a)) / (d.nx + d.nu) = k := by
    rw [Nat.mul_comm, Nat.mul_add_div (by omega), Nat.div_eq_of_lt hs, Nat.add_zero]
  simp only [heldAt, lift, Nat.add_assoc, h1, if_true, h2, h3]
  rw [if_neg (by omega), Nat.add_sub_cancel_left]

theorem incrementAt_lift {k a : Nat} (ha : a < d.nu) :
    incrementAt d (lift d c x0 u0 u) k a = u k a - before u0 u k a := by
  have h2 : (k * d.nu + a) % d.nu = a := by rw [Nat.mul_add_mod_self_right, Nat.mod_eq_of_lt ha]
  have h3 : (k * d.nu + a) / d.nu = k := by
    rw [Nat.mul_comm, Nat.mul_add_div (by omega), Nat.div_eq_of_lt ha, Nat.add_zero]
  simp only [incrementAt, lift]
  rw [if_neg (by omega), show (d.ph + 1) * (d.nx + d.nu) + k * d.nu + a - (d.ph + 1) * (d.nx + d.nu) = k * d.nu + a by omega, h2, h3]

theorem inputAt_lift {k a : Nat} (hk : k < d.ph) (ha : a < d.nu) : inputAt d (lift d c x0 u0 u) k a = u k a := by
  unfold inputAt; rw [heldAt_lift (by omega) ha]; rfl

theorem lift_trajectory : Trajectory d c x0 u0 (lift d c x0 u0 u) := by
  refine ⟨fun a ha => stateAt_lift (Nat.zero_le _) ha, fun a ha => heldAt_lift (Nat.zero_le _) ha, fun k a hk ha => ?_,
    fun k a hk ha => ?_⟩
  · rw [inputAt_lift hk ha, heldAt_lift (by omega) ha, incrementAt_lift ha]; ring
  · rw [stateAt_lift (by omega) ha, dot_congr fun e he => stateAt_lift (by omega) he, dot_congr fun e he => inputAt_lift hk he]
    rfl

/-- the states of a trajectory are the predicted ones -/
theorem Trajectory.predict (h : Trajectory d c x0 u0 z) : ∀ k a, k ≤ d.ph → a < d.nx →
    stateAt d z k a = Spec.predict d c x0 (inputAt d z) k a
  | 0, a, _, ha => h.state0 a ha
  | k + 1, a, hk, ha => by
    rw [h.state k a (by omega) ha, dot_congr fun e he => Trajectory.predict h k e (by omega) he]
    rfl

theorem Trajectory.before (h : Trajectory d c x0 u0 z) {k a : Nat} (ha : a < d.nu) :
    heldAt d z k a = Spec.before u0 (inputAt d z) k a := by
  cases k with
  | zero => exact h.input0 a ha
  | succ k => rfl

theorem Trajectory.increment (h : Trajectory d c x0 u0 z) {k a : Nat} (hk : k < d.ph) (ha : a < d.nu) :
    incrementAt d z k a = inputAt d z k a - Spec.before u0 (inputAt d z) k a := by
  rw [← h.before ha, h.input k a hk ha]; ring

/-- the plan of a decision vector -/
theorem planOk_iff [LE K] : PlanOk d c x0 u0 z ↔ Trajectory d c x0 u0 z ∧ PlanCoded d c x0 u0 (inputAt d z) := by
  constructor
  · intro h
    have t := h.trajectory
    refine ⟨t, ⟨fun k a hk ha => ?_, fun k a hk ha => ?_, fun k a hk ha => ?_, fun k a hk hk' ha => ?_, fun k hk => ?_⟩⟩
    · rw [← t.predict k a hk ha]; exact h.states k a hk ha
    · rw [← t.before ha]; exact h.held k a hk ha
    · rw [← outputOf_congr fun e he => t.predict k e hk he]; exact h.outputs k a hk ha
    · have := h.frozen k a hk hk' ha
      rw [t.increment hk' ha] at this
      obtain ⟨k, rfl⟩ : ∃ j, k = j + 1 := ⟨k - 1, by omega⟩
      exact sub_eq_zero.1 this
    · rw [← dot_congr fun e he => t.predict k e hk he, ← dot_congr fun e he => t.before (k := k) he]; exact h.scalar k hk
  · rintro ⟨t, h⟩
    refine ⟨t, fun k a hk ha => ?_, fun k a hk ha => ?_, fun k a hk ha => ?_, fun k a hk hk' ha => ?_, fun k hk => ?_⟩
    · rw [t.predict k a hk ha]; exact h.states k a hk ha
    · rw [t.before ha]; exact h.held k a hk ha
    · rw [outputOf_congr fun e he => t.predict k e hk he]; exact h.outputs k a hk ha
    · rw [t.increment hk' ha]
      have := h.frozen k a hk hk' ha
      obtain ⟨k, rfl⟩ : ∃ j, k = j + 1 := ⟨k - 1, by omega⟩
      exact sub_eq_zero.2 this
    · rw [dot_congr fun e he => t.predict k e hk he, dot_congr fun e he => t.before (k := k) he]; exact h.scalar k hk

theorem predict_congr {v w : Nat → Nat → K} {n : Nat} (h : ∀ k a, k < n → a < d.nu → v k a = w k a) :
    ∀ k a, k ≤ n → a < d.nx → predict d c x0 v k a = predict d c x0 w k a
  | 0, _, _, _ => rfl
  | k + 1, a, hk, _ => by
    unfold predict
    rw [dot_congr fun e he => predict_congr h k e (by omega) he, dot_congr fun e he => h k e (by omega) he]

theorem before_congr {v w : Nat → Nat → K} {n : Nat} (h : ∀ k a, k < n → a < d.nu → v k a = w k a) {k a : Nat}
    (hk : k ≤ n) (ha : a < d.nu) : before u0 v k a = before u0 w k a := by
  cases k with
  | zero => rfl
  | succ k => exact h k a (by omega) ha

theorem planCost_congr {v w duRef : Nat → Nat → K} (h : ∀ k a, k < d.ph → a < d.nu → v k a = w k a) :
    planCost d c x0 u0 duRef v = planCost d c x0 u0 duRef w := by
  unfold planCost
  congr 1
  refine Finset.sum_congr rfl fun k hk => ?_
  have hk := Finset.mem_range.1 hk
  rw [sqErr_congr (v := outputOf d c (predict d c x0 v (k + 1)) (c.dist k)) (v' := outputOf d c (predict d c x0 w (k + 1)) (c.dist k))
      fun e _ => outputOf_congr (fun a ha => predict_congr h (k + 1) a (by omega) ha) e,
    sqErr_congr fun e he => h k e hk he,
    sqErr_congr (v := fun a => v k a - before u0 v k a) (v' := fun a => w k a - before u0 w k a)
      fun e he => by rw [h k e hk he, before_congr h (by omega) he]]

theorem planCoded_congr [LE K] {v w : Nat → Nat → K} (h : ∀ k a, k < d.ph → a < d.nu → v k a = w k a) (hv : PlanCoded d c x0 u0 v) :
    PlanCoded d c x0 u0 w := by
  have hp := predict_congr (c := c) (x0 := x0) h
  refine ⟨fun k a hk ha => ?_, fun k a hk ha => ?_, fun k a hk ha => ?_, fun k a hk hk' ha => ?_, fun k hk => ?_⟩
  · rw [← hp k a hk ha]; exact hv.states k a hk ha
  · rw [← before_congr h hk ha]; exact hv.held k a hk ha
  · rw [← outputOf_congr fun e he => hp k e hk he]; exact hv.outputs k a hk ha
  · rw [← h k a hk' ha, ← h (k - 1) a (by omega) ha]; exact hv.frozen k a hk hk' ha
  · rw [← dot_congr fun e he => hp k e hk he, ← dot_congr fun e he => before_congr h hk he]; exact hv.scalar k hk

/-- cost of a trajectory in terms of its commands -/
theorem Trajectory.cost (h : Trajectory d c x0 u0 z) (duRef : Nat → Nat → K) :
    trackingCost d c duRef z = planCost d c x0 u0 duRef (inputAt d z) := by
  unfold trackingCost planCost
  congr 1
  refine Finset.sum_congr rfl fun k hk => ?_
  have hk := Finset.mem_range.1 hk
  rw [sqErr_congr (v := outputOf d c (stateAt d z (k + 1)) (c.dist k))
      (v' := outputOf d c (Spec.predict d c x0 (inputAt d z) (k + 1)) (c.dist k))
      fun e _ => outputOf_congr (fun a ha => h.predict (k + 1) a (by omega) ha) e,
    sqErr_congr (v := incrementAt d z k) (v' := fun a => inputAt d z k a - Spec.before u0 (inputAt d z) k a)
      fun e he => h.increment hk he]

theorem initialCost_const (h : Trajectory d c x0 u0 z) : initialCost d c z =
    (sqErr d.ny (c.wY 0) (outputOf d c x0 (c.dist 0)) (c.yRef 0) + sqErr d.nu (c.wU 0) u0 (c.uRef 0)) / 2 := by
  unfold initialCost
  rw [sqErr_congr (v := outputOf d c (stateAt d z 0) (c.dist 0)) (v' := outputOf d c x0 (c.dist 0))
      fun e _ => outputOf_congr (fun a ha => h.state0 a ha) e, sqErr_congr fun e he => h.input0 e he]

end Mpc.Spec
