import Mathlib.Algebra.BigOperators.Ring.Finset
import Mathlib.Algebra.BigOperators.Intervals
import Mathlib.Algebra.BigOperators.Fin
import Mathlib.Tactic.Ring
import Mathlib.Tactic.FieldSimp
import Verif.Proofs.NlHistory

/-
Difference quotients of affine functions, and the chain rule through scaling and move blocking.
-/
namespace Mpc.NlSpec
set_option linter.unusedSectionVars false

variable {d : Dims} {K : Type} [Field K]

/-- a sum over all decision variables, by kind -/
theorem sum_nZ (d : Dims) (w : Nat → K) :
    ∑ v ∈ Finset.range d.nZ, w v
      = ∑ k ∈ Finset.range d.ph, ∑ a ∈ Finset.range d.nx, w (stateIx d k a)
        + ∑ j ∈ Finset.range d.ch, ∑ b ∈ Finset.range d.nu, w (inputIx d j b) + w (slackIx d) := by
  unfold Dims.nZ
  rw [Finset.sum_range_succ, Finset.sum_range_add, Nat.mul_comm d.nu d.ch, sum_range_mul, sum_range_mul]
  rfl

variable {r n m : Nat} {φ : Traj r n K → Traj r m K → K → K} {c0 : K} {α β : Nat → Nat → K} {γ : K}

theorem IsAffine.diff (h : IsAffine φ c0 α β γ) (X X' : Traj r n K) (U U' : Traj r m K) (e e' : K) :
    φ X' U' e' - φ X U e = ∑ k : Fin r, ∑ a : Fin n, α k a * (X' k a - X k a)
      + ∑ k : Fin r, ∑ b : Fin m, β k b * (U' k b - U k b) + γ * (e' - e) := by
  rw [h X' U' e', h X U e]
  simp only [mul_sub, Finset.sum_sub_distrib]
  ring

theorem bump_sub (X : Traj r n K) (i j : Nat) (t : K) (k : Fin r) (a : Fin n) :
    bump X i j t k a - X k a = if (k : Nat) = i ∧ (a : Nat) = j then t else 0 := by
  unfold bump
  split_ifs <;> ring

theorem sum_ind (f : Nat → Nat → K) {i j : Nat} (hi : i < r) (hj : j < n) (t : K) :
    ∑ k : Fin r, ∑ a : Fin n, f k a * (if (k : Nat) = i ∧ (a : Nat) = j then t else 0) = f i j * t := by
  rw [Finset.sum_eq_single (⟨i, hi⟩ : Fin r), Finset.sum_eq_single (⟨j, hj⟩ : Fin n)]
  · simp
  · intro a _ ha
    rw [if_neg (fun h => ha (Fin.ext h.2)), mul_zero]
  · intro h; exact absurd (Finset.mem_univ _) h
  · intro k _ hk
    refine Finset.sum_eq_zero fun a _ => ?_
    rw [if_neg (fun h => hk (Fin.ext h.1)), mul_zero]
  · intro h; exact absurd (Finset.mem_univ _) h

theorem IsAffine.bumpX (h : IsAffine φ c0 α β γ) (X : Traj r n K) (U : Traj r m K) (e : K) {i j : Nat} (hi : i < r)
    (hj : j < n) (t : K) : φ (bump X i j t) U e = φ X U e + α i j * t := by
  have := h.diff X (bump X i j t) U U e e
  simp only [bump_sub, sub_self, mul_zero, Finset.sum_const_zero, add_zero] at this
  rw [sum_ind α hi hj] at this
  rw [← this]; ring

theorem IsAffine.bumpU (h : IsAffine φ c0 α β γ) (X : Traj r n K) (U : Traj r m K) (e : K) {i j : Nat} (hi : i < r)
    (hj : j < m) (t : K) : φ X (bump U i j t) e = φ X U e + β i j * t := by
  have := h.diff X X U (bump U i j t) e e
  simp only [bump_sub, sub_self, mul_zero, Finset.sum_const_zero, add_zero, zero_add] at this
  rw [sum_ind β hi hj] at this
  rw [← this]; ring

theorem IsAffine.slack (h : IsAffine φ c0 α β γ) (X : Traj r n K) (U : Traj r m K) (e t : K) :
    φ X U (e + t) = φ X U e + γ * t := by
  have := h.diff X X U U e (e + t)
  simp only [sub_self, mul_zero, Finset.sum_const_zero, zero_add] at this
  rw [add_sub_cancel_left] at this
  rw [← this]; ring

/-- Chain rule through scaling and move blocking: the row with entries as computed by the code is the derivative of
`φ` along the decision vector. -/
theorem IsAffine.chain {φ : Traj (d.ph + 1) d.nx K → Traj (d.ph + 1) d.nu K → K → K}
    (h : IsAffine φ c0 α β γ) (hch : 0 < d.ch) (hle : d.ch ≤ d.ph) (s su x0 z z' : Nat → K) (g : Nat → K)
    (gu : Nat → Nat → K)
    (hx : ∀ k a, k < d.ph → a < d.nx → g (stateIx d k a) = α (k + 1) a * s a)
    (hu : ∀ j b, j < d.ch → b < d.nu → g (inputIx d j b)
      = su b * ∑ k ∈ Finset.range d.ph, if min k (d.ch - 1) = j then gu k b else 0)
    (he : g (slackIx d) = γ)
    (hgu : ∀ k b, k + 1 < d.ph → b < d.nu → gu k b = β k b)
    (hgl : ∀ b, b < d.nu → gu (d.ph - 1) b = β (d.ph - 1) b + β d.ph b) :
    φ (codeStates d s x0 z') (inputs d su z') (z' (slackIx d)) - φ (codeStates d s x0 z) (inputs d su z) (z (slackIx d))
      = ∑ v ∈ Finset.range d.nZ, g v * (z' v - z v) := by
  rw [h.diff, sum_nZ d (fun v => g v * (z' v - z v)), he]
  congr 1
  congr 1
  · rw [Fin.sum_univ_succ]
    have h0 : ∑ a : Fin d.nx, α ((0 : Fin (d.ph + 1)) : Nat) a
        * (codeStates d s x0 z' 0 a - codeStates d s x0 z 0 a) = 0 := by
      refine Finset.sum_eq_zero fun a _ => ?_
      simp [codeStates]
    rw [h0, zero_add, Finset.sum_range]
    refine Finset.sum_congr rfl fun k _ => ?_
    rw [Finset.sum_range]
    refine Finset.sum_congr rfl fun a _ => ?_
    rw [hx k a k.2 a.2]
    simp only [codeStates, Fin.val_succ, Nat.succ_ne_zero, if_false, Nat.add_sub_cancel]
    ring
  · -- inputs
    have e1 : ∀ k : Fin (d.ph + 1), ∑ b : Fin d.nu, β k b * (inputs d su z' k b - inputs d su z k b)
        = ∑ b ∈ Finset.range d.nu, β k b * (su b * (z' (inputIx d (min k (d.ch - 1)) b)
            - z (inputIx d (min k (d.ch - 1)) b))) := by
      intro k
      rw [Finset.sum_range]
      refine Finset.sum_congr rfl fun b _ => ?_
      simp only [inputs, inputAt]; ring
    rw [Finset.sum_congr rfl (fun k _ => e1 k)]
    rw [Finset.sum_comm' (t' := Finset.range d.nu) (s' := fun _ => Finset.univ) (by simp)]
    rw [Finset.sum_comm (s := Finset.range d.ch)]
    refine Finset.sum_congr rfl fun b hb => ?_
    have hb := Finset.mem_range.1 hb
    -- right-hand side: exchange the sums over steps and decision inputs
    have e2 : ∑ j ∈ Finset.range d.ch, g (inputIx d j b) * (z' (inputIx d j b) - z (inputIx d j b))
        = ∑ k ∈ Finset.range d.ph, gu k b * (su b * (z' (inputIx d (min k (d.ch - 1)) b)
            - z (inputIx d (min k (d.ch - 1)) b))) := by
      have e3 : ∀ j ∈ Finset.range d.ch, g (inputIx d j b) * (z' (inputIx d j b) - z (inputIx d j b))
          = ∑ k ∈ Finset.range d.ph, if min k (d.ch - 1) = j
              then gu k b * (su b * (z' (inputIx d j b) - z (inputIx d j b))) else 0 := by
        intro j hj
        rw [hu j b (Finset.mem_range.1 hj) hb, mul_assoc, Finset.sum_mul, Finset.mul_sum]
        refine Finset.sum_congr rfl fun k _ => ?_
        split_ifs <;> ring
      rw [Finset.sum_congr rfl e3, Finset.sum_comm]
      refine Finset.sum_congr rfl fun k hk => ?_
      rw [Finset.sum_ite_eq, if_pos (Finset.mem_range.2 (by omega))]
    rw [e2]
    have e4 := Finset.sum_range (n := d.ph + 1) (fun k => β k b * (su b * (z' (inputIx d (min k (d.ch - 1)) b)
            - z (inputIx d (min k (d.ch - 1)) b))))
    rw [← e4]
    obtain ⟨p, hp⟩ : ∃ p, d.ph = p + 1 := ⟨d.ph - 1, by omega⟩
    rw [hp, Finset.sum_range_succ, Finset.sum_range_succ, Finset.sum_range_succ (n := p)]
    have hl := hgl b hb
    rw [hp] at hl
    rw [show p + 1 - 1 = p by omega] at hl
    have em : min (p + 1) (d.ch - 1) = min p (d.ch - 1) := by omega
    rw [hl, em]
    have e5 : ∑ k ∈ Finset.range p, gu k b * (su b * (z' (inputIx d (min k (d.ch - 1)) b)
            - z (inputIx d (min k (d.ch - 1)) b)))
        = ∑ k ∈ Finset.range p, β k b * (su b * (z' (inputIx d (min k (d.ch - 1)) b)
            - z (inputIx d (min k (d.ch - 1)) b))) := by
      refine Finset.sum_congr rfl fun k hk => ?_
      have := Finset.mem_range.1 hk
      rw [hgu k b (by omega) hb]
    rw [e5]
    ring

end Mpc.NlSpec
